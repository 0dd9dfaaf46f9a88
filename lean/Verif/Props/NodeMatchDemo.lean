import Verif.Props.NodeDemoPose

/-! # C100, C113 - C116 on the demo run -/

set_option linter.unusedSectionVars false

namespace Mcl3dl
namespace Node

theorem Demo.P0_kd : kdCfg Demo.P0 = ⟨20, 2 / 5, false⟩ := by
  simp only [kdCfg, cmax]
  norm_num [Demo.P0, Params.loadFrom, Params.loadLike, Server.dblD, Server.getDouble]

theorem Demo.P0_unmatch : Demo.P0.unmatchOutputDist = 1 / 2 := by
  norm_num [Demo.P0, Params.loadFrom, Server.dblD, Server.getDouble]

theorem Demo.P0_match : Demo.P0.matchOutputDist = 1 / 10 := by
  norm_num [Demo.P0, Params.loadFrom, Server.dblD, Server.getDouble]

theorem Demo.P0_interval : Demo.P0.matchOutputInterval = 1 / 5 := by
  norm_num [Demo.P0, Params.loadFrom, Server.dblD, Server.getDouble]

/-- The demo run publishes both clouds. -/
theorem Demo.match_published {m x y : ℝ} {n0 n1 n : Node Unit} {outs : List (List Out)} {o : List Out}
    (hs : start Demo.P0 Demo.exactLib (Demo.env 0) Demo.motion0 = .ok n0)
    (hr : run Demo.P0 Demo.exactLib n0 (Demo.poseHistory m x y) = .ok (n1, outs))
    (hst : step Demo.P0 Demo.exactLib Demo.lastCloud.2 n1 Demo.lastCloud.1 = .ok (n, o)) {frame : String}
    {pos : Vec3 ℝ} {rot : Quat ℝ} {cov : ℕ → ℕ → ℝ} (hp : .pose 3 frame pos rot cov ∈ o) :
    (∃ l, .matched 3 l ∈ o) ∧ ∃ l, .unmatched 3 l ∈ o := by
  have hl : lastMatch outs = 0 := by
    have h0 : n0.loc.matchLast = 0 := by obtain ⟨_, ns, _, rfl⟩ := start_ok hs; rfl
    rw [← (Demo.poseHistory_run hs hr).2.2.2.1, run_lastMatch hr, lastMatch, h0]
  obtain ⟨h1, h2⟩ := (C116_rate hs hr hst).2 _ _ _ _ _ hp
  have hd : matchDue Demo.P0.matchOutputInterval (lastMatch outs) 3 := by
    left; rw [hl, Demo.P0_interval]; norm_num
  exact ⟨h1.2 ⟨hd, rfl⟩, h2.2 ⟨hd, rfl⟩⟩

/-- C100, beyond that range (the default parameters): `unmatch_output_dist` is beyond the search range the kd-tree
was built for, and a point 0.46 m from a map point in the next chunk is published as unmatched. -/
theorem C100_beyond_search_range : ∃ n0 n outs o, start Demo.P0 Demo.exactLib (Demo.env 0) Demo.motion0 = .ok n0 ∧
    run Demo.P0 Demo.exactLib n0 (Demo.poseHistory (409 / 20) 10 (1999 / 100) ++ [Demo.lastCloud]) = .ok (n, outs ++ [o]) ∧
    ∃ l, .unmatched 3 l ∈ o ∧ ∃ x ∈ l,
      Near ⟨1, 1, 5⟩ (mapView Demo.P0 (Demo.poseHistory (409 / 20) 10 (1999 / 100))).active
        Demo.P0.unmatchOutputDist x := by
  obtain ⟨n0, n1, n, outs, o, hs, hr, hr', hst, rot, cov, hp, hrot⟩ :=
    Demo.pose_runs (409 / 20) 10 (1999 / 100) (by norm_num) (by norm_num)
  refine ⟨n0, n, outs, o, hs, hr', ?_⟩
  obtain ⟨_, l, hl⟩ := Demo.match_published hs hr hst hp
  refine ⟨l, hl, ⟨1999 / 100, 0, 0⟩, ?_, ⟨⟨⟨409 / 20, 0, 0⟩, 0⟩, ?_, ?_⟩⟩
  · obtain ⟨n1', outs1, h1, ⟨_, hno⟩ | ⟨_, hun, _⟩⟩ := step_match (Demo.poseHistory_regular' _ _ _) hs hr'
      (Demo.poseHistory_step _ _ _) (t := Demo.tf0) rfl hp
    · exact absurd hl (hno _ _)
    rw [(hun _ _ hl).2, List.mem_filter]
    constructor
    · simp [placed, Demo.lastCloud, Demo.env, labelled_single, Demo.tf0_point, hrot]
      right
      show _ = (⟨1999 / 100 + 0, 0 + 0, 0 + 0⟩ : Vec3 ℝ)
      simp
    · rw [decide_eq_true_eq, found, (C85_active_map hs h1).2.1, Demo.poseHistory_map, Demo.P0_kd, Demo.P0_unmatch]
      have hq : ChunkedKdtree.chunkId (⟨20, 2/5, false⟩ : ChunkedKdtree.Cfg ℝ) ⟨1999 / 100, 0, 0⟩ = ⟨0, 0, 0⟩ := by
        simp only [ChunkedKdtree.chunkId, ChunkId.mk.injEq]
        refine ⟨?_, ?_, ?_⟩ <;> rw [Int.floor_eq_iff] <;> norm_num
      have hp : ChunkedKdtree.chunkId (⟨20, 2/5, false⟩ : ChunkedKdtree.Cfg ℝ) ⟨409 / 20, 0, 0⟩ = ⟨1, 0, 0⟩ := by
        simp only [ChunkedKdtree.chunkId, ChunkId.mk.injEq]
        refine ⟨?_, ?_, ?_⟩ <;> rw [Int.floor_eq_iff] <;> norm_num
      have hempty : ChunkedKdtree.setInputCloud (⟨20, 2/5, false⟩ : ChunkedKdtree.Cfg ℝ) [⟨409 / 20, 0, 0⟩] ⟨0, 0, 0⟩ = [] := by
        rw [ChunkedKdtree.content]
        simp only [List.zipIdx_cons, List.zipIdx_nil, List.filter_cons, List.filter_nil]
        rw [if_neg]
        · rfl
        · rw [decide_eq_true_eq, ChunkedKdtree.mem_targets, hp]
          norm_num [ChunkedKdtree.bound]
      unfold ChunkedKdtree.radiusSearch
      rw [if_neg (by norm_num)]
      simp only [hq, List.map_cons, List.map_nil, hempty, if_true]
  · rw [Demo.poseHistory_map]; simp
  · rw [Demo.P0_unmatch]
    norm_num [weightedDist]

/-- C113, C114, C115, C116 and C100 are not empty: a run with the default parameters in which all particles are at
the origin, a pose at the origin is published, the 64 particles left have equal weights, and both clouds of
points are published. -/
example : ∃ n0 n1 n outs o, start Demo.P0 Demo.exactLib (Demo.env 0) Demo.motion0 = .ok n0 ∧
    run Demo.P0 Demo.exactLib n0 (Demo.poseHistory 10 10 5) = .ok (n1, outs) ∧
    step Demo.P0 Demo.exactLib Demo.lastCloud.2 n1 Demo.lastCloud.1 = .ok (n, o) ∧
    n1.loc.pf.particles.length = 65 ∧ (∀ p ∈ n1.loc.pf.particles, p.state.pos = 0) ∧
    (∃ rot cov, .pose 3 Demo.P0.mapFrame 0 rot cov ∈ o) ∧ weightSum n = 1 ∧
    (∃ l, .matched 3 l ∈ o) ∧ ∃ l, .unmatched 3 l ∈ o := by
  obtain ⟨n0, n1, n, outs, o, hs, hr, hr', hst, rot, cov, hp, hrot⟩ :=
    Demo.pose_runs 10 10 5 (by norm_num) (by norm_num)
  obtain ⟨h1, h2, _⟩ := Demo.poseHistory_run hs hr
  obtain ⟨hm, hu⟩ := Demo.match_published hs hr hst hp
  have hx : ∀ x, HasXYZ (Demo.msg x) := by simp [HasXYZ, Demo.msg]
  have hx2 : ∀ x y, HasXYZ (Demo.msg2 x y) := by simp [HasXYZ, Demo.msg2]
  have hne : n.loc.pf.particles ≠ [] := C110_particles Demo.sane_P0 Demo.exactWorks (Demo.env 0) Demo.motion0 _ (by
    simp [Demo.poseHistory, Demo.lastCloud, SafeEvent, hx, hx2, Demo.env_valid, Demo.keeps]) hs hr'
  exact ⟨n0, n1, n, outs, o, hs, hr, hst, h1, fun p hp => (h2 p hp).1, ⟨rot, cov, hp⟩,
    (C115_after_pose (Demo.env_valid 4) hst hp hne).1, hm, hu⟩

/-- The hypotheses of `C100_exact` on the parameters are met by the defaults with an
`unmatch_output_dist` of 0.3 m. -/
example : let P : Params := { Demo.P0 with unmatchOutputDist := 3 / 10 }
    0 < (kdCfg P).maxSearchRadius ∧ 2 * (kdCfg P).maxSearchRadius ≤ P.mapChunk ∧ 0 ≤ P.unmatchOutputDist ∧
      P.unmatchOutputDist ≤ (kdCfg P).maxSearchRadius ∧
      (∀ pts q r num, ExactSearch pts (weightedDist ⟨1, 1, 5⟩ q) r num (Demo.exactLib.flann pts q r num)) := by
  intro P
  have h1 : kdCfg P = kdCfg Demo.P0 := rfl
  have h2 : P.mapChunk = (kdCfg Demo.P0).chunkLength := rfl
  have h3 : P.unmatchOutputDist = 3 / 10 := rfl
  rw [h1, h2, h3, Demo.P0_kd]
  exact ⟨by norm_num, by norm_num, by norm_num, by norm_num, fun pts q r num => Demo.exactFlann_spec pts q r num⟩

end Node
end Mcl3dl
