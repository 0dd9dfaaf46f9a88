import Verif.Props.DeadReckoning
import Verif.Props.NodeDemoPose
import Verif.Proofs.NodeDemoExact

/-!
# C165: a run without noise
-/

set_option linter.unusedSectionVars false

namespace Mcl3dl
namespace Node
namespace Demo

/-- The default parameters, without noise. -/
noncomputable def PQ : Params :=
  { P0 with
    errLinLin := 0, errLinAng := 0, errAngLin := 0, errAngAng := 0
    resampleVar := State6.ofRPY ⟨0, 0, 0⟩ ⟨0, 0, 0⟩, expansionVar := State6.ofRPY ⟨0, 0, 0⟩ ⟨0, 0, 0⟩ }

theorem noiseless_PQ : Noiseless PQ := by
  refine ⟨⟨rfl, rfl, rfl, rfl⟩, ?_, ?_⟩
  all_goals
    intro i
    fin_cases i <;> rfl

theorem sane_PQ : Sane PQ := by
  obtain ⟨⟨h1, h2, h3, h4, h5, h6, h7, h8⟩, h9⟩ := sane_P0
  exact ⟨⟨h1, h2, h3, h4, h5, h6, h7, h8⟩, h9⟩

theorem works_PQ : Works PQ exactLib fun _ => True := by
  obtain ⟨h1, h2, h3⟩ := exactWorks
  exact ⟨h1, h2, h3⟩

theorem batchStep_PQ (a : Bool) (l : List Scan) (e : Event × Env) : batchStep PQ a l e = batchStep P0 a l e := rfl

theorem batchView_PQ (h : History) : batchView PQ h = batchView P0 h := rfl

/-- All particles of the new node are at the origin. -/
theorem start_PQ {n0 : Node Unit} (hs : start PQ exactLib (env 0) motion0 = .ok n0) :
    ∀ p ∈ n0.loc.pf.particles, p.state.pos = 0 ∧ Quat.SameRotation p.state.rot 1 := by
  obtain ⟨_, ns, hns, rfl⟩ := start_ok hs
  obtain ⟨hl, hns⟩ := noiseStates_zero _ _ _ _ _ hns
  intro p hp
  simp only [PF.Filter.init, List.mem_mapIdx] at hp
  obtain ⟨i, hi, rfl⟩ := hp
  have hi' : i < ns.length := by
    rw [hl]
    simpa [PF.Filter.new] using hi
  have hmem : pickNoise ns i ∈ ns := by
    simp [pickNoise, List.getD, hi']
  obtain ⟨h1, h2⟩ := hns _ hmem
  refine ⟨?_, ?_⟩
  · show (pickNoise ns i).pos = 0
    rw [h1]; exact P0_initialPose.1
  · show Quat.SameRotation (pickNoise ns i).rot 1
    rw [h2, show PQ.initialPose.rot = 1 from P0_initialPose.2]
    apply Quat.C34_roundtrip
    · show (0:ℝ) * 0 + 0 * 0 + 0 * 0 + 1 * 1 = 1; norm_num
    · rw [Quat.rotate_z]
      show |_| < (1:ℝ)
      simp [show (1 : Quat ℝ) = ⟨0, 0, 0, 1⟩ from rfl]

/-- A map, a cloud, and odometry that reports one metre ahead. -/
noncomputable def aheadHistory : History :=
  [(.odom (exOdom 1), env 1), (.mapcloud 1 (msg 10), env 1), (.cloud ⟨"laser", 2⟩ (msg 10), env 2),
    (.odom (exOdom 2), env 2)]

theorem odom_env (t : ℝ) (ev : Event) (h1 : ∀ m, ev = .odom m → ∃ s, m = exOdom s) (h2 : ∀ m, ev ≠ .imu m) :
    GoodMsgs UnitQ UnitQ (ev, env t) := by
  have h0 : (1 : Quat ℝ) = ⟨0, 0, 0, 1⟩ := rfl
  refine ⟨fun m hm => ?_, fun m hm => absurd hm (h2 m), fun a b s t' ht => ?_⟩
  · obtain ⟨s, rfl⟩ := h1 m hm
    norm_num [UnitQ, exOdom, h0, Quat.dot]
  · have : t' = tf0 := by
      simpa [env, eq_comm] using ht
    rw [this]
    norm_num [UnitQ, tf0, h0, Quat.dot]

theorem ahead_travel : (travel [] aheadHistory).trans = ⟨1, 0, 0⟩ ∧ (travel [] aheadHistory).rot = 1 := by
  have hu : useOf (some (exOdom 1).stamp) (exOdom 2).stamp = .use := by norm_num [useOf, exOdom]
  have hm : odomMsgs aheadHistory = [exOdom 1, exOdom 2] := rfl
  have : travel [] aheadHistory = Tf.followed ⟨⟨0, 0, 0⟩, 1⟩ (exOdom 1) (exOdom 2) := by
    rw [travel, hm]
    have h0 : odomRef [] = none := rfl
    have h1 : travelStep (⟨⟨0, 0, 0⟩, 1⟩, none) (exOdom 1) = (⟨⟨0, 0, 0⟩, 1⟩, some (exOdom 1)) := rfl
    rw [List.foldl_cons, List.foldl_cons, List.foldl_nil, h0, h1]
    simp [travelStep, hu]
  rw [this]
  have h1 : (1 : Quat ℝ) = ⟨0, 0, 0, 1⟩ := rfl
  constructor
  · simp only [Tf.followed, exOdom, h1]
    ext <;> simp [Vec3.add_x, Vec3.add_y, Vec3.add_z, Vec3.sub_x, Vec3.sub_y, Vec3.sub_z, Quat.rotate_x, Quat.rotate_y,
      Quat.rotate_z, Quat.inv, Quat.dot, Quat.conj, Quat.sdiv]
    norm_num
  · simp only [Tf.followed, exOdom, h1]
    ext <;> simp [Quat.mul_x, Quat.mul_y, Quat.mul_z, Quat.mul_w, Quat.inv, Quat.dot, Quat.conj, Quat.sdiv]

end Demo

/-- The hypotheses of C165 are met, and the estimate is the one of dead reckoning: one metre ahead of the initial pose. -/
example : ∃ n0 n1 n outs o pos rot cov, start Demo.PQ Demo.exactLib (Demo.env 0) Demo.motion0 = .ok n0 ∧
    run Demo.PQ Demo.exactLib n0 Demo.aheadHistory = .ok (n1, outs) ∧
    step Demo.PQ Demo.exactLib (Demo.env 3) n1 (.cloud ⟨"laser", 3⟩ (Demo.msg 10)) = .ok (n, o) ∧
    .pose 2 Demo.PQ.mapFrame pos rot cov ∈ o ∧ n.loc.statePrev.pos = ⟨1, 0, 0⟩ ∧
    Quat.SameRotation n.loc.statePrev.rot 1 := by
  have hx : ∀ x, HasXYZ (Demo.msg x) := by simp [HasXYZ, Demo.msg]
  set e : Event × Env := (.cloud ⟨"laser", 3⟩ (Demo.msg 10), Demo.env 3) with he
  have hok : ∀ e' ∈ Demo.aheadHistory ++ [e], e'.2.Valid ∧ KeepsPoints e'.2 ∧ SafeEvent e'.1 := by
    simp [Demo.aheadHistory, he, SafeEvent, hx, Demo.env_valid, Demo.keeps]
  obtain ⟨n0, hs, n, outs, hr, hl⟩ := C110_no_crash Demo.sane_PQ Demo.works_PQ (Demo.env 0) Demo.motion0 _ hok
  obtain ⟨n1, os, o, g1, g2, rfl⟩ := run_snoc_ok hr
  have hv : HistValid (Demo.aheadHistory ++ [e]) := fun e he => (hok e he).1
  have hrg : RegularClouds (Demo.aheadHistory ++ [e]) := by
    intro e' he' header m hm
    simp only [Demo.aheadHistory, he, List.cons_append, List.nil_append, List.mem_cons, List.not_mem_nil, or_false] at he'
    rcases he' with rfl | rfl | rfl | rfl | rfl <;> cases hm <;> exact Demo.regular_msg _
  have hstep : (batchStep Demo.PQ (batchView Demo.PQ Demo.aheadHistory).1 (batchView Demo.PQ Demo.aheadHistory).2 e).1 =
      some ([] ++ [⟨⟨"laser", 2⟩, [⟨10, 0, 0⟩]⟩]) := by
    rw [Demo.batchView_PQ, Demo.batchStep_PQ]
    simp [batchView, Demo.aheadHistory, batchStep, mapAvailable, Demo.validCloud_msg, Demo.not_completes_nil,
      Demo.scanOf_msg, Demo.completes_one, he]
  have hm : batches [o] = [true] := by
    rcases C111_batches hrg hs hr with ⟨h3, _⟩ | ⟨_, _, _, h3 | h3⟩
    · rw [hstep] at h3; cases h3
    · exact h3
    · exfalso
      rcases (step_view (show 0 ≤ Demo.PQ.numParticles from by simp [Demo.PQ]) (Demo.env_valid 3) g2).batch with
        ⟨hbn, _⟩ | ⟨_, _, ⟨hne, _⟩ | ⟨_, hbt⟩⟩
      · rw [h3] at hbn; cases hbn
      · exact hne (by simp [Demo.PQ, Params.toSize, Nat.mod_one])
      · rw [h3] at hbt; cases hbt
  have hC := (C112_measured (P := Demo.PQ) (by
    simp [Demo.PQ, Demo.P0, Params.loadFrom, Params.loadLike, Server.intD, Server.getInt, Params.toSize])
    (Demo.env_valid 0) hv hrg hs hr hstep hm).2
  obtain ⟨⟨pos, rot, cov, hp⟩, _⟩ := (hC ⟨by simp [he, Demo.env], fun _ _ => by simp [he, Demo.env]⟩ Demo.tf0 rfl).2
    (Demo.usable_msg 3 2 10 (by norm_num) (by norm_num))
  have hpm : .pose 2 Demo.PQ.mapFrame pos rot cov ∈ o := by
    have : Out.pose 2 Demo.PQ.mapFrame pos rot cov ∈ o.filter (fun x => (Out.poseCov x).isSome) := by rw [hp]; simp
    exact (List.mem_filter.1 this).1
  have h1 : (1 : Quat ℝ) = ⟨0, 0, 0, 1⟩ := rfl
  obtain ⟨e1, e2⟩ := C165_estimate (n := n0) (h0 := []) (h := Demo.aheadHistory) (outs := []) Demo.noiseless_PQ
    (by simp [Demo.PQ, Demo.P0, Params.loadFrom, Server.boolD, Server.getBool])
    (show 0 < Demo.P0.divYaw by simp [Demo.P0_divYaw])
    (by norm_num [Demo.PQ, Demo.P0, Params.loadFrom, Params.loadBeam, Server.dblD, Server.getDouble])
    (by norm_num [Demo.PQ, Demo.P0, Params.loadFrom, Params.loadLike, Server.dblD, Server.getDouble])
    (by norm_num [Demo.PQ, Demo.P0, Params.loadFrom, Server.dblD, Server.getDouble])
    (by norm_num [Demo.PQ, Demo.P0, Params.loadFrom, Server.dblD, Server.getDouble])
    (Demo.env_valid 0) (fun e he => hv e (List.mem_append_left _ he))
    (by
      intro e' he'
      simp only [Demo.aheadHistory, List.nil_append, List.mem_cons, List.not_mem_nil, or_false] at he'
      rcases he' with rfl | rfl | rfl | rfl <;>
        exact Demo.odom_env _ _ (fun m hm => by cases hm <;> exact ⟨_, rfl⟩) (fun m hm => by cases hm))
    (by simp [Demo.aheadHistory, placesNone]) hs rfl g1 g2 hpm ⟨0, 0, 0⟩ 1 (by rw [h1]; norm_num [Quat.dot]) (by
      intro s hs'
      obtain ⟨p, hp, rfl⟩ := List.mem_map.1 hs'
      exact Demo.start_PQ hs p hp)
  rw [Demo.ahead_travel.2, quat_mul_one] at e2
  rw [Demo.ahead_travel.1] at e1
  refine ⟨n0, n1, n, os, o, pos, rot, cov, hs, g1, g2, hpm, ?_, e2.2 ?_⟩
  · rw [e1, h1]
    ext <;> simp [Vec3.add_x, Vec3.add_y, Vec3.add_z, Quat.rotate_x, Quat.rotate_y, Quat.rotate_z]
  · simp [Quat.MixedHalfTurn, h1]

/-- The hypotheses of `C165_between` are met. -/
example : UnitMessages ([(.odom (exOdom 1), Demo.env 1)] ++ [(.odom (exOdom 2), Demo.env 2)]) ∧
    odomRef [(.odom (exOdom 1), Demo.env 1)] = some (exOdom 1) ∧
    odomRef ([(.odom (exOdom 1), Demo.env 1)] ++ [(.odom (exOdom 2), Demo.env 2)]) = some (exOdom 2) ∧
    NoJump (some (exOdom 1)) (odomMsgs [(.odom (exOdom 2), Demo.env 2)]) := by
  have hu : useOf (some (exOdom 1).stamp) (exOdom 2).stamp = .use := by norm_num [useOf, exOdom]
  refine ⟨?_, rfl, ?_, ?_⟩
  · intro e he
    simp only [List.cons_append, List.nil_append, List.mem_cons, List.not_mem_nil, or_false] at he
    rcases he with rfl | rfl <;>
      exact Demo.odom_env _ _ (fun m hm => by cases hm; exact ⟨_, rfl⟩) (fun m hm => by cases hm)
  · show odomRefStep (some (exOdom 1)) (exOdom 2) = some (exOdom 2)
    rw [odomRefStep, show useOf ((some (exOdom 1)).map OdomMsg.stamp) (exOdom 2).stamp = .use from hu]
  · exact ⟨by rw [show useOf ((some (exOdom 1)).map OdomMsg.stamp) (exOdom 2).stamp = .use from hu]; decide, trivial⟩

end Node
end Mcl3dl
