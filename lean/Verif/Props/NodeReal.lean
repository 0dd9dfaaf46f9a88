import Verif.Proofs.NodeReal

/-! # C139: with its own ray casters the node never crashes, except for stated reasons -/

set_option linter.unusedSectionVars false

namespace Mcl3dl
namespace Node

/-- C139, kd-tree caster: if the kd-tree search is exact, the parameters are sensible, the sensors are mounted so that
no point used is exactly at its sensor or absurdly far away, and the events are sensible, then the node starts and
deals with the whole history, or there is a measurement at which the mean directions of the particles are parallel, so
that no orientation can be computed from them. -/
theorem C139_kdtree {P : Params} (hP : Sane P) (hM : Measures P) (hmw : 0 ≤ P.like.matchWeight) (hdda : P.useDda = false)
    (hg : 0 < P.mapDownsample.x ∧ 0 < P.mapDownsample.y ∧ 0 < P.mapDownsample.z) (hhit : 0 ≤ P.beam.hitRange)
    {flann : List (Vec3 ℝ) → Vec3 ℝ → ℝ → ℕ → List (ℕ × ℝ)} {w : Vec3 ℝ} (hw : 1 ≤ w.x ∧ 1 ≤ w.y ∧ 1 ≤ w.z)
    (hfl : ∀ pts q r num, ExactSearch pts (weightedDist w q) r num (flann pts q r num))
    (solve3 : Matrix (Fin 3) (Fin 3) ℝ → (Fin 3 → ℝ) × Matrix (Fin 3) (Fin 3) ℝ)
    (solve6 : (Fin 6 → Fin 6 → ℝ) → (Fin 6 → ℝ) × (Fin 6 → Fin 6 → ℝ)) {D : ℝ}
    (hD : (D + P.beam.hitRange) / min (min P.mapDownsample.x P.mapDownsample.y) P.mapDownsample.z < 2 ^ 31)
    (env0 : Env) (motion0 : Motion ℝ) (h : History) (hv : ∀ e ∈ h, e.2.Valid ∧ KeepsPoints e.2 ∧ SafeEvent e.1)
    (hreg : RegularClouds h) (hu : UnitMessages h) (hsee : SensorsSee P D h) :
    ∃ n0, start P (realLib P flann solve3 solve6) env0 motion0 = .ok n0 ∧
      ((∃ n outs, run P (realLib P flann solve3 solve6) n0 h = .ok (n, outs) ∧ outs.length = h.length) ∨
        ∃ h1 e h2 n outs like, h = h1 ++ e :: h2 ∧ run P (realLib P flann solve3 solve6) n0 h1 = .ok (n, outs) ∧ n.loc.pf.particles ≠ [] ∧
          Weighed P (realLib P flann solve3 solve6) w h1 e n like ∧ Ambiguous P n like) := by
  obtain ⟨n0, hs, hc⟩ := run_real hP hM hmw (lib := realLib P flann solve3 solve6) hw hfl (I := fun c => ∃ s, c = .inr s)
    (ok := fun _ l e => 0 < DDA.len (e - l) ∧ DDA.len (e - l) ≤ D) ∅ (env0 := env0) (motion0 := motion0) hv hreg hu
    (by simp [realLib, hdda])
    (fun h1 h2 n0 n outs _ hs hr hav model hb => kd_casts hM hw hfl hg hhit hD (mapInv_of_run hs hr) hav hb)
    (by
      intro h1 e h2 hh s last frame stamp t p hs _ ht hp
      have h3 := hsee e (by rw [hh]; simp) last frame stamp t ht p hp
      rw [ray_length hs]
      exact ⟨dist_pos h3.1, h3.2⟩)
  refine ⟨n0, hs, ?_⟩
  rcases hc with ⟨n, outs, hr, hl, _⟩ | ⟨h1, e, h2, n, outs, hh, hr, hne, ⟨_, _, _, _, _, _, ha, _⟩ | ⟨like, hlk, ha⟩⟩
  · exact .inl ⟨n, outs, hr, hl⟩
  · exact absurd ha (Set.notMem_empty _)
  · exact .inr ⟨h1, e, h2, n, outs, like, hh, hr, hne, hlk, ha⟩

/-- C139, DDA caster: if moreover all maps have different stamps and fit, the sensors are not absurdly far from the
robot, then the node starts and deals with the whole history, or there is a measurement at which some particle is
farther than `R` from the origin along an axis, or at which no orientation can be computed. -/
theorem C139_dda {P : Params} (hP : Sane P) (hM : Measures P) (hmw : 0 ≤ P.like.matchWeight) (hdda : P.useDda = true)
    (hg : 0 < P.ddaGridSize) (hhit : 0 ≤ P.beam.hitRange)
    {flann : List (Vec3 ℝ) → Vec3 ℝ → ℝ → ℕ → List (ℕ × ℝ)} {w : Vec3 ℝ} (hw : 1 ≤ w.x ∧ 1 ≤ w.y ∧ 1 ≤ w.z)
    (hfl : ∀ pts q r num, ExactSearch pts (weightedDist w q) r num (flann pts q r num))
    (solve3 : Matrix (Fin 3) (Fin 3) ℝ → (Fin 3 → ℝ) × Matrix (Fin 3) (Fin 3) ℝ)
    (solve6 : (Fin 6 → Fin 6 → ℝ) → (Fin 6 → ℝ) × (Fin 6 → Fin 6 → ℝ)) {D L R : ℝ}
    (env0 : Env) (motion0 : Motion ℝ) (h : History) (hv : ∀ e ∈ h, e.2.Valid ∧ KeepsPoints e.2 ∧ SafeEvent e.1)
    (hreg : RegularClouds h) (hu : UnitMessages h) (hsee : SensorsSee P D h)
    (hmount : ∀ e ∈ h, ∀ last frame stamp t, e.2.tfFull P.baseFrame last frame stamp P.odomFrame = some t →
      DDA.len t.trans ≤ L)
    (hstamps : ((maps P h).map DDA.Cloud.stamp).Nodup)
    (hfit : ∀ c ∈ maps P h, GridFits P.ddaGridSize (R + L + D + P.beam.hitRange) c) :
    ∃ n0, start P (realLib P flann solve3 solve6) env0 motion0 = .ok n0 ∧
      ((∃ n outs, run P (realLib P flann solve3 solve6) n0 h = .ok (n, outs) ∧ outs.length = h.length) ∨
        ∃ h1 e h2 n outs, h = h1 ++ e :: h2 ∧ run P (realLib P flann solve3 solve6) n0 h1 = .ok (n, outs) ∧ n.loc.pf.particles ≠ [] ∧
          ((∃ b s, Measuring P h1 e b s ∧
              ∃ q ∈ n.loc.pf.particles, R < |q.state.pos.x| ∨ R < |q.state.pos.y| ∨ R < |q.state.pos.z|) ∨
            ∃ like, Weighed P (realLib P flann solve3 solve6) w h1 e n like ∧ Ambiguous P n like)) := by
  obtain ⟨n0, hs, hc⟩ := run_real hP hM hmw (lib := realLib P flann solve3 solve6) hw hfl
    (I := fun c => ∃ s, c = .inl s ∧ DDA.Reachable (ddaCfg P) {c | c ∈ maps P h} s)
    (ok := fun _ l e => l ≠ e ∧
      ∀ i : Fin 3, |(DDA.rayPoint l e (DDA.len (e - l) + P.beam.hitRange)).get i| ≤ R + L + D + P.beam.hitRange)
    {(⟨1, 0, 0⟩, R), (⟨-1, 0, 0⟩, R), (⟨0, 1, 0⟩, R), (⟨0, -1, 0⟩, R), (⟨0, 0, 1⟩, R), (⟨0, 0, -1⟩, R)}
    (env0 := env0) (motion0 := motion0) hv hreg hu
    ⟨DDA.St.fresh, by simp [realLib, hdda], .fresh⟩
    (by
      intro h1 h2 n0 n outs hh hs hr hav model hb
      obtain ⟨ver, st, hin⟩ := input_of_inv (mapInv_of_run hs hr) hav
      have hin' := input_maps hs hr
      rw [hin] at hin'
      have hmem := (maps_prefix P h1 h2).subset (List.mem_of_getLast? hin'.symm)
      rw [← hh] at hmem
      exact dda_castsRays hg hhit (maps_differ hstamps) hin hmem (hfit _ hmem) hb)
    (by
      intro h1 e h2 hh s last frame stamp t p hs hH ht hp
      have hmem : e ∈ h := by rw [hh]; simp
      have h3 := hsee e hmem last frame stamp t ht p hp
      have h4 := hmount e hmem last frame stamp t ht
      have hlen := ray_length hs t.trans p
      have hpos := dist_pos h3.1
      refine ⟨?_, fun i => ?_⟩
      · intro heq
        rw [← heq] at hlen
        have hz : ∀ x : Vec3 ℝ, DDA.len (x - x) = 0 := by
          intro x
          have : x - x = ⟨0, 0, 0⟩ := by
            show (⟨x.x - x.x, x.y - x.y, x.z - x.z⟩ : Vec3 ℝ) = _
            simp
          rw [this]
          simp [DDA.len]
        rw [hz] at hlen
        linarith
      · refine (rayPoint_bound (by rw [hlen]; linarith) i).trans ?_
        rw [hlen]
        have h5 : |(s.pos + s.rot.rotate t.trans).get i| ≤ R + L := by
          have e1 : (s.pos + s.rot.rotate t.trans).get i = s.pos.get i + (s.rot.rotate t.trans).get i := by
            fin_cases i <;> rfl
          rw [e1]
          refine (abs_add_le _ _).trans (add_le_add ?_ ((get_le_len _ _).trans (by rw [len_rotate hs]; exact h4)))
          simp only [Set.mem_insert_iff, Set.mem_singleton_iff, forall_eq_or_imp, forall_eq, Vec3.dot] at hH
          obtain ⟨a1, a2, a3, a4, a5, a6⟩ := hH
          rw [abs_le]
          fin_cases i
          · show -R ≤ s.pos.x ∧ s.pos.x ≤ R
            constructor <;> linarith
          · show -R ≤ s.pos.y ∧ s.pos.y ≤ R
            constructor <;> linarith
          · show -R ≤ s.pos.z ∧ s.pos.z ≤ R
            constructor <;> linarith
        linarith [h3.2])
  refine ⟨n0, hs, ?_⟩
  rcases hc with ⟨n, outs, hr, hl, _⟩ | ⟨h1, e, h2, n, outs, hh, hr, hne, ⟨b, s, hm, q, hq, a, ha, hlt⟩ | hamb⟩
  · exact .inl ⟨n, outs, hr, hl⟩
  · refine .inr ⟨h1, e, h2, n, outs, hh, hr, hne, .inl ⟨b, s, hm, q, hq, ?_⟩⟩
    simp only [Set.mem_insert_iff, Set.mem_singleton_iff] at ha
    simp only [lt_abs]
    rcases ha with rfl | rfl | rfl | rfl | rfl | rfl <;> simp only [Vec3.dot] at hlt
    · left; left; linarith
    · left; right; linarith
    · right; left; left; linarith
    · right; left; right; linarith
    · right; right; left; linarith
    · right; right; right; linarith
  · exact .inr ⟨h1, e, h2, n, outs, hh, hr, hne, .inr hamb⟩

/-! ## Concrete cases -/

namespace Demo

/-- A map, more particles than configured, and two clouds. -/
noncomputable def realHistory : History := poseHistory 2 2 3 ++ [lastCloud]

theorem realHistory_ok : ∀ e ∈ realHistory, e.2.Valid ∧ KeepsPoints e.2 ∧ SafeEvent e.1 := by
  have hx : ∀ x, HasXYZ (msg x) := by simp [HasXYZ, msg]
  have hx2 : ∀ x y, HasXYZ (msg2 x y) := by simp [HasXYZ, msg2]
  simp [realHistory, poseHistory, lastCloud, SafeEvent, hx, hx2, env_valid, keeps]

theorem realHistory_tf : ∀ e ∈ realHistory, ∀ a last frame stamp b t,
    e.2.tfFull a last frame stamp b = some t → t = tf0 := by
  intro e he a last frame stamp b t ht
  simp only [realHistory, poseHistory, lastCloud, List.mem_append, List.mem_cons, List.not_mem_nil, or_false] at he
  rcases he with (rfl | rfl | rfl) | rfl <;> exact (Option.some.inj ht).symm

theorem P0_clip : P0.beam.clip = ⟨1 / 2, 4, -2, 2⟩ := by
  norm_num [P0, Params.loadFrom, Params.loadBeam, Server.dblD, Server.getDouble]

theorem realHistory_sees : SensorsSee P0 5 realHistory := by
  intro e he last frame stamp t ht p hp
  rw [realHistory_tf e he _ _ _ _ _ t ht]
  rw [P0_clip] at hp
  obtain ⟨h1, h2, h3, h4⟩ := hp
  simp only at h1 h2 h3 h4
  refine ⟨?_, ?_⟩
  · rintro rfl
    have h1' : (1 / 2 : ℝ) ^ 2 ≤ 0 ^ 2 + 0 ^ 2 := h1
    norm_num at h1'
  · show Real.sqrt _ ≤ 5
    rw [Real.sqrt_le_left (by norm_num)]
    show (p.x - 0) ^ 2 + (p.y - 0) ^ 2 + (p.z - 0) ^ 2 ≤ 5 ^ 2
    nlinarith

/-- The hypotheses of C139 for the kd-tree caster are met: the default parameters, a map, more particles than
configured, and two clouds, the second of which begins a measurement. -/
example : ∃ n0, start P0 (realLib P0 exactFlann lib.solve3 lib.solve6) (env 0) motion0 = .ok n0 ∧
    ((∃ n outs, run P0 (realLib P0 exactFlann lib.solve3 lib.solve6) n0 realHistory = .ok (n, outs) ∧
        outs.length = realHistory.length) ∨
      ∃ h1 e h2 n outs like, realHistory = h1 ++ e :: h2 ∧
        run P0 (realLib P0 exactFlann lib.solve3 lib.solve6) n0 h1 = .ok (n, outs) ∧ n.loc.pf.particles ≠ [] ∧
        Weighed P0 (realLib P0 exactFlann lib.solve3 lib.solve6) ⟨1, 1, 5⟩ h1 e n like ∧ Ambiguous P0 n like) :=
  C139_kdtree sane_P0 measures
    (by norm_num [P0, Params.loadFrom, Params.loadLike, Server.dblD, Server.getDouble])
    (by simp [P0, Params.loadFrom, Server.boolD, Server.getBool])
    (by norm_num [P0, Params.loadFrom, Server.dblD, Server.getDouble])
    (by norm_num [P0, Params.loadFrom, Params.loadBeam, Server.dblD, Server.getDouble])
    (by norm_num) exactFlann_spec lib.solve3 lib.solve6 (D := 5)
    (by norm_num [P0, Params.loadFrom, Params.loadBeam, Server.dblD, Server.getDouble])
    (env 0) motion0 realHistory realHistory_ok (poseHistory_regular' 2 2 3)
    (poseHistory_unit 2 2 3 _ 4 (by simp) (by simp)) realHistory_sees

example : Measuring P0 (poseHistory 2 2 3) lastCloud [] ⟨⟨"laser", 3⟩, [⟨2, 0, 0⟩, ⟨3, 0, 0⟩]⟩ :=
  poseHistory_step 2 2 3

/-- The default parameters, with the DDA caster. -/
noncomputable def PD : Params := { P0 with useDda := true }

theorem sane_PD : Sane PD := by
  obtain ⟨⟨h1, h2, h3, h4, h5, h6, h7, h8⟩, h9⟩ := sane_P0
  exact ⟨⟨h1, h2, h3, h4, h5, h6, h7, h8⟩, h9⟩

theorem measures_PD : Measures PD := by
  obtain ⟨h1, h2, h3, h4, h5, h6, h7, h8, h9, h10, h11⟩ := measures
  exact ⟨h1, h2, h3, h4, h5, h6, h7, h8, h9, h10, h11⟩

theorem PD_maps : maps PD realHistory = [⟨1, pclStamp 1, [(⟨2, 0, 0⟩, 0)]⟩] := by
  simp [maps, realHistory, poseHistory, lastCloud, mapsStep, MapView.step, MapView.init, validCloud_msg, cloudPoints,
    fromROSMsg_msg, env]

/-- The hypotheses of C139 for the DDA caster are met likewise. -/
example : ∃ n0, start PD (realLib PD exactFlann lib.solve3 lib.solve6) (env 0) motion0 = .ok n0 ∧
    ((∃ n outs, run PD (realLib PD exactFlann lib.solve3 lib.solve6) n0 realHistory = .ok (n, outs) ∧
        outs.length = realHistory.length) ∨
      ∃ h1 e h2 n outs, realHistory = h1 ++ e :: h2 ∧
        run PD (realLib PD exactFlann lib.solve3 lib.solve6) n0 h1 = .ok (n, outs) ∧ n.loc.pf.particles ≠ [] ∧
        ((∃ b s, Measuring PD h1 e b s ∧
            ∃ q ∈ n.loc.pf.particles, 1000 < |q.state.pos.x| ∨ 1000 < |q.state.pos.y| ∨ 1000 < |q.state.pos.z|) ∨
          ∃ like, Weighed PD (realLib PD exactFlann lib.solve3 lib.solve6) ⟨1, 1, 5⟩ h1 e n like ∧ Ambiguous PD n like)) :=
  C139_dda sane_PD measures_PD
    (by norm_num [PD, P0, Params.loadFrom, Params.loadLike, Server.dblD, Server.getDouble])
    rfl
    (by norm_num [PD, P0, Params.loadFrom, Params.loadDdaGrid, Server.dblD, Server.getDouble, Server.boolD, Server.getBool])
    (by norm_num [PD, P0, Params.loadFrom, Params.loadBeam, Server.dblD, Server.getDouble])
    (by norm_num) exactFlann_spec lib.solve3 lib.solve6 (D := 5) (L := 0) (R := 1000)
    (env 0) motion0 realHistory realHistory_ok (poseHistory_regular' 2 2 3)
    (poseHistory_unit 2 2 3 _ 4 (by simp) (by simp)) realHistory_sees
    (by
      intro e he last frame stamp t ht
      rw [realHistory_tf e he _ _ _ _ _ t ht]
      show Real.sqrt ((0 : ℝ) ^ 2 + 0 ^ 2 + 0 ^ 2) ≤ 0
      norm_num)
    (by rw [PD_maps]; simp)
    (by
      rw [PD_maps]
      intro c hc
      rw [List.mem_singleton.1 hc]
      have hg : PD.ddaGridSize = 1 / 5 := by
        norm_num [PD, P0, Params.loadFrom, Params.loadDdaGrid, Server.dblD, Server.getDouble, Server.boolD, Server.getBool]
      have hr : PD.beam.hitRange = 3 / 10 := by
        norm_num [PD, P0, Params.loadFrom, Params.loadBeam, Server.dblD, Server.getDouble]
      rw [hg, hr]
      refine ⟨fun i => (⟨2, 0, 0⟩ : Vec3 ℝ).get i, fun i => (⟨2, 0, 0⟩ : Vec3 ℝ).get i, ⟨by simp, by simp, by simp, by simp⟩, ?_, ?_, ?_⟩
      · simp [DDA.gridSize]
      · simp [DDA.gridSize]
      · intro i
        fin_cases i <;> norm_num [Vec3.get])

end Demo

end Node
end Mcl3dl
