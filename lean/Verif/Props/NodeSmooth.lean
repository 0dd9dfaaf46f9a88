import Verif.Props.NodeTolerance
import Verif.Spec.NodeSmooth

/-! # C134: the smoothing of the published transform -/

set_option linter.unusedSectionVars false

namespace Mcl3dl
namespace Node

variable {C : Type}

/-- A low-pass filter by its last output and input. -/
noncomputable def lpf (T : ℝ) (angle : Bool) (s : ℝ × ℝ) : Filt ℝ :=
  { (Filt.new .lpf T 0 angle : Filt ℝ) with x := -(2 * T + 1) * s.1 + s.2, out := s.1 }

theorem lpf_new {T : ℝ} (angle : Bool) : Filt.new .lpf T 0 angle = lpf T angle (0, 0) := by
  simp [lpf, Filt.new]

theorem lpf_set {T : ℝ} (hT : 0 ≤ T) (angle : Bool) (s : ℝ × ℝ) (v : ℝ) : (lpf T angle s).set v = lpf T angle (v, v) := by
  have h : (2 * T + 1) ≠ 0 := by positivity
  have h' : (1 + 2 * T) ≠ 0 := by positivity
  simp only [lpf, Filt.set, Filt.new, Quat.two, Filt.mk.injEq, and_true, true_and]
  push_cast
  field_simp
  ring

theorem lowPass_self {T : ℝ} (hT : 0 ≤ T) (v : ℝ) : lowPass T v v v = v := by
  have h : (2 * T + 1) ≠ 0 := by positivity
  unfold lowPass
  field_simp
  ring

theorem lpf_input {T : ℝ} (hT : 0 ≤ T) (angle : Bool) (s : ℝ × ℝ) (v : ℝ) :
    (lpf T angle s).input v = lpf T angle (lowPass T s.1 s.2 ((lpf T angle s).effective v), (lpf T angle s).effective v) := by
  have h : (2 * T + 1) ≠ 0 := by positivity
  have h' : (1 + 2 * T) ≠ 0 := by positivity
  have e : (lpf T angle s).input v =
      { lpf T angle s with
        x := (lpf T angle s).k0 * (lpf T angle s).effective v + (lpf T angle s).k1 * (lpf T angle s).x
        out := (lpf T angle s).k2 * (lpf T angle s).effective v + (lpf T angle s).k3 *
          ((lpf T angle s).k0 * (lpf T angle s).effective v + (lpf T angle s).k1 * (lpf T angle s).x) } := rfl
  rw [e]
  generalize (lpf T angle s).effective v = u at *
  simp only [lpf, Filt.new, Quat.two, Filt.mk.injEq, and_true, true_and, lowPass]
  push_cast
  constructor
  · field_simp
    ring
  · field_simp
    ring

theorem Smoothed.snoc_jump {T : ℝ} {s r : ℝ × ℝ} {vs : List (Prop × ℝ)} (h : Smoothed T s vs r) {J : Prop} (hJ : J)
    (v : ℝ) : Smoothed T s (vs ++ [(J, v)]) (v, v) := by
  induction h with
  | none s => exact .jump hJ (.none _)
  | jump h _ ih => exact .jump h ih
  | move h _ ih => exact .move h ih

theorem Smoothed.snoc_move {T : ℝ} {s r : ℝ × ℝ} {vs : List (Prop × ℝ)} (h : Smoothed T s vs r) {J : Prop} (hJ : ¬ J)
    (v : ℝ) : Smoothed T s (vs ++ [(J, v)]) (lowPass T r.1 r.2 v, v) := by
  induction h with
  | none s => exact .move hJ (.none _)
  | jump h _ ih => exact .jump h ih
  | move h _ ih => exact .move h ih

theorem SmoothedAngle.snoc_jump {T : ℝ} {s r : ℝ × ℝ} {vs : List (Prop × ℝ)} (h : SmoothedAngle T s vs r) {J : Prop}
    (hJ : J) (v : ℝ) : SmoothedAngle T s (vs ++ [(J, v)]) (v, v) := by
  induction h with
  | none s => exact .jump hJ (.none _)
  | jump h _ ih => exact .jump h ih
  | move h k hk _ ih => exact .move h k hk ih

theorem SmoothedAngle.snoc_move {T : ℝ} {s r : ℝ × ℝ} {vs : List (Prop × ℝ)} (h : SmoothedAngle T s vs r) {J : Prop}
    (hJ : ¬ J) (v : ℝ) (k : ℤ) (hk : |v + k * (2 * Real.pi) - r.1| ≤ Real.pi) :
    SmoothedAngle T s (vs ++ [(J, v)]) (lowPass T r.1 r.2 (v + k * (2 * Real.pi)), v + k * (2 * Real.pi)) := by
  induction h with
  | none s => exact .move hJ k hk (.none _)
  | jump h _ ih => exact .jump h (ih hk)
  | move h k' hk' _ ih => exact .move h k' hk' (ih hk)

open Classical in
/-- A scalar filter of the node after another correction. -/
theorem lpf_step {T : ℝ} (hT : 0 ≤ T) {s : ℝ × ℝ} {vs : List (Prop × ℝ)} (h : Smoothed T (0, 0) vs s) (J : Prop) (v : ℝ) :
    ∃ s', (if J then (lpf T false s).set v else lpf T false s).input v = lpf T false s' ∧
      Smoothed T (0, 0) (vs ++ [(J, v)]) s' := by
  by_cases hJ : J
  · refine ⟨(v, v), ?_, h.snoc_jump hJ v⟩
    rw [if_pos hJ, lpf_set hT, lpf_input hT]
    show lpf T false (lowPass T v v v, v) = _
    rw [lowPass_self hT]
  · refine ⟨_, ?_, h.snoc_move hJ v⟩
    rw [if_neg hJ, lpf_input hT]
    rfl

open Classical in
theorem lpf_step_angle {T : ℝ} (hT : 0 ≤ T) {s : ℝ × ℝ} {vs : List (Prop × ℝ)} (h : SmoothedAngle T (0, 0) vs s)
    (J : Prop) (v : ℝ) :
    ∃ s', (if J then (lpf T true s).set v else lpf T true s).input v = lpf T true s' ∧
      SmoothedAngle T (0, 0) (vs ++ [(J, v)]) s' := by
  by_cases hJ : J
  · refine ⟨(v, v), ?_, h.snoc_jump hJ v⟩
    rw [if_pos hJ, lpf_set hT, lpf_input hT]
    have : (lpf T true (v, v)).effective v = v := Filt.effective_self (lpf T true (v, v))
    rw [this, lowPass_self hT]
  · obtain ⟨k, h1, h2⟩ := Filt.effective_turn (lpf T true s) rfl v
    refine ⟨_, ?_, h.snoc_move hJ v k (by rw [← h1]; exact h2)⟩
    rw [if_neg hJ, lpf_input hT, h1]

/-- What the node keeps of the corrections. -/
structure Track (T : ℝ) (cs : List (Prop × Vec3 ℝ × Vec3 ℝ)) (loc : LocSt C) : Prop where
  pos : ∃ sx sy sz, loc.fPos = ⟨⟨sx.1, sy.1, sz.1⟩, lpf T false sx, lpf T false sy, lpf T false sz⟩ ∧
    Smoothed T (0, 0) (cs.map fun c => (c.1, c.2.1.x)) sx ∧ Smoothed T (0, 0) (cs.map fun c => (c.1, c.2.1.y)) sy ∧
    Smoothed T (0, 0) (cs.map fun c => (c.1, c.2.1.z)) sz
  ang : ∃ sx sy sz, loc.fAng = ⟨⟨sx.1, sy.1, sz.1⟩, lpf T true sx, lpf T true sy, lpf T true sz⟩ ∧
    SmoothedAngle T (0, 0) (cs.map fun c => (c.1, c.2.2.x)) sx ∧
    SmoothedAngle T (0, 0) (cs.map fun c => (c.1, c.2.2.y)) sy ∧
    SmoothedAngle T (0, 0) (cs.map fun c => (c.1, c.2.2.z)) sz

/-- The messages of a localization contain one pose and at most one pair of transforms. -/
theorem localized_pose {P : Params} {lib : Lib C} {env : Env} {n n' : Node C} {ev : Event} {o : List Out}
    (h : step P lib env n ev = .ok (n', o)) :
    ((o.findSome? Out.poseCov).isSome = false ∧ n'.loc.SameTrack n.loc ∧ ∀ tfs, .transforms tfs ∉ o) ∨
    ((o.findSome? Out.poseCov).isSome = true ∧
      ∃ r : LocRun C, n'.loc.statePrev = r.est P (freshen env n).loc ∧
        n'.loc.fPos = (r.smooth P n.odo (freshen env n).loc).fPos ∧
        n'.loc.fAng = (r.smooth P n.odo (freshen env n).loc).fAng ∧
        (r.pf1 P (freshen env n).loc).particles.length = n.loc.pf.particles.length ∧
        ∀ tfs, .transforms tfs ∈ o → ∃ stamp, tfs = transformsOf P stamp (r.smooth P n.odo (freshen env n).loc)) := by
  rcases step_cases h with ⟨h1, h7⟩ | ⟨_, _, header, p, acc, outs, _, _, _, _, hl, rfl⟩
  · left
    refine ⟨?_, h1, ?_⟩
    · rw [Option.isSome_eq_false_iff, Option.isNone_iff_eq_none, List.findSome?_eq_none_iff]
      rcases h7 with h7 | ⟨b, rfl | ⟨rfl, _⟩⟩
      · exact fun x hx => (h7 x hx).cov
      · simp [Out.poseCov]
      · simp [Out.poseCov, publishStatus]
    · rcases h7 with h7 | ⟨b, rfl | ⟨rfl, _⟩⟩
      · exact fun tfs ht => h7 _ ht
      · simp
      · simp [publishStatus]
  · right
    obtain ⟨r, hw, _, _, _, _, hmo, _, _, _, _, hloc, houts⟩ := localize_ok hl
    have hmm := matchOutput_only hmo
    refine ⟨?_, r, by rw [hloc], by rw [hloc], by rw [hloc], ?_, ?_⟩
    · cases hc : (Out.batch true :: outs).findSome? Out.poseCov with
      | some c => rfl
      | none =>
        rw [List.findSome?_eq_none_iff] at hc
        have := hc _ (by
          rw [houts]
          exact List.mem_cons_of_mem _ (List.mem_append_left _ (List.mem_append_left _
            (List.mem_append_right _ List.mem_cons_self))))
        simp [Out.poseCov] at this
    · unfold LocRun.pf1
      rw [(biasFilter_spec _ _ _).1, measureWith_length _ _ (weighLoop_length hw)]
      rfl
    · intro tfs ht
      have hnt : .transforms tfs ∉ r.mo.2 := by
        intro hx; obtain ⟨s, l, hc | hc⟩ := hmm _ hx <;> cases hc
      rw [houts] at ht
      simp only [List.mem_cons, List.mem_append, List.not_mem_nil, or_false, hnt, publishParticles, publishStatus,
        reduceCtorEq, false_or] at ht
      split_ifs at ht
      · exact ⟨_, by simpa using ht⟩
      · simp at ht

theorem step_track {P : Params} (hT : 0 ≤ P.lpfStep) {lib : Lib C} {env : Env} {n n' : Node C} {ev : Event}
    {o : List Out} {cs : List (Prop × Vec3 ℝ × Vec3 ℝ)} (hi : Track P.lpfStep cs n.loc)
    (h : step P lib env n ev = .ok (n', o)) :
    Track P.lpfStep (cs ++ corrections P [(n, n', o)]) n'.loc ∧
      ∀ tfs, .transforms tfs ∈ o → ∃ stamp z, tfs =
        [⟨stamp, P.mapFrame, P.odomFrame, ⟨n'.loc.fPos.x, Quat.ofRPY n'.loc.fAng.x⟩⟩,
         ⟨stamp, P.mapFrame, P.floorFrame, ⟨⟨0, 0, z⟩, 1⟩⟩] := by
  rcases localized_pose h with ⟨h1, ⟨e1, e2, _⟩, h3⟩ | ⟨h1, r, h2, h3, h4, h5, h6⟩
  · refine ⟨?_, fun tfs ht => absurd ht (h3 tfs)⟩
    have : corrections P [(n, n', o)] = [] := by
      simp only [corrections, List.filterMap_cons, h1, Bool.false_eq_true, if_false, List.filterMap_nil]
    rw [this, List.append_nil]
    exact ⟨by rw [e1]; exact hi.pos, by rw [e2]; exact hi.ang⟩
  · refine ⟨?_, fun tfs ht => ?_⟩
    · have hcs : corrections P [(n, n', o)] =
          [(EstimateJumped P n.loc.pf.particles.length n.loc.statePrev n'.loc.statePrev,
            correctionPos n.odo.odom n'.loc.statePrev, (correctionRot n.odo.odom n'.loc.statePrev).getRPY)] := by
        simp only [corrections, List.filterMap_cons, h1, if_true, List.filterMap_nil]
      rw [hcs]
      obtain ⟨sx, sy, sz, hp, px, py, pz⟩ := hi.pos
      obtain ⟨ax, ay, az, ha, qx, qy, qz⟩ := hi.ang
      have g1 : (freshen env n).loc.fPos = n.loc.fPos := rfl
      have g2 : (freshen env n).loc.fAng = n.loc.fAng := rfl
      have g3 : (freshen env n).loc.statePrev = n.loc.statePrev := rfl
      have hj : (r.jump P (freshen env n).loc).1 = true ↔
          EstimateJumped P n.loc.pf.particles.length n.loc.statePrev n'.loc.statePrev := by
        rw [LocRun.jump, jumpOf_iff, h5, g3, h2]
        rfl
      generalize EstimateJumped P n.loc.pf.particles.length n.loc.statePrev n'.loc.statePrev = J at hj ⊢
      have hpos : correctionPos n.odo.odom n'.loc.statePrev = (r.est P (freshen env n).loc).pos -
          ((r.est P (freshen env n).loc).rot * n.odo.odom.rot.inv).rotate n.odo.odom.pos := by rw [h2]; rfl
      have hang : correctionRot n.odo.odom n'.loc.statePrev = (r.est P (freshen env n).loc).rot * n.odo.odom.rot.inv := by
        rw [h2]; rfl
      rw [LocRun.smooth, Node.smooth, g1, g2, ← hpos, ← hang] at h3 h4
      simp only at h3 h4
      generalize correctionPos n.odo.odom n'.loc.statePrev = u at h3 h4 ⊢
      generalize (correctionRot n.odo.odom n'.loc.statePrev).getRPY = w at h3 h4 ⊢
      constructor
      · classical
        obtain ⟨tx, k1, m1⟩ := lpf_step hT px J u.x
        obtain ⟨ty, k2, m2⟩ := lpf_step hT py J u.y
        obtain ⟨tz, k3, m3⟩ := lpf_step hT pz J u.z
        refine ⟨tx, ty, tz, ?_, by simpa using m1, by simpa using m2, by simpa using m3⟩
        rw [h3, hp]
        by_cases hJ : J
        · rw [if_pos (hj.2 hJ)]
          rw [if_pos hJ] at k1 k2 k3
          simp only [FiltVec3.input, FiltVec3.set, k1, k2, k3]
          rfl
        · rw [if_neg (fun h => hJ (hj.1 h))]
          rw [if_neg hJ] at k1 k2 k3
          simp only [FiltVec3.input, k1, k2, k3]
          rfl
      · classical
        obtain ⟨tx, k1, m1⟩ := lpf_step_angle hT qx J w.x
        obtain ⟨ty, k2, m2⟩ := lpf_step_angle hT qy J w.y
        obtain ⟨tz, k3, m3⟩ := lpf_step_angle hT qz J w.z
        refine ⟨tx, ty, tz, ?_, by simpa using m1, by simpa using m2, by simpa using m3⟩
        rw [h4, ha]
        by_cases hJ : J
        · rw [if_pos (hj.2 hJ)]
          rw [if_pos hJ] at k1 k2 k3
          simp only [FiltVec3.input, FiltVec3.set, k1, k2, k3]
          rfl
        · rw [if_neg (fun h => hJ (hj.1 h))]
          rw [if_neg hJ] at k1 k2 k3
          simp only [FiltVec3.input, k1, k2, k3]
          rfl
    · obtain ⟨stamp, rfl⟩ := h6 tfs ht
      refine ⟨stamp, (r.smooth P n.odo (freshen env n).loc).pos.z, ?_⟩
      rw [h3, h4]
      rfl

theorem corrections_append (P : Params) (a b : List (Node C × Node C × List Out)) :
    corrections P (a ++ b) = corrections P a ++ corrections P b := by
  simp [corrections]

theorem run_track {P : Params} (hT : 0 ≤ P.lpfStep) {lib : Lib C} {h : History} {n n' : Node C}
    {outs : List (List Out)} {cs : List (Prop × Vec3 ℝ × Vec3 ℝ)} (hi : Track P.lpfStep cs n.loc)
    (hr : run P lib n h = .ok (n', outs)) : Track P.lpfStep (cs ++ corrections P (trace P lib n h)) n'.loc := by
  induction h generalizing n outs cs with
  | nil =>
    simp only [run, Outcome.ok.injEq, Prod.mk.injEq] at hr
    obtain ⟨rfl, rfl⟩ := hr
    simpa [trace, corrections] using hi
  | cons e h ih =>
    obtain ⟨ev, env⟩ := e
    obtain ⟨n1, o, os, h1, h2, rfl⟩ := run_cons_ok hr
    have h1' : step P lib env n ev = .ok (n1, o) := h1
    have := ih (step_track hT hi h1').1 h2
    rw [trace, h1']
    simp only
    rw [← List.singleton_append, corrections_append, ← List.append_assoc]
    exact this

theorem trace_snoc {P : Params} {lib : Lib C} {h : History} {n n1 n' : Node C} {outs : List (List Out)} {e : Event × Env}
    {o : List Out} (hr : run P lib n h = .ok (n1, outs)) (hs : step P lib e.2 n1 e.1 = .ok (n', o)) :
    trace P lib n (h ++ [e]) = trace P lib n h ++ [(n1, n', o)] := by
  induction h generalizing n outs with
  | nil =>
    simp only [run, Outcome.ok.injEq, Prod.mk.injEq] at hr
    obtain ⟨rfl, rfl⟩ := hr
    simp [trace, hs]
  | cons e1 h ih =>
    obtain ⟨ev, env⟩ := e1
    obtain ⟨n2, o2, os, h1, h2, rfl⟩ := run_cons_ok hr
    have h1' : step P lib env n ev = .ok (n2, o2) := h1
    simp only [List.cons_append, trace, h1']
    rw [ih h2]

/-- C134: after any history, the transform from the map to the odometry frame a callback publishes is the low-pass
filtered sequence of the unsmoothed corrections of all measurements of the run, this one included: each coordinate of
the translation, and each of roll, pitch and yaw (as angles), where a jump of the estimate sets the filters. -/
theorem C134_smoothing {P : Params} (hT : 0 ≤ P.lpfStep) {lib : Lib C} {env0 : Env} {motion0 : Motion ℝ}
    {h : History} {n0 n : Node C} {e : Event × Env} {outs : List (List Out)} {o : List Out}
    (hs : start P lib env0 motion0 = .ok n0) (hr : run P lib n0 (h ++ [e]) = .ok (n, outs ++ [o]))
    {tfs : List TfMsg} (ht : .transforms tfs ∈ o) :
    ∃ t f x y z roll pitch yaw, tfs = [t, f] ∧ t.parent = P.mapFrame ∧ t.child = P.odomFrame ∧
      t.tf.trans = ⟨x.1, y.1, z.1⟩ ∧ t.tf.rot = Quat.ofRPY ⟨roll.1, pitch.1, yaw.1⟩ ∧
      (let cs := corrections P (trace P lib n0 (h ++ [e]))
       Smoothed P.lpfStep (0, 0) (cs.map fun c => (c.1, c.2.1.x)) x ∧
       Smoothed P.lpfStep (0, 0) (cs.map fun c => (c.1, c.2.1.y)) y ∧
       Smoothed P.lpfStep (0, 0) (cs.map fun c => (c.1, c.2.1.z)) z ∧
       SmoothedAngle P.lpfStep (0, 0) (cs.map fun c => (c.1, c.2.2.x)) roll ∧
       SmoothedAngle P.lpfStep (0, 0) (cs.map fun c => (c.1, c.2.2.y)) pitch ∧
       SmoothedAngle P.lpfStep (0, 0) (cs.map fun c => (c.1, c.2.2.z)) yaw) := by
  obtain ⟨n1, os, o1, h1, h2, h3⟩ := run_snoc_ok hr
  obtain ⟨e1, ho1⟩ := List.append_inj' h3 rfl
  simp only [List.cons.injEq, and_true] at ho1
  subst ho1 e1
  have hi : Track P.lpfStep ([] ++ corrections P (trace P lib n0 h)) n1.loc := by
    refine run_track hT ?_ h1
    obtain ⟨_, ns, _, rfl⟩ := start_ok hs
    refine ⟨⟨(0, 0), (0, 0), (0, 0), ?_, .none _, .none _, .none _⟩, ⟨(0, 0), (0, 0), (0, 0), ?_, .none _, .none _, .none _⟩⟩
    · simp only [FiltVec3.new, ← lpf_new]; rfl
    · simp only [FiltVec3.new, ← lpf_new]; rfl
  obtain ⟨⟨⟨x, y, z, hp, px, py, pz⟩, ⟨a, b, c, ha, qa, qb, qc⟩⟩, hf⟩ := step_track hT hi h2
  obtain ⟨stamp, zz, rfl⟩ := hf tfs ht
  refine ⟨_, _, x, y, z, a, b, c, rfl, rfl, rfl, by rw [hp], by rw [ha], ?_⟩
  rw [trace_snoc h1 h2, corrections_append]
  rw [List.nil_append] at px py pz qa qb qc
  exact ⟨px, py, pz, qa, qb, qc⟩

theorem trace_outs {P : Params} {lib : Lib C} {h : History} {n n' : Node C} {outs : List (List Out)}
    (hr : run P lib n h = .ok (n', outs)) : (trace P lib n h).map (fun s => s.2.2) = outs := by
  induction h generalizing n outs with
  | nil =>
    simp only [run, Outcome.ok.injEq, Prod.mk.injEq] at hr
    obtain ⟨rfl, rfl⟩ := hr
    rfl
  | cons e1 h ih =>
    obtain ⟨ev, env⟩ := e1
    obtain ⟨n2, o2, os, h1, h2, rfl⟩ := run_cons_ok hr
    have h1' : step P lib env n ev = .ok (n2, o2) := h1
    simp only [trace, h1', List.map_cons]
    rw [ih h2]

theorem corrections_quiet {P : Params} {tr : List (Node C × Node C × List Out)} (h : ∀ s ∈ tr, ∀ x ∈ s.2.2, x.Minor) :
    corrections P tr = [] := by
  rw [corrections, List.filterMap_eq_nil_iff]
  intro s hs
  have : (s.2.2.findSome? Out.poseCov).isSome = false := by
    rw [Option.isSome_eq_false_iff, Option.isNone_iff_eq_none, List.findSome?_eq_none_iff]
    exact fun x hx => (h s hs x hx).cov
  simp only [this, Bool.false_eq_true, if_false]

/-- A filter with a time constant of 16 measurements that jumps to 1 and then gets 2 moves by 97/1089. -/
example : Smoothed 16 (0, 0) [(True, 1), (False, 2)] (1 + 97 / 1089, 2) := by
  have := Smoothed.move (T := 16) (s := (1, 1)) (J := False) (v := 2) id (.none _)
  have e : lowPass 16 1 1 2 = 1 + 97 / 1089 := by norm_num [lowPass]
  rw [e] at this
  exact .jump trivial this

/-- C134 applies to the demo run: there is one correction, a jump (there are more particles than configured), so the
published translation is the correction itself. -/
example : ∃ n0 n outs o t f c, start Demo.P0 Demo.exactLib (Demo.env 0) Demo.motion0 = .ok n0 ∧
    run Demo.P0 Demo.exactLib n0 (Demo.poseHistory 10 10 5 ++ [Demo.lastCloud]) = .ok (n, outs ++ [o]) ∧
    .transforms [t, f] ∈ o ∧
    corrections Demo.P0 (trace Demo.P0 Demo.exactLib n0 (Demo.poseHistory 10 10 5 ++ [Demo.lastCloud])) = [c] ∧
    c.1 ∧ t.tf.trans = c.2.1 := by
  obtain ⟨n0, n1, n, outs, o, hs, hr, hr', hst, rot, cov, hp, hrot⟩ :=
    Demo.pose_runs 10 10 5 (by norm_num) (by norm_num)
  obtain ⟨tfs, htf⟩ := (C99_published hst).2
    ⟨by simp [Demo.P0, Params.loadFrom, Server.boolD, Server.getBool], _, _, _, _, _, hp⟩
  obtain ⟨t, f, x, y, z, _, _, _, rfl, _, _, htr, _, h1, h2, h3, _⟩ :=
    C134_smoothing (P := Demo.P0) (by rw [Demo.P0_lpfStep]; norm_num) hs hr' htf
  have hq : corrections Demo.P0 (trace Demo.P0 Demo.exactLib n0 (Demo.poseHistory 10 10 5)) = [] := by
    refine corrections_quiet fun s hs' => Demo.pose_quiet hs hr _ ?_
    rw [← trace_outs hr]
    exact List.mem_map_of_mem hs'
  have hsome : (o.findSome? Out.poseCov).isSome = true := by
    cases hc : o.findSome? Out.poseCov with
    | some c => rfl
    | none =>
      rw [List.findSome?_eq_none_iff] at hc
      have := hc _ hp
      simp [Out.poseCov] at this
  have hJ : EstimateJumped Demo.P0 n1.loc.pf.particles.length n1.loc.statePrev n.loc.statePrev :=
    .inl (by rw [(Demo.poseHistory_run hs hr).1]; simp)
  have hc : corrections Demo.P0 [(n1, n, o)] = [(EstimateJumped Demo.P0 n1.loc.pf.particles.length n1.loc.statePrev
      n.loc.statePrev, correctionPos n1.odo.odom n.loc.statePrev, (correctionRot n1.odo.odom n.loc.statePrev).getRPY)] := by
    simp only [corrections, List.filterMap_cons, hsome, if_true, List.filterMap_nil]
  rw [trace_snoc hr hst, corrections_append, hq, List.nil_append, hc] at h1 h2 h3
  refine ⟨n0, n, outs, o, t, f, _, hs, hr', htf, by rw [trace_snoc hr hst, corrections_append, hq, hc]; rfl, hJ, ?_⟩
  have key : ∀ {v : ℝ} {r : ℝ × ℝ}, Smoothed Demo.P0.lpfStep (0, 0) [(EstimateJumped Demo.P0
      n1.loc.pf.particles.length n1.loc.statePrev n.loc.statePrev, v)] r → r.1 = v := by
    intro v r h
    cases h with
    | jump _ h => cases h; rfl
    | move h _ => exact absurd hJ h
  rw [htr, key h1, key h2, key h3]

end Node
end Mcl3dl
