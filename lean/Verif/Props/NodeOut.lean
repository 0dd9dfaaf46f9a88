import Verif.Proofs.NodeOut
import Verif.Props.NodeBatch
import Verif.Props.QuatAngles
import Verif.Props.QuatAlgebra

/-! # C94, C98, C99: the published transform and pose -/

set_option linter.unusedSectionVars false

namespace Mcl3dl
namespace Node

variable {C : Type}

theorem vec3_add_comm (a b : Vec3 ℝ) : a + b = b + a := by
  show (⟨a.x + b.x, a.y + b.y, a.z + b.z⟩ : Vec3 ℝ) = ⟨b.x + a.x, b.y + a.y, b.z + a.z⟩
  rw [add_comm a.x, add_comm a.y, add_comm a.z]

/-- The map timer publishes nothing but the updated map. -/
theorem mapTimer_kinds {P : Params} {env : Env} {m m' : MapSt} {o : List Out}
    (h : mapTimer P env m = .ok (m', o)) : ∀ x ∈ o, ∃ c, x = .updatedMap c := by
  rw [mapTimer] at h
  cases hm : m.hasMap with
  | false =>
    simp only [hm, Bool.false_eq_true, if_false, Outcome.ok.injEq, Prod.mk.injEq] at h
    simp [← h.2]
  | true =>
    simp only [hm, if_true] at h
    cases hu : m.update with
    | some u =>
      rw [hu] at h
      simp only at h
      split at h
      · simp at h
      · simp only [Outcome.ok.injEq, Prod.mk.injEq] at h
        simp [← h.2]
    | none =>
      rw [hu] at h
      simp only at h
      cases hme : m.merged with
      | some r =>
        rw [hme] at h
        simp only [Outcome.ok.injEq, Prod.mk.injEq] at h
        simp [← h.2]
      | none =>
        rw [hme] at h
        simp only at h
        cases hb : m.base with
        | none => rw [hb] at h; simp at h
        | some b =>
          rw [hb] at h
          simp only at h
          cases hc : m.heap[b]? with
          | none => rw [hc] at h; simp at h
          | some c =>
            rw [hc] at h
            simp only [Outcome.ok.injEq, Prod.mk.injEq] at h
            simp [← h.2]

/-! ## C94 -/

/-- The time stamps of transforms and particles. -/
def Out.tfStamps : Out → List ℝ
  | .transforms l => l.map TfMsg.stamp
  | .particles stamp _ => [stamp]
  | _ => []

theorem step_stamps {P : Params} {lib : Lib C} {env : Env} {n n' : Node C} {ev : Event} {o : List Out}
    (h : step P lib env n ev = .ok (n', o)) :
    ∀ x ∈ o, ∀ stamp ∈ x.tfStamps, ∃ k, stamp = outStamp P n.odo n.loc.tolBase (env.now k) := by
  have hsimple : (∀ x ∈ o, x.tfStamps = []) →
      ∀ x ∈ o, ∀ stamp ∈ x.tfStamps, ∃ k, stamp = outStamp P n.odo n.loc.tolBase (env.now k) := by
    intro he x hx stamp hs
    rw [he x hx] at hs
    simp at hs
  have hload : ∀ {stamp pts n' o}, loadMapCloud P env n stamp pts = .ok (n', o) → ∀ x ∈ o, x.tfStamps = [] := by
    intro stamp pts n' o h x hx
    obtain ⟨m, hm, _⟩ := loadMapCloud_ok h
    have := mapTimer_kinds hm x hx
    obtain ⟨c, rfl⟩ := this
    rfl
  cases ev with
  | mapcloud stamp msg =>
    rcases cbMapcloud_ok h with ⟨_, _, rfl⟩ | ⟨_, hl⟩
    · simp
    · exact hsimple (hload hl)
  | mapcloudUpdate msg =>
    simp only [step, Outcome.ok.injEq, Prod.mk.injEq] at h
    simp [← h.2]
  | loadPcd file =>
    rcases cbLoadPcd_ok h with ⟨_, _, rfl⟩ | ⟨pts, o', _, hl, rfl⟩
    · exact hsimple (by simp [Out.tfStamps])
    · refine hsimple fun x hx => ?_
      rcases List.mem_append.1 hx with hx | hx
      · exact hload hl x hx
      · rw [List.mem_singleton.1 hx]; rfl
  | timer =>
    obtain ⟨⟨m, o'⟩, hm, h⟩ := Outcome.bind_eq_ok_iff.1 h
    simp only [Outcome.ok.injEq, Prod.mk.injEq] at h
    rw [← h.2]
    intro x hx stamp hs
    obtain ⟨c, rfl⟩ := mapTimer_kinds hm x hx
    simp [Out.tfStamps] at hs
  | cloud header msg =>
    rcases step_cases h with ⟨_, h1 | ⟨b, rfl | ⟨rfl, _⟩⟩⟩ | ⟨_, _, hd, p, acc, outs, _, _, _, _, hl, rfl⟩
    · obtain ⟨_, _, _, _, ⟨_, _, rfl⟩ | ⟨_, acc, c, hcore⟩⟩ := cbCloud_loc h
      · simp
      · exfalso
        obtain ⟨_, _, ⟨_, _, _, rfl⟩ | ⟨_, hme⟩⟩ := measureCore_ok hcore
        · exact h1 _ List.mem_cons_self
        · generalize n'.loc = loc2 at hme
          cases hme <;> exact h1 _ List.mem_cons_self
    · exact hsimple (by simp [Out.tfStamps])
    · exact hsimple (by simp [Out.tfStamps, publishStatus])
    · obtain ⟨r, _, _, _, _, _, hmo, _, _, _, _, _, rfl⟩ := localize_ok hl
      intro x hx stamp hs
      have hmm := matchOutput_only hmo
      simp only [List.mem_cons, List.mem_append, List.not_mem_nil, or_false] at hx
      rcases hx with rfl | ((((rfl | hx) | rfl) | hx) | (rfl | rfl))
      · simp [Out.tfStamps] at hs
      · simp [Out.tfStamps] at hs
      · split_ifs at hx
        · rw [List.mem_singleton] at hx
          subst hx
          refine ⟨1, ?_⟩
          simp only [Out.tfStamps, transformsOf, List.map_cons, List.map_nil, List.mem_cons, List.not_mem_nil,
            or_false, or_self] at hs
          exact hs
        · simp at hx
      · simp [Out.tfStamps] at hs
      · obtain ⟨s, l, rfl | rfl⟩ := hmm x hx <;> simp [Out.tfStamps] at hs
      · refine ⟨2, ?_⟩
        simp only [Out.tfStamps, publishParticles, List.mem_singleton] at hs
        exact hs
      · simp [Out.tfStamps, publishStatus] at hs
  | odom msg =>
    exact hsimple fun x hx => by rcases (sensor_frame _ h).2.2.2.2.2.2 x hx with rfl | rfl <;> rfl
  | imu msg =>
    exact hsimple fun x hx => by rcases (sensor_frame _ h).2.2.2.2.2.2 x hx with rfl | rfl <;> rfl
  | initialpose msg =>
    rcases cbPosition_ok h with ⟨_, rfl, _⟩ | ⟨_, _, _, _, _, rfl⟩
    · simp
    · intro x hx stamp hs
      rw [List.mem_singleton] at hx
      subst hx
      exact ⟨0, by simpa [Out.tfStamps, publishParticles] using hs⟩
  | landmark msg =>
    obtain ⟨_, _, _, rfl⟩ := cbLandmark_ok h
    intro x hx stamp hs
    rw [List.mem_singleton] at hx
    subst hx
    exact ⟨0, by simpa [Out.tfStamps, publishParticles] using hs⟩
  | resize size =>
    obtain ⟨_, _, _, rfl⟩ := cbResize_ok h
    intro x hx stamp hs
    simp only [List.mem_cons, List.not_mem_nil, or_false] at hx
    rcases hx with rfl | rfl
    · exact ⟨0, by simpa [Out.tfStamps, publishParticles] using hs⟩
    · simp [Out.tfStamps] at hs
  | expansionReset =>
    obtain ⟨_, _, _, rfl⟩ := cbExpansionReset_ok h
    intro x hx stamp hs
    simp only [List.mem_cons, List.not_mem_nil, or_false] at hx
    rcases hx with rfl | rfl
    · exact ⟨0, by simpa [Out.tfStamps, publishParticles] using hs⟩
    · simp [Out.tfStamps] at hs
  | globalLocalization =>
    rcases cbGlobalLocalization_ok h with ⟨_, _, rfl⟩ | ⟨_, _, _, _, _, _, _, _, rfl⟩ <;>
      exact hsimple (by simp [Out.tfStamps])
  | reconfigure w =>
    simp only [step, Outcome.ok.injEq, Prod.mk.injEq] at h
    simp [← h.2]

/-- C94: after any history and whatever the clock did, the transforms and particles a callback publishes have
the time of the reference odometry message (of the clock, if there is none) plus `tf_tolerance` plus a
tolerance between 0 and 1 second, the same for all messages of the callback. -/
theorem C94_tolerance {P : Params} (hf : P.fakeOdom = false) {lib : Lib C} {env0 : Env} {motion0 : Motion ℝ}
    {h : History} {e : Event × Env} {n0 n : Node C} {outs : List (List Out)} {o : List Out}
    (hs : start P lib env0 motion0 = .ok n0) (hr : run P lib n0 (h ++ [e]) = .ok (n, outs ++ [o])) :
    ∃ tol : ℝ, 0 ≤ tol ∧ tol ≤ 1 ∧ ∀ x ∈ o, ∀ stamp ∈ x.tfStamps,
      (∀ m, odomRef h = some m → stamp = m.stamp + tol + P.tfTolerance) ∧
      (odomRef h = none → ∃ k, stamp = e.2.now k + tol + P.tfTolerance) := by
  obtain ⟨n1, os, o1, h1, h2, h3⟩ := run_snoc_ok hr
  obtain ⟨_, ho1⟩ := List.append_inj' h3 rfl
  simp only [List.cons.injEq, and_true] at ho1
  subst ho1
  have hsm := (run_smooth (start_smooth hs) h1).tolerance
  obtain ⟨hi1, hi2, _⟩ : OdoInv P n1.odo (odomRef h) := run_odo hf (odoInv_start hs) h1
  refine ⟨n1.loc.tolBase, hsm.1, hsm.2, fun x hx stamp hst => ?_⟩
  obtain ⟨k, rfl⟩ := step_stamps h2 x hx stamp hst
  constructor
  · intro m hm
    rw [hm] at hi1
    simp only [Option.isSome_some] at hi1
    rw [outStamp, hi1, (hi2 m hm).1]
    simp
  · intro hn
    rw [hn] at hi1
    simp only [Option.isSome_none] at hi1
    exact ⟨k, by rw [outStamp, hi1]; simp⟩

/-! ## C98, C99 -/

/-- The odometry pose used by the node: the one of the last odometry message. -/
noncomputable def lastOdom (h : History) : State6 ℝ :=
  (((odomMsgs h).getLast?).map OdomMsg.pose).getD State6.default

/-- C99: the two transforms are published with every pose if `publish_tf` is set, and only with a pose. -/
theorem C99_published {P : Params} {lib : Lib C} {env : Env} {n n' : Node C} {ev : Event} {o : List Out}
    (h : step P lib env n ev = .ok (n', o)) :
    (∃ tfs, .transforms tfs ∈ o) ↔ P.publishTf = true ∧ ∃ stamp frame pos rot cov, .pose stamp frame pos rot cov ∈ o := by
  rcases step_cases h with ⟨_, h4 | ⟨b, rfl | ⟨rfl, _⟩⟩⟩ | ⟨_, _, hd, p, acc, outs', _, _, _, _, hl, rfl⟩
  · constructor
    · rintro ⟨_, ht⟩; exact absurd (h4 _ ht) id
    · rintro ⟨_, _, _, _, _, _, hp⟩; exact absurd (h4 _ hp) id
  · simp
  · simp [publishStatus]
  obtain ⟨r, _, _, _, _, _, hmo, _, _, _, _, _, rfl⟩ := localize_ok hl
  have hmm := matchOutput_only hmo
  constructor
  · rintro ⟨tfs, ht⟩
    have hnt : .transforms tfs ∉ r.mo.2 := by
      intro hx; obtain ⟨s, l, hc | hc⟩ := hmm _ hx <;> cases hc
    simp only [List.mem_cons, List.mem_append, List.not_mem_nil, or_false, hnt, publishParticles, publishStatus,
      reduceCtorEq, false_or] at ht
    split_ifs at ht with hpt
    · exact ⟨hpt, _, _, _, _, _, List.mem_cons_of_mem _ (List.mem_append_left _ (List.mem_append_left _
        (List.mem_append_right _ List.mem_cons_self)))⟩
    · simp at ht
  · rintro ⟨hpt, _⟩
    rw [if_pos hpt]
    exact ⟨_, List.mem_cons_of_mem _ (List.mem_append_left _ (List.mem_append_left _
      (List.mem_append_left _ (List.mem_append_right _ List.mem_cons_self))))⟩

/-- C99: whenever a callback publishes a transform from the map to the odometry frame and a pose, the pose is
the transform composed with the last odometry, and the floor has the height of the pose. -/
theorem C99_consistent {P : Params} (hf : P.fakeOdom = false) {lib : Lib C} {env0 : Env} {motion0 : Motion ℝ}
    {h : History} {e : Event × Env} {n0 n : Node C} {outs : List (List Out)} {o : List Out}
    (hs : start P lib env0 motion0 = .ok n0) (hr : run P lib n0 (h ++ [e]) = .ok (n, outs ++ [o]))
    {stamp : ℝ} {frame : String} {pos : Vec3 ℝ} {rot : Quat ℝ} {cov : ℕ → ℕ → ℝ} {tfs : List TfMsg}
    (hp : .pose stamp frame pos rot cov ∈ o) (ht : .transforms tfs ∈ o) :
    ∃ t f, tfs = [t, f] ∧ t.parent = P.mapFrame ∧ t.child = P.odomFrame ∧
      pos = t.tf.point (lastOdom h).pos ∧ rot = t.tf.rot * (lastOdom h).rot ∧
      f.parent = P.mapFrame ∧ f.child = P.floorFrame ∧ f.tf.trans = ⟨0, 0, pos.z⟩ ∧ f.tf.rot = 1 ∧
      t.stamp = f.stamp := by
  obtain ⟨n1, os, o1, h1, h2, h3⟩ := run_snoc_ok hr
  obtain ⟨_, ho1⟩ := List.append_inj' h3 rfl
  simp only [List.cons.injEq, and_true] at ho1
  subst ho1
  have hod : n1.odo.odom = lastOdom h := by
    rw [run_odom hf h1]
    obtain ⟨_, ns, _, rfl⟩ := start_ok hs
    rfl
  rcases step_cases h2 with ⟨_, h4 | ⟨b, rfl | ⟨rfl, _⟩⟩⟩ | ⟨_, _, hd, p, acc, outs', _, _, _, _, hl, rfl⟩
  · exact absurd (h4 _ hp) id
  · simp at hp
  · simp [publishStatus] at hp
  obtain ⟨r, _, _, _, _, _, hmo, _, _, _, _, _, rfl⟩ := localize_ok hl
  have hmm := matchOutput_only hmo
  have hnp : .pose stamp frame pos rot cov ∉ r.mo.2 := by
    intro hx; obtain ⟨s, l, hc | hc⟩ := hmm _ hx <;> cases hc
  have hnt : .transforms tfs ∉ r.mo.2 := by
    intro hx; obtain ⟨s, l, hc | hc⟩ := hmm _ hx <;> cases hc
  have hpe : pos = (r.smooth P n1.odo (freshen e.2 n1).loc).pos ∧ rot = (r.smooth P n1.odo (freshen e.2 n1).loc).rot := by
    have : .pose stamp frame pos rot cov ∉ (if P.publishTf = true then
        [Out.transforms (transformsOf P (outStamp P n1.odo (freshen e.2 n1).loc.tolBase (e.2.now 1))
          (r.smooth P n1.odo (freshen e.2 n1).loc))] else []) := by split_ifs <;> simp
    simp only [List.mem_cons, List.mem_append, List.not_mem_nil, or_false, hnp, this, publishParticles, publishStatus,
      reduceCtorEq, false_or, Out.pose.injEq] at hp
    exact ⟨hp.2.2.1, hp.2.2.2.1⟩
  have hte : tfs = transformsOf P (outStamp P n1.odo (freshen e.2 n1).loc.tolBase (e.2.now 1))
      (r.smooth P n1.odo (freshen e.2 n1).loc) := by
    simp only [List.mem_cons, List.mem_append, List.not_mem_nil, or_false, hnt, publishParticles, publishStatus,
      reduceCtorEq, false_or] at ht
    split_ifs at ht
    · simpa using ht
    · simp at ht
  obtain ⟨rfl, rfl⟩ := hpe
  refine ⟨_, _, hte, rfl, rfl, ?_, ?_, rfl, rfl, rfl, rfl, rfl⟩
  · rw [← hod]
    simp only [LocRun.smooth, smooth, Tf.point]
    generalize Quat.rotate _ _ = a
    generalize FiltVec3.x _ = b
    exact vec3_add_comm _ _
  · rw [← hod]
    rfl

/-- A vector low-pass filter that was set to a value and then fed that value reports it. -/
theorem filter_reset (T : ℝ) (hT : 0 ≤ T) (angle : Bool) (cs : List FiltVec3.Call) (v : Vec3 ℝ) :
    ((((cs.foldl FiltVec3.call (FiltVec3.new .lpf ⟨T, T, T⟩ 0 angle)).set v).input v).x) = v := by
  have h1 : 1 + 2 * T ≠ 0 := by linarith
  have key : ∀ i < 3, (((cs ++ [FiltVec3.Call.set v, FiltVec3.Call.input v]).foldl FiltVec3.call
      (FiltVec3.new .lpf ⟨T, T, T⟩ 0 angle)).get).get i = v.get i := by
    intro i hi
    rw [FiltVec3.C51_componentwise _ _ _ _ _ _ hi, List.map_append, Filt.calls, List.foldl_append]
    have hTi : (⟨T, T, T⟩ : Vec3 ℝ).get i = T := by
      rcases i with _ | _ | _ | i <;> rfl
    rw [hTi]
    exact (Filt.C46_set_steady T _ h1 angle (cs.map (FiltVec3.Call.component i)) (v.get i) 1).2
  have h0 := key 0 (by norm_num)
  have h1 := key 1 (by norm_num)
  have h2 := key 2 (by norm_num)
  rw [List.foldl_append] at h0 h1 h2
  ext
  · exact h0
  · exact h1
  · exact h2

/-- The estimate jumped from `prev` to `est`, or there are more particles than configured (global
localization). -/
def Jumped (P : Params) (particles : ℕ) (prev est : State6 ℝ) : Prop :=
  P.numParticles < (particles : ℤ) ∨ P.jumpDist < (est.pos - prev.pos).norm ∨
    P.jumpAng < |(est.rot.inv * prev.rot).getAxisAng.2|

theorem jumpOf_iff {P : Params} {k : ℕ} {prev e : State6 ℝ} : (jumpOf P k prev e).1 = true ↔ Jumped P k prev e := by
  rw [jumpOf, Jumped]
  split_ifs with h1 h2
  · simp [h1]
  · simp [h1, h2]
  · simp [h1, h2]

/-- The smoothing passes the estimate through on a jump. -/
theorem smooth_jump {P : Params} (hT : 0 ≤ P.lpfStep) {loc : LocSt C} (hi : SmoothInv P loc) {odom e : State6 ℝ}
    (hu : e.rot.dot e.rot = 1) (ho : odom.rot.dot odom.rot = 1)
    (hg : |((e.rot * odom.rot.inv).rotate ⟨1, 0, 0⟩).z| < 1) :
    (smooth odom loc.fPos loc.fAng e true).pos = e.pos ∧
      Quat.SameRotation (smooth odom loc.fPos loc.fAng e true).rot e.rot := by
  obtain ⟨cs, hcs⟩ := hi.pos
  obtain ⟨ds, hds⟩ := hi.ang
  have hq : (e.rot * odom.rot.inv).dot (e.rot * odom.rot.inv) = 1 := by
    rw [Quat.C29_dot_mul, hu, Quat.C30_inv_unit _ ho]
    have : odom.rot.conj.dot odom.rot.conj = odom.rot.dot odom.rot := by simp [Quat.dot]
    rw [this, ho, one_mul]
  simp only [smooth, if_true, hcs, hds]
  rw [filter_reset _ hT, filter_reset _ hT]
  have hs := Quat.C34_roundtrip _ hq hg
  have hr := (Quat.sameRotation_iff _ _ (Quat.C32_unit _) hq).1 hs
  refine ⟨?_, ?_⟩
  · rw [hr]
    generalize (e.rot * odom.rot.inv).rotate odom.pos = a
    show (⟨e.pos.x - a.x + a.x, e.pos.y - a.y + a.y, e.pos.z - a.z + a.z⟩ : Vec3 ℝ) = e.pos
    simp
  · have h1 : odom.rot.inv * odom.rot = 1 := (Quat.C30_inv_mul _ (by rw [ho]; exact one_ne_zero)).1
    have h2 : e.rot * odom.rot.inv * odom.rot = e.rot := by
      rw [Quat.C29_mul_assoc, h1]; exact (Quat.C29_one e.rot ⟨0, 0, 0⟩).2.1
    rcases hs with hs | hs
    · left; rw [hs, h2]
    · right
      rw [hs]
      have h3 : ∀ a b : Quat ℝ, -a * b = -(a * b) := by intro a b; ext <;> simp <;> ring
      rw [h3, h2]

/-- C98: after any history, when a callback publishes a pose, the node's estimate is the mean of the particles
weighted by some likelihoods (and the bias); if that estimate jumped, or there are more particles than
configured, the published pose is the estimate.  The estimate and the odometry must be rotations and the
rotation from the map to the odometry frame must not be at gimbal lock. -/
theorem C98_jump {P : Params} (hT : 0 ≤ P.lpfStep) {lib : Lib C} {env : Env} {n n' : Node C} {ev : Event}
    {o : List Out} (hn : Reachable P lib n) (h : step P lib env n ev = .ok (n', o))
    {stamp : ℝ} {frame : String} {pos : Vec3 ℝ} {rot : Quat ℝ} {cov : ℕ → ℕ → ℝ}
    (hp : .pose stamp frame pos rot cov ∈ o) :
    ∃ w : List ℝ, w.length = n.loc.pf.particles.length ∧
      n'.loc.statePrev = estimate (biasFilter P n.loc.statePrev (measureWith n.loc.pf w)) ∧
      (Jumped P n.loc.pf.particles.length n.loc.statePrev n'.loc.statePrev →
        n'.loc.statePrev.rot.dot n'.loc.statePrev.rot = 1 → n.odo.odom.rot.dot n.odo.odom.rot = 1 →
        |((n'.loc.statePrev.rot * n.odo.odom.rot.inv).rotate ⟨1, 0, 0⟩).z| < 1 →
        pos = n'.loc.statePrev.pos ∧ Quat.SameRotation rot n'.loc.statePrev.rot) := by
  have hi := reachable_smooth hn
  rcases step_cases h with ⟨_, h4 | ⟨b, rfl | ⟨rfl, _⟩⟩⟩ | ⟨_, _, hd, p, acc, outs', _, _, _, _, hl, rfl⟩
  · exact absurd (h4 _ hp) id
  · simp at hp
  · simp [publishStatus] at hp
  obtain ⟨r, hw, _, _, _, _, hmo, _, _, _, _, hloc, rfl⟩ := localize_ok hl
  have hmm := matchOutput_only hmo
  have hnp : .pose stamp frame pos rot cov ∉ r.mo.2 := by
    intro hx; obtain ⟨s, l, hc | hc⟩ := hmm _ hx <;> cases hc
  have hpe : pos = (r.smooth P n.odo (freshen env n).loc).pos ∧ rot = (r.smooth P n.odo (freshen env n).loc).rot := by
    have : .pose stamp frame pos rot cov ∉ (if P.publishTf = true then
        [Out.transforms (transformsOf P (outStamp P n.odo (freshen env n).loc.tolBase (env.now 1))
          (r.smooth P n.odo (freshen env n).loc))] else []) := by split_ifs <;> simp
    simp only [List.mem_cons, List.mem_append, List.not_mem_nil, or_false, hnp, this, publishParticles, publishStatus,
      reduceCtorEq, false_or, Out.pose.injEq] at hp
    exact ⟨hp.2.2.1, hp.2.2.2.1⟩
  have hwl := weighLoop_length hw
  have hest : n'.loc.statePrev = r.est P (freshen env n).loc := by rw [hloc]
  rw [hest]
  refine ⟨r.w.1, hwl, rfl, fun hj hu ho hg => ?_⟩
  have hjj : (r.jump P (freshen env n).loc).1 = true := by
    rw [LocRun.jump, jumpOf_iff]
    have : (r.pf1 P (freshen env n).loc).particles.length = n.loc.pf.particles.length := by
      rw [LocRun.pf1, (biasFilter_spec _ _ _).1, measureWith_length _ _ hwl]
      rfl
    rw [this]
    exact hj
  rw [hpe.1, hpe.2, LocRun.smooth, hjj]
  exact smooth_jump hT hi hu ho hg

end Node
end Mcl3dl
