import Verif.Spec.Anchor
import Verif.Props.DeadReckoning
import Verif.Props.NodeSmooth
import Verif.Props.NodeOut
import Verif.Props.NodeWeightSum

/-!
# C171: the correction of the odometry when the pose is known
-/

set_option linter.unusedSectionVars false

namespace Mcl3dl
namespace Node

variable {C : Type}

theorem vec_sub_add (a b c d : Vec3 ℝ) : a + (b - c) - (d + (a - c)) = b - d := by
  ext <;> simp only [Vec3.add_x, Vec3.add_y, Vec3.add_z, Vec3.sub_x, Vec3.sub_y, Vec3.sub_z] <;> ring

theorem rotate_sub (q : Quat ℝ) (a b : Vec3 ℝ) : q.rotate (a - b) = q.rotate a - q.rotate b := by
  ext <;> simp only [Vec3.sub_x, Vec3.sub_y, Vec3.sub_z, Quat.rotate_x, Quat.rotate_y, Quat.rotate_z] <;> ring

theorem sameRotation_rotate {p q : Quat ℝ} (h : Quat.SameRotation p q) (v : Vec3 ℝ) : p.rotate v = q.rotate v := by
  rcases h with rfl | rfl
  · rfl
  · ext <;> simp only [Quat.rotate_x, Quat.rotate_y, Quat.rotate_z, Quat.neg_x, Quat.neg_y, Quat.neg_z, Quat.neg_w] <;> ring

theorem sameRotation_mul_right {p q : Quat ℝ} (h : Quat.SameRotation p q) (a : Quat ℝ) :
    Quat.SameRotation (p * a) (q * a) := by
  rcases h with rfl | rfl
  · exact .inl rfl
  · right
    ext <;> simp only [Quat.mul_x, Quat.mul_y, Quat.mul_z, Quat.mul_w, Quat.neg_x, Quat.neg_y, Quat.neg_z, Quat.neg_w] <;>
      ring

theorem sameRotation_mul_left {p q : Quat ℝ} (h : Quat.SameRotation p q) (a : Quat ℝ) :
    Quat.SameRotation (a * p) (a * q) := by
  rcases h with rfl | rfl
  · exact .inl rfl
  · right
    ext <;> simp only [Quat.mul_x, Quat.mul_y, Quat.mul_z, Quat.mul_w, Quat.neg_x, Quat.neg_y, Quat.neg_z, Quat.neg_w] <;>
      ring

theorem sameRotation_getRPY {p q : Quat ℝ} (h : Quat.SameRotation p q) : p.getRPY = q.getRPY := by
  rcases h with rfl | rfl
  · rfl
  · simp only [Quat.getRPY, Quat.neg_x, Quat.neg_y, Quat.neg_z, Quat.neg_w, neg_mul_neg]

theorem SameRotation.trans' {p q s : Quat ℝ} (h1 : Quat.SameRotation p q) (h2 : Quat.SameRotation q s) :
    Quat.SameRotation p s := by
  rcases h1 with rfl | rfl
  · exact h2
  · rcases h2 with rfl | rfl
    · exact .inr rfl
    · left
      ext <;> simp

theorem rotate_inj {q : Quat ℝ} (hq : q.dot q = 1) {a b : Vec3 ℝ} (h : q.rotate a = q.rotate b) : a = b := by
  have h0 : q.dot q ≠ 0 := by rw [hq]; exact one_ne_zero
  rw [← (Quat.C30_inv_rotate q h0 a).1, h, (Quat.C30_inv_rotate q h0 b).1]

theorem rotate_norm {q : Quat ℝ} (hq : q.dot q = 1) (v : Vec3 ℝ) : (q.rotate v).norm = v.norm := by
  rw [Quat.C28_rotate_norm]
  have : q.norm = 1 := by simp [Quat.norm, hq]
  rw [this]; ring

/-- The last odometry message of a valid history is a unit quaternion. -/
theorem last_unit {h : History} (hu : UnitMessages h) {m : OdomMsg} (hm : (odomMsgs h).getLast? = some m) :
    m.rot.dot m.rot = 1 :=
  odomMsgs_unit hu m (List.mem_of_getLast? hm)

theorem ref_unit {h : History} (hu : UnitMessages h) {m : OdomMsg} (hm : odomRef h = some m) : m.rot.dot m.rot = 1 := by
  rcases odomRef_mem _ _ hm with hm | hm
  · exact odomMsgs_unit hu m hm
  · cases hm

section
variable {P : Params} {lib : Lib C} {env0 env : Env} {motion0 : Motion ℝ} {n0 n n' n'' : Node C} {h0 h : History}
  {outs outs' : List (List Out)} {ev : Event} {o : List Out} {x : Vec3 ℝ} {q : Quat ℝ} {r : OdomMsg}

theorem anchor_unit (K : KnownPose P h0 h n x q r) : (anchor x q r).rot.dot (anchor x q r).rot = 1 := by
  have hr := ref_unit (fun e he => K.unit e (List.mem_append_left _ he)) K.reference
  show (q * r.rot.inv).dot (q * r.rot.inv) = 1
  rw [Quat.C29_dot_mul, Quat.C30_inv_unit _ hr, Quat.conj_dot, hr, K.orientation, one_mul]

/-- C171: with a known pose the estimate is where the odometry was when it was last used: the correction of a measurement
brings the newest odometry there. It is off by as much as the odometry moved since, and is the true place of the odometry
frame only if it did not move. -/
theorem C171_lag (K : KnownPose P h0 h n x q r) (hv0 : env0.Valid)
    (hs : start P lib env0 motion0 = .ok n0) (hr0 : run P lib n0 h0 = .ok (n, outs))
    (hr : run P lib n h = .ok (n', outs')) (hst : step P lib env n' ev = .ok (n'', o))
    {stamp : ℝ} {frame : String} {pos : Vec3 ℝ} {rot : Quat ℝ} {cov : ℕ → ℕ → ℝ} (hp : .pose stamp frame pos rot cov ∈ o)
    {r' m : OdomMsg} (h2 : odomRef (h0 ++ h) = some r') (hm : (odomMsgs (h0 ++ h)).getLast? = some m)
    (hx : ¬ Quat.MixedHalfTurn ((anchor x q r).rot * r'.rot)) :
    n'.odo.odom = m.pose ∧
    (let T := anchor x q r
     let c := correction m.pose n''.loc.statePrev
     c.point m.pos = T.point r'.pos ∧ Quat.SameRotation (c.rot * m.rot) (T.rot * r'.rot) ∧
     (c.point m.pos - T.point m.pos).norm = (r'.pos - m.pos).norm ∧
     (c.Same T ↔ r'.pos = m.pos ∧ Quat.SameRotation r'.rot m.rot)) := by
  have hrun : run P lib n0 (h0 ++ h) = .ok (n', outs ++ outs') := by
    rw [run_append, hr0, Outcome.bind_ok, hr]; rfl
  have hru := ref_unit (fun e he => K.unit e (List.mem_append_left _ he)) K.reference
  have hru' := ref_unit K.unit h2
  have hmu := last_unit K.unit hm
  have hm0 : m.rot.dot m.rot ≠ 0 := by rw [hmu]; exact one_ne_zero
  have hT := anchor_unit K
  have hT0 : (anchor x q r).rot.dot (anchor x q r).rot ≠ 0 := by rw [hT]; exact one_ne_zero
  have htr := C165_between K.unit K.reference h2 K.noJump
  obtain ⟨e1, e2⟩ := C165_estimate K.quiet K.noFake K.divYaw K.likelihoodMin K.matchWeight K.biasVar.1 K.biasVar.2 hv0
    K.valid K.unit K.places hs hr0 hr hst hp x q K.orientation K.agree
  rw [htr] at e1 e2
  have er : q * (r.rot.inv * r'.rot) = (anchor x q r).rot * r'.rot := (Quat.C29_mul_assoc _ _ _).symm
  rw [er] at e2
  have e2 := e2.2 hx
  have e1 : n''.loc.statePrev.pos = (anchor x q r).point r'.pos := by
    rw [e1]
    show _ = (q * r.rot.inv).rotate r'.pos + (x - (q * r.rot.inv).rotate r.pos)
    rw [← Quat.C29_mul_rotate, rotate_sub]
    ext <;> simp only [Vec3.add_x, Vec3.add_y, Vec3.add_z, Vec3.sub_x, Vec3.sub_y, Vec3.sub_z] <;> ring
  have hod : n'.odo.odom = m.pose := by
    rw [run_odom K.noFake hrun, hm]
    rfl
  generalize n''.loc.statePrev = E at e1 e2
  generalize hTd : anchor x q r = T at *
  have cp : (correction m.pose E).point m.pos = E.pos := by
    show (correctionRot m.pose E).rotate m.pos + (E.pos - (correctionRot m.pose E).rotate m.pos) = E.pos
    ext <;> simp only [Vec3.add_x, Vec3.add_y, Vec3.add_z, Vec3.sub_x, Vec3.sub_y, Vec3.sub_z] <;> ring
  have cr : (correction m.pose E).rot * m.rot = E.rot := by
    show E.rot * m.rot.inv * m.rot = E.rot
    rw [Quat.C29_mul_assoc, (Quat.C30_inv_mul _ hm0).1, quat_mul_one]
  have cs : Quat.SameRotation (correction m.pose E).rot (T.rot * r'.rot * m.rot.inv) :=
    sameRotation_mul_right e2 m.rot.inv
  have ct : (correction m.pose E).trans = E.pos - (correction m.pose E).rot.rotate m.pos := rfl
  have hpt : ∀ a b : Vec3 ℝ, T.point a - T.point b = T.rot.rotate (a - b) := by
    intro a b
    rw [rotate_sub]
    show T.rot.rotate a + T.trans - (T.rot.rotate b + T.trans) = _
    ext <;> simp only [Vec3.add_x, Vec3.add_y, Vec3.add_z, Vec3.sub_x, Vec3.sub_y, Vec3.sub_z] <;> ring
  refine ⟨hod, by rw [cp, e1], by rw [cr]; exact e2, by rw [cp, e1, hpt, rotate_norm hT], ?_⟩
  constructor
  · rintro ⟨k1, k2⟩
    have hrot : Quat.SameRotation r'.rot m.rot := by
      have := SameRotation.trans' (by
        rcases cs with h | h
        · exact .inl h.symm
        · right; rw [h]; ext <;> simp : Quat.SameRotation (T.rot * r'.rot * m.rot.inv) (correction m.pose E).rot) k2
      have := sameRotation_mul_left (sameRotation_mul_right this m.rot) T.rot.inv
      rwa [Quat.C29_mul_assoc (T.rot * r'.rot), (Quat.C30_inv_mul _ hm0).1, quat_mul_one, ← Quat.C29_mul_assoc,
        ← Quat.C29_mul_assoc, (Quat.C30_inv_mul _ hT0).1, quat_one_mul, quat_one_mul] at this
    refine ⟨?_, hrot⟩
    rw [ct, sameRotation_rotate k2, e1] at k1
    refine rotate_inj hT (?_ : T.rot.rotate r'.pos = T.rot.rotate m.pos)
    have hz : T.rot.rotate r'.pos + T.trans - T.rot.rotate m.pos = T.trans := k1
    have hx := congrArg Vec3.x hz
    have hy := congrArg Vec3.y hz
    have hz := congrArg Vec3.z hz
    simp only [Vec3.add_x, Vec3.add_y, Vec3.add_z, Vec3.sub_x, Vec3.sub_y, Vec3.sub_z] at hx hy hz
    ext <;> linarith
  · rintro ⟨k1, k2⟩
    have hrot : Quat.SameRotation (correction m.pose E).rot T.rot := by
      refine SameRotation.trans' cs ?_
      have := sameRotation_mul_left (sameRotation_mul_right k2 m.rot.inv) T.rot
      rwa [(Quat.C30_inv_mul _ hm0).2, quat_mul_one, ← Quat.C29_mul_assoc] at this
    refine ⟨?_, hrot⟩
    rw [ct, sameRotation_rotate hrot, e1, k1]
    show T.rot.rotate m.pos + T.trans - T.rot.rotate m.pos = T.trans
    ext <;> simp only [Vec3.add_x, Vec3.add_y, Vec3.add_z, Vec3.sub_x, Vec3.sub_y, Vec3.sub_z] <;> ring


theorem allUsed_ref {r : OdomMsg} {ms : List OdomMsg} (h : AllUsed r ms) :
    NoJump (some r) ms ∧ ms.foldl odomRefStep (some r) = some (ms.getLast?.getD r) := by
  induction ms generalizing r with
  | nil => exact ⟨trivial, rfl⟩
  | cons m ms ih =>
    obtain ⟨a, b, c⟩ := h
    have hu := (useOf_use r.stamp m.stamp).2 ⟨a, b⟩
    have hs : odomRefStep (some r) m = some m := by
      rw [odomRefStep, Option.map_some, hu]
    obtain ⟨i1, i2⟩ := ih c
    refine ⟨⟨by rw [Option.map_some, hu]; decide, by rw [hs]; exact i1⟩, ?_⟩
    rw [List.foldl_cons, hs, i2]
    cases ms <;> simp [List.getLast?_cons]

theorem allUsed_left {r : OdomMsg} {a b : List OdomMsg} (h : AllUsed r (a ++ b)) : AllUsed r a := by
  induction a generalizing r with
  | nil => trivial
  | cons m a ih => exact ⟨h.1, h.2.1, ih h.2.2⟩

theorem odomMsgs_append (a b : History) : odomMsgs (a ++ b) = odomMsgs a ++ odomMsgs b := by simp [odomMsgs]

theorem KnownPose.left {a b : History} (K : KnownPose P h0 (a ++ b) n x q r) : KnownPose P h0 a n x q r := by
  refine { K with valid := fun e he => K.valid e ?_, unit := fun e he => K.unit e ?_, places := fun e he => K.places e ?_,
                  noJump := ?_ }
  · rw [← List.append_assoc]; exact List.mem_append_left _ he
  · rw [← List.append_assoc]; exact List.mem_append_left _ he
  · exact List.mem_append_left _ he
  · have := K.noJump
    rw [odomMsgs_append] at this
    generalize odomMsgs a = as at this
    generalize some r = r0 at this ⊢
    induction as generalizing r0 with
    | nil => trivial
    | cons m as ih => exact ⟨this.1, ih _ this.2⟩

/-- A step of a run, with the run before it. -/
theorem trace_split {P : Params} {lib : Lib C} {h : History} {n n' : Node C} {outs : List (List Out)}
    (hr : run P lib n h = .ok (n', outs)) : ∀ s ∈ trace P lib n h, ∃ h1 e h2 os, h = h1 ++ e :: h2 ∧
      run P lib n h1 = .ok (s.1, os) ∧ step P lib e.2 s.1 e.1 = .ok (s.2.1, s.2.2) := by
  induction h generalizing n outs with
  | nil => simp [trace]
  | cons e h ih =>
    obtain ⟨ev, env⟩ := e
    obtain ⟨n1, o, os, h1, h2, rfl⟩ := run_cons_ok hr
    have h1' : step P lib env n ev = .ok (n1, o) := h1
    intro s hs
    simp only [trace, h1', List.mem_cons] at hs
    rcases hs with rfl | hs
    · exact ⟨[], (ev, env), h, [], rfl, rfl, h1'⟩
    · obtain ⟨a, e, b, os', rfl, g1, g2⟩ := ih h2 s hs
      refine ⟨(ev, env) :: a, e, b, o :: os', rfl, ?_, g2⟩
      rw [run, h1', Outcome.bind_ok, g1]
      rfl

theorem poseCov_mem {o : List Out} (h : (o.findSome? Out.poseCov).isSome = true) :
    ∃ stamp frame pos rot cov, Out.pose stamp frame pos rot cov ∈ o := by
  rw [Option.isSome_iff_exists] at h
  obtain ⟨c, hc⟩ := h
  obtain ⟨a, ha, hc⟩ := List.exists_of_findSome?_eq_some hc
  cases a <;> simp [Out.poseCov] at hc
  exact ⟨_, _, _, _, _, ha⟩

/-- With every odometry message used, all corrections of a run with a known pose are the true place of the odometry
frame. -/
theorem corrections_anchor (K : KnownPose P h0 h n x q r) (hv0 : env0.Valid)
    (hs : start P lib env0 motion0 = .ok n0) (hr0 : run P lib n0 h0 = .ok (n, outs))
    (hr : run P lib n h = .ok (n', outs')) (hlast : (odomMsgs h0).getLast? = some r) (hall : AllUsed r (odomMsgs h))
    (hx : ∀ m ∈ r :: odomMsgs h, ¬ Quat.MixedHalfTurn ((anchor x q r).rot * m.rot)) :
    ∀ c ∈ corrections P (trace P lib n h), c.2 = ((anchor x q r).trans, (anchor x q r).rot.getRPY) := by
  intro c hc
  rw [corrections, List.mem_filterMap] at hc
  obtain ⟨s, hs1, hs2⟩ := hc
  split_ifs at hs2 with hpose
  simp only [Option.some.injEq] at hs2
  subst hs2
  obtain ⟨h1, e, h2, os, rfl, g1, g2⟩ := trace_split hr s hs1
  obtain ⟨stamp, frame, pos, rot, cov, hp⟩ := poseCov_mem hpose
  rw [odomMsgs_append] at hall hx
  have ha := allUsed_left hall
  obtain ⟨_, href⟩ := allUsed_ref ha
  set m := (odomMsgs h1).getLast?.getD r with hm
  have hmm : m ∈ r :: (odomMsgs h1 ++ odomMsgs (e :: h2)) := by
    rw [hm]
    cases hg : (odomMsgs h1).getLast? with
    | none => simp
    | some m => simp [List.mem_of_getLast? hg]
  have hodom : odomRef (h0 ++ h1) = some m := by
    have := K.reference
    rw [odomRef] at this ⊢
    rw [odomMsgs_append, List.foldl_append, this, href]
  have hnew : (odomMsgs (h0 ++ h1)).getLast? = some m := by
    rw [odomMsgs_append, List.getLast?_append, hlast, hm]
    cases (odomMsgs h1).getLast? <;> rfl
  obtain ⟨j1, _, _, _, j2⟩ := C171_lag K.left hv0 hs hr0 g1 g2 hp hodom hnew (hx m hmm)
  obtain ⟨k1, k2⟩ := j2.2 ⟨rfl, .inl rfl⟩
  rw [j1]
  exact Prod.ext k1 (sameRotation_getRPY k2)

theorem Smoothed.constant {T v : ℝ} (hT : 0 ≤ T) {vs : List (Prop × ℝ)} {s r : ℝ × ℝ} (h : Smoothed T s vs r)
    (hs : s = (v, v)) (hv : ∀ c ∈ vs, c.2 = v) : r = (v, v) := by
  induction h with
  | none s => exact hs
  | @jump s J w vs r h _ ih =>
    have hw : w = v := hv (J, w) (by simp)
    exact ih (by rw [hw]) fun c hc => hv c (by simp [hc])
  | @move s J w vs r h _ ih =>
    have hw : w = v := hv (J, w) (by simp)
    subst hs
    refine ih ?_ fun c hc => hv c (by simp [hc])
    rw [hw, lowPass_self hT]

theorem SmoothedAngle.constant {T v : ℝ} (hT : 0 ≤ T) {vs : List (Prop × ℝ)} {s r : ℝ × ℝ} (h : SmoothedAngle T s vs r)
    (hs : s = (v, v)) (hv : ∀ c ∈ vs, c.2 = v) : r = (v, v) := by
  induction h with
  | none s => exact hs
  | @jump s J w vs r h _ ih =>
    have hw : w = v := hv (J, w) (by simp)
    exact ih (by rw [hw]) fun c hc => hv c (by simp [hc])
  | @move s J w vs r h k hk _ ih =>
    have hw : w = v := hv (J, w) (by simp)
    subst hs
    subst hw
    have hk0 : k = 0 := by
      simp only [add_sub_cancel_left, abs_mul, abs_of_pos Real.two_pi_pos] at hk
      by_contra hne
      have h1 : (1 : ℝ) ≤ |(k : ℝ)| := by exact_mod_cast Int.one_le_abs hne
      nlinarith [Real.pi_pos]
    refine ih ?_ fun c hc => hv c (by simp [hc])
    rw [hk0]
    simp [lowPass_self hT]

/-- A smoothed sequence can be cut. -/
theorem Smoothed.cut {T : ℝ} {s r : ℝ × ℝ} {a b : List (Prop × ℝ)} (h : Smoothed T s (a ++ b) r) :
    ∃ t, Smoothed T s a t ∧ Smoothed T t b r := by
  induction a generalizing s with
  | nil => exact ⟨s, .none _, h⟩
  | cons c a ih =>
    obtain ⟨J, v⟩ := c
    rw [List.cons_append] at h
    cases h with
    | jump hj h => obtain ⟨t, h1, h2⟩ := ih h; exact ⟨t, .jump hj h1, h2⟩
    | move hj h => obtain ⟨t, h1, h2⟩ := ih h; exact ⟨t, .move hj h1, h2⟩

theorem SmoothedAngle.cut {T : ℝ} {s r : ℝ × ℝ} {a b : List (Prop × ℝ)} (h : SmoothedAngle T s (a ++ b) r) :
    ∃ t, SmoothedAngle T s a t ∧ SmoothedAngle T t b r := by
  induction a generalizing s with
  | nil => exact ⟨s, .none _, h⟩
  | cons c a ih =>
    obtain ⟨J, v⟩ := c
    rw [List.cons_append] at h
    cases h with
    | jump hj h => obtain ⟨t, h1, h2⟩ := ih h; exact ⟨t, .jump hj h1, h2⟩
    | move hj k hk h => obtain ⟨t, h1, h2⟩ := ih h; exact ⟨t, .move hj k hk h1, h2⟩

theorem Smoothed.unique {T : ℝ} {s r r' : ℝ × ℝ} {vs : List (Prop × ℝ)} (h : Smoothed T s vs r) (h' : Smoothed T s vs r') :
    r = r' := by
  induction h with
  | none s => cases h'; rfl
  | jump hj _ ih =>
    cases h' with
    | jump _ h => exact ih h
    | move hn _ => exact absurd hj hn
  | move hj _ ih =>
    cases h' with
    | jump hp _ => exact absurd hp hj
    | move _ h => exact ih h

/-- After a jump and equal inputs the output is the input. -/
theorem Smoothed.settled {T v : ℝ} (hT : 0 ≤ T) {s r : ℝ × ℝ} {a b : List (Prop × ℝ)} {J : Prop} (hJ : J)
    (h : Smoothed T s (a ++ (J, v) :: b) r) (hv : ∀ c ∈ b, c.2 = v) : r.1 = v := by
  obtain ⟨t, _, h⟩ := h.cut
  cases h with
  | jump _ h => rw [h.constant hT rfl hv]
  | move hn _ => exact absurd hJ hn

theorem SmoothedAngle.settled {T v : ℝ} (hT : 0 ≤ T) {s r : ℝ × ℝ} {a b : List (Prop × ℝ)} {J : Prop} (hJ : J)
    (h : SmoothedAngle T s (a ++ (J, v) :: b) r) (hv : ∀ c ∈ b, c.2 = v) : r.1 = v := by
  obtain ⟨t, _, h⟩ := h.cut
  cases h with
  | jump _ h => rw [h.constant hT rfl hv]
  | move hn _ _ _ => exact absurd hJ hn

/-- Equal inputs after one of the same value shrink the error by a factor each. -/
theorem Smoothed.shrinks {T v y : ℝ} (hT : 0 ≤ T) {vs : List (Prop × ℝ)} {r : ℝ × ℝ} (h : Smoothed T (y, v) vs r)
    (hv : ∀ c ∈ vs, c.2 = v) : |r.1 - v| ≤ |(2 * T - 1) / (2 * T + 1)| ^ vs.length * |y - v| := by
  generalize hs : (y, v) = s at h
  induction h generalizing y with
  | none s => subst hs; simp
  | @jump s J w vs r h _ ih =>
    have hw : w = v := hv (J, w) (by simp)
    subst hw
    have := ih (y := w) (fun c hc => hv c (by simp [hc])) rfl
    rw [sub_self, abs_zero, mul_zero] at this
    exact this.trans (by positivity)
  | @move s J w vs r h _ ih =>
    have hw : w = v := hv (J, w) (by simp)
    subst hw hs
    have := ih (y := lowPass T y w w) (fun c hc => hv c (by simp [hc])) rfl
    have e : lowPass T y w w - w = (2 * T - 1) / (2 * T + 1) * (y - w) := by
      have h : (2 * T + 1) ≠ 0 := by positivity
      unfold lowPass
      field_simp
      ring
    rw [e, abs_mul] at this
    rw [List.length_cons, pow_succ, mul_assoc]
    exact this

theorem Smoothed.prev {T : ℝ} {s r : ℝ × ℝ} {a : List (Prop × ℝ)} {J : Prop} {v : ℝ} (h : Smoothed T s (a ++ [(J, v)]) r) :
    r.2 = v := by
  obtain ⟨t, _, h⟩ := h.cut
  cases h with
  | jump _ h => cases h; rfl
  | move _ h => cases h; rfl

theorem corrections_one (P : Params) {n n' : Node C} {o : List Out} (h : (o.findSome? Out.poseCov).isSome = true) :
    corrections P [(n, n', o)] = [(EstimateJumped P n.loc.pf.particles.length n.loc.statePrev n'.loc.statePrev,
      correctionPos n.odo.odom n'.loc.statePrev, (correctionRot n.odo.odom n'.loc.statePrev).getRPY)] := by
  simp only [corrections, List.filterMap_cons, h, if_true, List.filterMap_nil]

theorem trace_append {P : Params} {lib : Lib C} {a b : History} {n n' : Node C} {outs : List (List Out)}
    (hr : run P lib n a = .ok (n', outs)) : trace P lib n (a ++ b) = trace P lib n a ++ trace P lib n' b := by
  induction a generalizing n outs with
  | nil =>
    simp only [run, Outcome.ok.injEq, Prod.mk.injEq] at hr
    obtain ⟨rfl, rfl⟩ := hr
    rfl
  | cons e a ih =>
    obtain ⟨ev, env⟩ := e
    obtain ⟨n1, o, os, h1, h2, rfl⟩ := run_cons_ok hr
    have h1' : step P lib env n ev = .ok (n1, o) := h1
    simp only [List.cons_append, trace, h1', ih h2]

theorem transforms_pose {P : Params} {lib : Lib C} {env : Env} {n n' : Node C} {ev : Event} {o : List Out}
    (h : step P lib env n ev = .ok (n', o)) {tfs : List TfMsg} (ht : .transforms tfs ∈ o) :
    (o.findSome? Out.poseCov).isSome = true := by
  rcases localized_pose h with ⟨_, _, h3⟩ | ⟨h1, _⟩
  · exact absurd ht (h3 tfs)
  · exact h1

theorem isSome_of_pose {o : List Out} {stamp : ℝ} {frame : String} {pos : Vec3 ℝ} {rot : Quat ℝ} {cov : ℕ → ℕ → ℝ}
    (hp : .pose stamp frame pos rot cov ∈ o) : (o.findSome? Out.poseCov).isSome = true := by
  cases hc : o.findSome? Out.poseCov with
  | some c => rfl
  | none =>
    rw [List.findSome?_eq_none_iff] at hc
    have := hc _ hp
    simp [Out.poseCov] at this

theorem corrections_length (P : Params) (tr : List (Node C × Node C × List Out)) :
    (corrections P tr).length = posesIn (tr.map fun s => s.2.2) := by
  induction tr with
  | nil => rfl
  | cons s tr ih =>
    have : corrections P (s :: tr) = corrections P [s] ++ corrections P tr := corrections_append P [s] tr
    rw [this, List.length_append, ih]
    cases hs : (s.2.2.findSome? Out.poseCov).isSome with
    | true => rw [corrections_one P hs]; simp [posesIn, hs, Nat.add_comm]
    | false =>
      have h0 : corrections P [s] = [] := by
        simp only [corrections, List.filterMap_cons, hs, Bool.false_eq_true, if_false, List.filterMap_nil]
      rw [h0]; simp [posesIn, hs]

/-- C171: if every odometry message is used, from a jump of the estimate on (a first estimate far away, more particles than
configured) every published transform is exactly the true place of the odometry frame, and every published pose is the
newest odometry taken there. -/
theorem C171_constant {e1 : Event × Env} (hT : 0 ≤ P.lpfStep) (K : KnownPose P h0 (e1 :: h) n x q r) (hv0 : env0.Valid)
    (hs : start P lib env0 motion0 = .ok n0) (hr0 : run P lib n0 h0 = .ok (n, outs))
    {n1 : Node C} {o1 : List Out} (hst : step P lib e1.2 n e1.1 = .ok (n1, o1)) (hr : run P lib n1 h = .ok (n', outs'))
    {stamp : ℝ} {frame : String} {pos : Vec3 ℝ} {rot : Quat ℝ} {cov : ℕ → ℕ → ℝ} (hp : .pose stamp frame pos rot cov ∈ o1)
    (hj : EstimateJumped P n.loc.pf.particles.length n.loc.statePrev n1.loc.statePrev)
    (hlast : (odomMsgs h0).getLast? = some r) (hall : AllUsed r (odomMsgs (e1 :: h)))
    (hx : ∀ m ∈ r :: odomMsgs (e1 :: h), ¬ Quat.MixedHalfTurn ((anchor x q r).rot * m.rot))
    (hg : |((anchor x q r).rot.rotate ⟨1, 0, 0⟩).z| < 1) :
    ∀ k o tfs, (o1 :: outs')[k]? = some o → .transforms tfs ∈ o →
      ∃ t f, tfs = [t, f] ∧ t.parent = P.mapFrame ∧ t.child = P.odomFrame ∧ t.tf.Same (anchor x q r) ∧
        ∀ stamp frame pos rot cov, .pose stamp frame pos rot cov ∈ o →
          pos = (anchor x q r).point (lastOdom (h0 ++ (e1 :: h).take k)).pos ∧
          Quat.SameRotation rot ((anchor x q r).rot * (lastOdom (h0 ++ (e1 :: h).take k)).rot) := by
  intro k o tfs hk ht
  have hrun : run P lib n (e1 :: h) = .ok (n', o1 :: outs') := by
    rw [run, hst, Outcome.bind_ok, hr]; rfl
  have hlen : k < (e1 :: h).length := by
    have h1 := (List.getElem?_eq_some_iff.1 hk).1
    have h2 : (trace P lib n (e1 :: h)).length = (o1 :: outs').length := by rw [← trace_outs hrun, List.length_map]
    have h3 := run_length hrun
    omega
  have hsplit : e1 :: h = (e1 :: h).take k ++ (e1 :: h)[k] :: (e1 :: h).drop (k + 1) := by
    rw [List.getElem_cons_drop, List.take_append_drop]
  have hassoc : e1 :: h = ((e1 :: h).take k ++ [(e1 :: h)[k]]) ++ (e1 :: h).drop (k + 1) := by
    rw [List.append_assoc, List.singleton_append]; exact hsplit
  set a := (e1 :: h).take k with ha
  set e := (e1 :: h)[k] with he
  set b := (e1 :: h).drop (k + 1) with hb
  have hr1 := hrun
  rw [hassoc, run_append] at hr1
  obtain ⟨⟨n3, os3⟩, hr3, hr4⟩ := Outcome.bind_eq_ok_iff.1 hr1
  obtain ⟨n2, os, o', g1, g2, g3⟩ := run_snoc_ok hr3
  have hlk : a.length = k := by rw [ha, List.length_take]; exact min_eq_left (le_of_lt hlen)
  have hos : os.length = k := by rw [← hlk]; exact run_length g1
  obtain ⟨⟨n4, os4⟩, hr5, hr6⟩ := Outcome.bind_eq_ok_iff.1 hr4
  simp only [Outcome.ok.injEq, Prod.mk.injEq] at hr6
  have ho : o' = o := by
    rw [← hr6.2, g3, List.append_assoc, ← hos, List.getElem?_append_right (le_refl _)] at hk
    simpa using hk
  subst ho g3
  have hrun3 : run P lib n0 (h0 ++ a ++ [e]) = .ok (n3, (outs ++ os) ++ [o']) := by
    rw [List.append_assoc, run_append, hr0, Outcome.bind_ok, hr3]
    simp
  obtain ⟨t, f, X, Y, Z, R, Pi, W, rfl, t1, t2, htr, hrt, c1, c2, c3, c4, c5, c6⟩ := C134_smoothing hT hs hrun3 ht
  have hall' : AllUsed r (odomMsgs (a ++ [e])) := by
    rw [hassoc, odomMsgs_append] at hall
    exact allUsed_left hall
  have K' : KnownPose P h0 (a ++ [e]) n x q r := by
    rw [hassoc] at K
    exact K.left
  have hcs := corrections_anchor K' hv0 hs hr0 hr3 hlast hall' (fun m hm => hx m (by
    rw [hassoc, odomMsgs_append]
    rcases List.mem_cons.1 hm with rfl | hm
    · exact List.mem_cons_self
    · exact List.mem_cons_of_mem _ (List.mem_append_left _ hm)))
  have hhead : ∃ l, a ++ [e] = e1 :: l := by
    cases k with
    | zero => exact ⟨[], rfl⟩
    | succ k => exact ⟨h.take k ++ [e], rfl⟩
  obtain ⟨l, hl⟩ := hhead
  have htrace : corrections P (trace P lib n (a ++ [e])) =
      (EstimateJumped P n.loc.pf.particles.length n.loc.statePrev n1.loc.statePrev,
        correctionPos n.odo.odom n1.loc.statePrev, (correctionRot n.odo.odom n1.loc.statePrev).getRPY) ::
      corrections P (trace P lib n1 l) := by
    have : trace P lib n (e1 :: l) = [(n, n1, o1)] ++ trace P lib n1 l := by
      obtain ⟨ev1, env1⟩ := e1
      simp only [trace, hst, List.singleton_append]
    rw [hl, this, corrections_append, corrections_one P (isSome_of_pose hp), List.singleton_append]
  have hall2 : corrections P (trace P lib n0 (h0 ++ a ++ [e])) = corrections P (trace P lib n0 h0) ++
      (EstimateJumped P n.loc.pf.particles.length n.loc.statePrev n1.loc.statePrev,
        correctionPos n.odo.odom n1.loc.statePrev, (correctionRot n.odo.odom n1.loc.statePrev).getRPY) ::
      corrections P (trace P lib n1 l) := by
    rw [List.append_assoc, trace_append hr0, corrections_append, htrace]
  rw [htrace] at hcs
  have hc0 := hcs _ List.mem_cons_self
  have hcl := fun c hc => hcs c (List.mem_cons_of_mem _ hc)
  simp only [Prod.mk.injEq] at hc0
  obtain ⟨hc01, hc02⟩ := hc0
  rw [hc01, hc02] at hall2
  rw [hall2] at c1 c2 c3 c4 c5 c6
  simp only [List.map_append, List.map_cons] at c1 c2 c3 c4 c5 c6
  generalize hTd : anchor x q r = T at *
  have d1 := c1.settled hT hj fun c hc => by obtain ⟨c', hc', rfl⟩ := List.mem_map.1 hc; simp [hcl c' hc']
  have d2 := c2.settled hT hj fun c hc => by obtain ⟨c', hc', rfl⟩ := List.mem_map.1 hc; simp [hcl c' hc']
  have d3 := c3.settled hT hj fun c hc => by obtain ⟨c', hc', rfl⟩ := List.mem_map.1 hc; simp [hcl c' hc']
  have d4 := c4.settled hT hj fun c hc => by obtain ⟨c', hc', rfl⟩ := List.mem_map.1 hc; simp [hcl c' hc']
  have d5 := c5.settled hT hj fun c hc => by obtain ⟨c', hc', rfl⟩ := List.mem_map.1 hc; simp [hcl c' hc']
  have d6 := c6.settled hT hj fun c hc => by obtain ⟨c', hc', rfl⟩ := List.mem_map.1 hc; simp [hcl c' hc']
  have hTu : T.rot.dot T.rot = 1 := by rw [← hTd]; exact anchor_unit K
  have htrans : t.tf.trans = T.trans := by rw [htr, d1, d2, d3]
  have hrot : Quat.SameRotation t.tf.rot T.rot := by
    rw [hrt, d4, d5, d6]
    exact Quat.C34_roundtrip T.rot hTu hg
  refine ⟨t, f, rfl, t1, t2, ⟨htrans, hrot⟩, ?_⟩
  intro stamp frame pos rot cov hp'
  obtain ⟨t', f', he', _, _, p1, p2, _⟩ := C99_consistent K.noFake hs hrun3 hp' ht
  simp only [List.cons.injEq, and_true] at he'
  obtain ⟨rfl, rfl⟩ := he'
  refine ⟨?_, ?_⟩
  · rw [p1]
    show t.tf.rot.rotate _ + t.tf.trans = T.rot.rotate _ + T.trans
    rw [sameRotation_rotate hrot, htrans]
  · rw [p2]; exact sameRotation_mul_right hrot _

/-- C171: if every odometry message is used, the published translation tends to the true place of the odometry frame
also without a jump: every measurement shrinks the error of each coordinate by the factor |2 lpf_step - 1| /
(2 lpf_step + 1). -/
theorem C171_converges {a b : History} {e1 e2 : Event × Env} (hT : 0 ≤ P.lpfStep)
    (K : KnownPose P h0 ((a ++ [e1]) ++ (b ++ [e2])) n x q r) (hv0 : env0.Valid)
    (hs : start P lib env0 motion0 = .ok n0) (hr0 : run P lib n0 h0 = .ok (n, outs))
    {n1 n2 : Node C} {os1 os2 : List (List Out)} {o1 o2 : List Out}
    (hr1 : run P lib n (a ++ [e1]) = .ok (n1, os1 ++ [o1])) (hr2 : run P lib n1 (b ++ [e2]) = .ok (n2, os2 ++ [o2]))
    (hlast : (odomMsgs h0).getLast? = some r) (hall : AllUsed r (odomMsgs ((a ++ [e1]) ++ (b ++ [e2]))))
    (hx : ∀ m ∈ r :: odomMsgs ((a ++ [e1]) ++ (b ++ [e2])), ¬ Quat.MixedHalfTurn ((anchor x q r).rot * m.rot))
    {t1 f1 t2 f2 : TfMsg} (ht1 : .transforms [t1, f1] ∈ o1) (ht2 : .transforms [t2, f2] ∈ o2) :
    let T := (anchor x q r).trans
    let ρ := |(2 * P.lpfStep - 1) / (2 * P.lpfStep + 1)| ^ (posesIn os2 + 1)
    |t2.tf.trans.x - T.x| ≤ ρ * |t1.tf.trans.x - T.x| ∧ |t2.tf.trans.y - T.y| ≤ ρ * |t1.tf.trans.y - T.y| ∧
      |t2.tf.trans.z - T.z| ≤ ρ * |t1.tf.trans.z - T.z| := by
  intro T ρ
  have hrun1 : run P lib n0 (h0 ++ a ++ [e1]) = .ok (n1, (outs ++ os1) ++ [o1]) := by
    rw [List.append_assoc, run_append, hr0, Outcome.bind_ok, hr1]
    simp
  have hr12 : run P lib n ((a ++ [e1]) ++ (b ++ [e2])) = .ok (n2, (os1 ++ [o1]) ++ (os2 ++ [o2])) := by
    rw [run_append, hr1, Outcome.bind_ok, hr2]
    simp
  have hrun2 : run P lib n0 ((h0 ++ (a ++ [e1]) ++ b) ++ [e2]) = .ok (n2, (outs ++ (os1 ++ [o1]) ++ os2) ++ [o2]) := by
    have := hr12
    rw [← List.append_assoc] at this
    rw [List.append_assoc h0, List.append_assoc h0, run_append, hr0, Outcome.bind_ok, this]
    simp
  obtain ⟨u1, w1, x1, y1, z1, _, _, _, he1, _, _, k1, _, a1, a2, a3, _⟩ := C134_smoothing hT hs hrun1 ht1
  obtain ⟨u2, w2, x2, y2, z2, _, _, _, he2, _, _, k2, _, b1, b2, b3, _⟩ := C134_smoothing hT hs hrun2 ht2
  simp only [List.cons.injEq, and_true] at he1 he2
  obtain ⟨rfl, rfl⟩ := he1
  obtain ⟨rfl, rfl⟩ := he2
  have hcs := corrections_anchor K hv0 hs hr0 hr12 hlast hall hx
  obtain ⟨n3, _, o3, g1, g2, g3⟩ := run_snoc_ok hr1
  obtain ⟨-, g3⟩ := List.append_inj' g3 rfl
  simp only [List.cons.injEq, and_true] at g3
  subst g3
  have hp1 : (o1.findSome? Out.poseCov).isSome = true := transforms_pose g2 ht1
  obtain ⟨n4, _, o4, q1, q2, q3⟩ := run_snoc_ok hr2
  obtain ⟨-, q3⟩ := List.append_inj' q3 rfl
  simp only [List.cons.injEq, and_true] at q3
  subst q3
  have hp2 : (o2.findSome? Out.poseCov).isSome = true := transforms_pose q2 ht2
  have hlen : (corrections P (trace P lib n1 (b ++ [e2]))).length = posesIn os2 + 1 := by
    rw [corrections_length, trace_outs hr2]
    simp [posesIn, List.countP_append, hp2]
  have e1' : corrections P (trace P lib n0 (h0 ++ a ++ [e1])) =
      corrections P (trace P lib n0 (h0 ++ a)) ++ corrections P [(n3, n1, o1)] := by
    rw [trace_snoc (n1 := n3) (outs := outs ++ _) (by rw [run_append, hr0, Outcome.bind_ok, g1]; rfl) g2, corrections_append]
  have e2' : corrections P (trace P lib n0 (h0 ++ (a ++ [e1]) ++ b ++ [e2])) =
      corrections P (trace P lib n0 (h0 ++ a ++ [e1])) ++ corrections P (trace P lib n1 (b ++ [e2])) := by
    rw [List.append_assoc _ b, ← List.append_assoc h0, trace_append hrun1, corrections_append]
  rw [trace_append hr1, corrections_append] at hcs
  have hv2 : ∀ c ∈ corrections P (trace P lib n1 (b ++ [e2])), c.2.1 = T := fun c hc => by
    rw [hcs c (List.mem_append_right _ hc)]
  have hv1 : ∀ c ∈ corrections P [(n3, n1, o1)], c.2.1 = T := fun c hc => by
    rw [hcs c (List.mem_append_left _ (by rw [trace_snoc g1 g2, corrections_append]; exact List.mem_append_right _ hc))]
  rw [e2'] at b1 b2 b3
  rw [e1'] at a1 a2 a3
  rw [e1'] at b1 b2 b3
  rw [corrections_one P hp1] at hv1 a1 a2 a3 b1 b2 b3
  have hT1 := hv1 _ List.mem_cons_self
  simp only at hT1
  rw [hT1] at a1 a2 a3 b1 b2 b3
  simp only [List.map_append, List.map_cons, List.map_nil] at a1 a2 a3 b1 b2 b3
  have key : ∀ {g : Vec3 ℝ → ℝ} {J : Prop} {cs : List (Prop × ℝ)} {s1 s2 : ℝ × ℝ},
      Smoothed P.lpfStep (0, 0) (cs ++ [(J, g T)]) s1 →
      Smoothed P.lpfStep (0, 0) (cs ++ [(J, g T)] ++ (corrections P (trace P lib n1 (b ++ [e2]))).map fun c =>
        (c.1, g c.2.1)) s2 → |s2.1 - g T| ≤ ρ * |s1.1 - g T| := by
    intro g J cs s1 s2 i1 i2
    obtain ⟨t, i3, i4⟩ := i2.cut
    have := i3.unique i1
    subst this
    have hprev := i1.prev
    have i5 : Smoothed P.lpfStep (t.1, g T) ((corrections P (trace P lib n1 (b ++ [e2]))).map fun c =>
        (c.1, g c.2.1)) s2 := by rw [← hprev]; exact i4
    have := i5.shrinks hT fun c hc => by
      obtain ⟨c', hc', rfl⟩ := List.mem_map.1 hc
      simp [hv2 c' hc']
    rwa [List.length_map, hlen] at this
  rw [k1, k2]
  exact ⟨key (g := Vec3.x) a1 b1, key (g := Vec3.y) a2 b2, key (g := Vec3.z) a3 b3⟩

end

end Node
end Mcl3dl
