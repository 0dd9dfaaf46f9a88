import Verif.Spec.BadOdom
import Verif.Props.Opposed
import Verif.Proofs.PFBasic

/-! # C174: one odometry message without a pose ruins the localization -/

set_option linter.unusedSectionVars false

namespace Mcl3dl
namespace BadOdom
open PF Opposed

/-! ## Products with NaN and with zero -/

theorem neg_nan : (-XR.nan : XR) = .nan := rfl

/-- Zero or not a number. -/
def Null (x : XR) : Prop := x = .fin 0 ∨ x = .nan

theorem null_mul {x : XR} (h : Null x) (a : XR) : Null (a * x) := by
  rcases h with rfl | rfl
  · cases a with
    | fin r => left; rw [XR.fin_mul, mul_zero]
    | pinf => right; exact XR.pinf_mul_zero
    | ninf => right; show XR.mul _ _ = _; simp [XR.mul, XR.signInf]
    | nan => right; exact XR.nan_mul _
  · right; exact XR.mul_nan _

theorem null_add {x y : XR} (h : Null x) (h' : Null y) : Null (x + y) := by
  rcases h with rfl | rfl
  · rcases h' with rfl | rfl
    · left; rw [XR.fin_add, add_zero]
    · right; exact XR.add_nan _
  · right; exact XR.nan_add _

theorem null_sub {x y : XR} (h : Null x) (h' : Null y) : Null (x - y) := by
  rcases h with rfl | rfl
  · rcases h' with rfl | rfl
    · left; rw [XR.fin_sub, sub_zero]
    · right; exact sub_nan _
  · right; exact nan_sub _

theorem null_div {x y : XR} (h : Null x) (h' : Null y) : x * ((1 : XR) / y) = .nan := by
  rcases h with rfl | rfl
  · rcases h' with rfl | rfl
    · rw [XR.one_def, XR.fin_div_zero_pos 1 one_pos, XR.zero_mul_pinf]
    · rw [XR.div_nan, XR.mul_nan]
  · exact XR.nan_mul _

theorem null_sqrt {x : XR} (h : Null x) : Null (XR.sqrt x) := by
  rcases h with rfl | rfl
  · left; rw [XR.sqrt_fin 0 le_rfl, Real.sqrt_zero]
  · right; rfl

/-- Every component zero or not a number. -/
def NullQ (q : Quat XR) : Prop := Null q.x ∧ Null q.y ∧ Null q.z ∧ Null q.w

theorem nullQ_mul (a : Quat XR) {q : Quat XR} (h : NullQ q) : NullQ (a * q) := by
  obtain ⟨h1, h2, h3, h4⟩ := h
  refine ⟨?_, ?_, ?_, ?_⟩
  · exact null_sub (null_add (null_add (null_mul h1 _) (null_mul h4 _)) (null_mul h3 _)) (null_mul h2 _)
  · exact null_sub (null_add (null_add (null_mul h2 _) (null_mul h4 _)) (null_mul h1 _)) (null_mul h3 _)
  · exact null_sub (null_add (null_add (null_mul h3 _) (null_mul h4 _)) (null_mul h2 _)) (null_mul h1 _)
  · exact null_sub (null_sub (null_sub (null_mul h4 _) (null_mul h1 _)) (null_mul h2 _)) (null_mul h3 _)

theorem null_dot {q : Quat XR} (h : NullQ q) : Null (q.dot q) := by
  obtain ⟨h1, h2, h3, h4⟩ := h
  exact null_add (null_add (null_add (null_mul h1 _) (null_mul h2 _)) (null_mul h3 _)) (null_mul h4 _)

theorem nullQ_normalized {q : Quat XR} (h : NullQ q) : q.normalized = Quat.nans := by
  have hn : Null q.norm := null_sqrt (null_dot h)
  obtain ⟨h1, h2, h3, h4⟩ := h
  exact Quat.ext (null_div h1 hn) (null_div h2 hn) (null_div h3 hn) (null_div h4 hn)

theorem nullQ_nans : NullQ Quat.nans := ⟨Or.inr rfl, Or.inr rfl, Or.inr rfl, Or.inr rfl⟩

theorem normalized_nans : Quat.nans.normalized = Quat.nans := nullQ_normalized nullQ_nans

theorem nullQ_zero : NullQ ⟨0, 0, 0, 0⟩ := ⟨Or.inl rfl, Or.inl rfl, Or.inl rfl, Or.inl rfl⟩

theorem null_neg {x : XR} (h : Null x) : Null (-x) := by
  rcases h with rfl | rfl
  · left; rw [XR.fin_neg, neg_zero]
  · right; rfl

theorem inv_null {q : Quat XR} (h : NullQ q) : q.inv = Quat.nans := by
  have hd := null_dot h
  obtain ⟨h1, h2, h3, h4⟩ := h
  exact Quat.ext (null_div (null_neg h1) hd) (null_div (null_neg h2) hd) (null_div (null_neg h3) hd) (null_div h4 hd)

theorem mul_hasNan (a : Quat XR) {q : Quat XR} (h : q.HasNan) : a * q = Quat.nans := by
  obtain ⟨x, y, z, w⟩ := q
  show Quat.mul a _ = _
  rcases h with h | h | h | h <;> simp only at h <;> subst h <;>
    simp only [Quat.mul, Quat.nans, XR.mul_nan, XR.add_nan, XR.nan_add, sub_nan, nan_sub]

theorem hasNan_mul {a : Quat XR} (h : a.HasNan) (q : Quat XR) : a * q = Quat.nans := by
  obtain ⟨x, y, z, w⟩ := a
  show Quat.mul _ q = _
  rcases h with h | h | h | h <;> simp only at h <;> subst h <;>
    simp only [Quat.mul, Quat.nans, XR.nan_mul, XR.add_nan, XR.nan_add, sub_nan, nan_sub]

theorem hasNan_nans : Quat.nans.HasNan := Or.inl rfl

theorem inv_hasNan {q : Quat XR} (h : q.HasNan) : q.inv = Quat.nans := by
  have hd : q.dot q = .nan := by
    obtain ⟨x, y, z, w⟩ := q
    rcases h with h | h | h | h <;> simp only at h <;> subst h <;>
      simp only [Quat.dot, XR.nan_mul, XR.add_nan, XR.nan_add]
  simp only [Quat.inv, hd, Quat.sdiv, Quat.smul, XR.div_nan, XR.mul_nan, Quat.nans]

theorem rotate_hasNan (a : Quat XR) {v : Vec3 XR} (h : v.HasNan) : a.rotate v = Vec3.nans := by
  have : (⟨v.x, v.y, v.z, 0⟩ : Quat XR).HasNan := by
    rcases h with h | h | h
    exacts [Or.inl h, Or.inr (Or.inl h), Or.inr (Or.inr (Or.inl h))]
  simp only [Quat.rotate, mul_hasNan a this, hasNan_mul hasNan_nans]
  rfl

theorem hasNan_rotate {a : Quat XR} (h : a.HasNan) (v : Vec3 XR) : a.rotate v = Vec3.nans := by
  simp only [Quat.rotate, hasNan_mul h, hasNan_mul hasNan_nans]
  rfl

theorem sub_hasNan {v w : Vec3 XR} (h : v.HasNan ∨ w.HasNan) : (v - w).HasNan := by
  rcases h with (h | h | h) | (h | h | h)
  · left; show v.x - w.x = _; rw [h, nan_sub]
  · right; left; show v.y - w.y = _; rw [h, nan_sub]
  · right; right; show v.z - w.z = _; rw [h, nan_sub]
  · left; show v.x - w.x = _; rw [h, sub_nan]
  · right; left; show v.y - w.y = _; rw [h, sub_nan]
  · right; right; show v.z - w.z = _; rw [h, sub_nan]

theorem norm_nans : Vec3.nans.norm = .nan := by
  simp only [Vec3.norm, Vec3.dot, Vec3.nans, XR.nan_mul, XR.nan_add, XR.transc_sqrt]
  rfl

theorem ofAxisAng_nan (v : Vec3 XR) : Quat.ofAxisAng v .nan = Quat.nans := by
  have hs : (Transc.sin (XR.nan / Quat.two) : XR) = .nan := by rw [XR.nan_div]; rfl
  have hc : (Transc.cos (XR.nan / Quat.two) : XR) = .nan := by rw [XR.nan_div]; rfl
  simp only [Quat.ofAxisAng, hs, hc, XR.mul_nan]
  exact normalized_nans

/-! ## One odometry step -/

/-- A step from or to a pose that is none, or of a particle without orientation, leaves the particle without
orientation. -/
theorem step_lost (m : Motion XR) (prev cur : State6 XR) (dt : XR) (s : State6 XR)
    (h : BadPose prev ∨ BadPose cur ∨ s.rot = Quat.nans) :
    ((m.setOdoms prev cur dt).predict s).rot = Quat.nans := by
  have key : (prev.rot.inv.rotate (cur.pos - prev.pos) = Vec3.nans) ∨ NullQ (prev.rot.inv * cur.rot) ∨ s.rot = Quat.nans := by
    rcases h with (h | h | h) | (h | h | h) | h
    · right; left; rw [h, inv_null nullQ_zero, hasNan_mul hasNan_nans]; exact nullQ_nans
    · right; left; rw [inv_hasNan h, hasNan_mul hasNan_nans]; exact nullQ_nans
    · left; exact rotate_hasNan _ (sub_hasNan (Or.inr h))
    · right; left; rw [h]; exact nullQ_mul _ nullQ_zero
    · right; left; rw [mul_hasNan _ h]; exact nullQ_nans
    · left; exact rotate_hasNan _ (sub_hasNan (Or.inl h))
    · exact Or.inr (Or.inr h)
  show (Quat.ofAxisAng ⟨0, 0, 1⟩ (s.noiseLA * (prev.rot.inv.rotate (cur.pos - prev.pos)).norm +
    s.noiseAA * ((prev.rot.inv * cur.rot).getAxisAng).2) * s.rot * (prev.rot.inv * cur.rot)).normalized = _
  rcases key with h | h | h
  · rw [h, norm_nans, XR.mul_nan, XR.nan_add, ofAxisAng_nan, hasNan_mul hasNan_nans, hasNan_mul hasNan_nans, normalized_nans]
  · exact nullQ_normalized (nullQ_mul _ h)
  · rw [h, mul_hasNan _ hasNan_nans, hasNan_mul hasNan_nans, normalized_nans]

theorem predict_lost (m : Motion XR) (s : State6 XR) (h : s.rot = Quat.nans) :
    (m.predict s).rot = Quat.nans ∧ (m.predict s).pos = Vec3.nans := by
  constructor
  · show (_ * s.rot * _ : Quat XR).normalized = _
    rw [h, mul_hasNan _ hasNan_nans, hasNan_mul hasNan_nans, normalized_nans]
  · show s.pos + s.rot.rotate _ = _
    rw [h, hasNan_rotate hasNan_nans]
    apply Vec3.ext
    · exact XR.add_nan _
    · exact XR.add_nan _
    · exact XR.add_nan _

/-- **C174**: however the motion model was called before, one odometry message whose orientation is the zero quaternion,
or of which some number is NaN, leaves every particle without orientation, and so do all messages after it. -/
theorem C174_message (m : Motion XR) (prev s : State6 XR) (msgs rest : List (State6 XR × XR)) (bad : State6 XR) (dt : XR)
    (hb : BadPose bad) :
    (m.run prev s (msgs ++ (bad, dt) :: rest)).rot = Quat.nans ∧
    (rest ≠ [] → (m.run prev s (msgs ++ (bad, dt) :: rest)).pos = Vec3.nans) := by
  have after : ∀ (rest : List (State6 XR × XR)) (m : Motion XR) (prev s : State6 XR), s.rot = Quat.nans →
      (m.run prev s rest).rot = Quat.nans ∧ (rest ≠ [] → (m.run prev s rest).pos = Vec3.nans) := by
    intro rest
    induction rest with
    | nil => intro m prev s h; exact ⟨h, fun hne => absurd rfl hne⟩
    | cons e rest ih =>
      intro m prev s h
      obtain ⟨cur, dt⟩ := e
      have h1 := predict_lost (m.setOdoms prev cur dt) s h
      have h2 := ih (m.setOdoms prev cur dt) cur _ h1.1
      refine ⟨h2.1, fun _ => ?_⟩
      by_cases hr : rest = []
      · subst hr; exact h1.2
      · exact h2.2 hr
  induction msgs generalizing m prev s with
  | nil => exact after rest _ _ _ (step_lost m prev bad dt s (Or.inr (Or.inl hb)))
  | cons e msgs ih => exact ih _ _ _

/-- **C174**: the same if the message is the first one: the next one is taken relative to it. -/
theorem C174_first (m : Motion XR) (bad s : State6 XR) (hb : BadPose bad) (msgs : List (State6 XR × XR)) (hne : msgs ≠ []) :
    (m.run bad s msgs).rot = Quat.nans := by
  obtain _ | ⟨⟨cur, dt⟩, rest⟩ := msgs
  · exact absurd rfl hne
  · have after : ∀ (rest : List (State6 XR × XR)) (m : Motion XR) (prev s : State6 XR), s.rot = Quat.nans →
        (m.run prev s rest).rot = Quat.nans := by
      intro rest
      induction rest with
      | nil => intro m prev s h; exact h
      | cons e rest ih => intro m prev s h; exact ih _ _ _ (predict_lost _ s h).1
    exact after rest _ _ _ (step_lost m bad cur dt s (Or.inl hb))

/-! ## A proper message does no harm -/

/-- Finite members. -/
def motionFin (m : Motion ℝ) : Motion XR :=
  ⟨.fin m.linTc, .fin m.angTc, m.relTrans.fin, m.relQuat.fin, .fin m.relNorm, .fin m.relAngle, .fin m.timeDiff⟩

theorem ofAxisAng_z (a : ℝ) : Quat.ofAxisAng (⟨0, 0, 1⟩ : Vec3 XR) (.fin a) = (Quat.ofAxisAng (⟨0, 0, 1⟩ : Vec3 ℝ) a).fin := by
  have hv : (⟨0, 0, 1⟩ : Vec3 XR) = (⟨0, 0, 1⟩ : Vec3 ℝ).fin := rfl
  have hn : (⟨0, 0, 1⟩ : Vec3 ℝ).norm = 1 := by simp [Vec3.norm, Vec3.dot]
  have hs : (Transc.sin (XR.fin a / Quat.two) : XR) = .fin (Transc.sin (a / Quat.two)) := by
    rw [two_fin, XR.fin_div _ _ two_ne_zero, Quat.two_real]; rfl
  have hc : (Transc.cos (XR.fin a / Quat.two) : XR) = .fin (Transc.cos (a / Quat.two)) := by
    rw [two_fin, XR.fin_div _ _ two_ne_zero, Quat.two_real]; rfl
  unfold Quat.ofAxisAng
  simp only [hs, hc]
  rw [hv, norm_fin, hn, sdiv_fin _ one_ne_zero]
  set v := (⟨0, 0, 1⟩ : Vec3 ℝ).sdiv 1 with hvd
  show (Quat.fin ⟨v.x * Transc.sin (a / Quat.two), v.y * Transc.sin (a / Quat.two), v.z * Transc.sin (a / Quat.two),
    Transc.cos (a / Quat.two)⟩).normalized = _
  refine qnormalized_fin ?_
  have h1 : v.x = 0 := by simp [hvd, Vec3.sdiv]
  have h2 : v.y = 0 := by simp [hvd, Vec3.sdiv]
  have h3 : v.z = 1 := by simp [hvd, Vec3.sdiv]
  have := Real.sin_sq_add_cos_sq (a / Quat.two)
  simp only [Quat.dot, h1, h2, h3, Transc.sin_real, Transc.cos_real]
  nlinarith

/-- **C174**: a step between finite odometry poses with non-zero orientations keeps a finite particle with non-zero
orientation finite (as exact arithmetic has it). -/
theorem C174_proper (m : Motion ℝ) (hl : m.linTc ≠ 0) (ha : m.angTc ≠ 0) (prev cur s : State6 ℝ) (dt : ℝ)
    (hp : prev.rot.dot prev.rot ≠ 0) (hc : cur.rot.dot cur.rot ≠ 0) (hs : s.rot.dot s.rot ≠ 0) :
    ((motionFin m).setOdoms prev.fin cur.fin (.fin dt)).predict s.fin = ((m.setOdoms prev cur dt).predict s).fin := by
  have hi : prev.rot.inv.dot prev.rot.inv ≠ 0 := by
    intro h0
    have h1 := Quat.C29_dot_mul prev.rot.inv prev.rot
    rw [(Quat.C30_inv_mul _ hp).1, h0, zero_mul] at h1
    simp [Quat.dot] at h1
  have eT : (prev.fin).rot.inv.rotate ((cur.fin).pos - (prev.fin).pos) = (prev.rot.inv.rotate (cur.pos - prev.pos)).fin := by
    show prev.rot.fin.inv.rotate (cur.pos.fin - prev.pos.fin) = _
    rw [inv_fin hp, sub_fin, rotate_fin]
  have eQ : (prev.fin).rot.inv * (cur.fin).rot = (prev.rot.inv * cur.rot).fin := by
    show prev.rot.fin.inv * cur.rot.fin = _
    rw [inv_fin hp, qmul_fin]
  have em : (motionFin m).setOdoms prev.fin cur.fin (.fin dt) = motionFin (m.setOdoms prev cur dt) := by
    unfold Motion.setOdoms motionFin
    simp only [eT, eQ, norm_fin, getAxisAng_fin]
  rw [em]
  set M := m.setOdoms prev cur dt with hM
  have hl' : M.linTc ≠ 0 := hl
  have ha' : M.angTc ≠ 0 := ha
  have hQ : M.relQuat.dot M.relQuat ≠ 0 := by
    show (prev.rot.inv * cur.rot).dot (prev.rot.inv * cur.rot) ≠ 0
    rw [Quat.C29_dot_mul]; exact mul_ne_zero hi hc
  have ediff : (motionFin M).relTrans.smul (1 + s.fin.noiseLL) +
      (⟨s.fin.noiseAL * (motionFin M).relAngle, 0, 0⟩ : Vec3 XR) =
      (M.relTrans.smul (1 + s.noiseLL) + (⟨s.noiseAL * M.relAngle, 0, 0⟩ : Vec3 ℝ)).fin := rfl
  have eyaw : s.fin.noiseLA * (motionFin M).relNorm + s.fin.noiseAA * (motionFin M).relAngle =
      .fin (s.noiseLA * M.relNorm + s.noiseAA * M.relAngle) := rfl
  have hne : (Quat.ofAxisAng ⟨0, 0, 1⟩ (s.noiseLA * M.relNorm + s.noiseAA * M.relAngle) * s.rot * M.relQuat).dot
      (Quat.ofAxisAng ⟨0, 0, 1⟩ (s.noiseLA * M.relNorm + s.noiseAA * M.relAngle) * s.rot * M.relQuat) ≠ 0 := by
    rw [Quat.C29_dot_mul, Quat.C29_dot_mul, Quat.C35_unit _ (by simp)]
    exact mul_ne_zero (mul_ne_zero one_ne_zero hs) hQ
  have e1 : (1 : XR) - (motionFin M).timeDiff / (motionFin M).linTc = .fin (1 - M.timeDiff / M.linTc) := by
    show XR.fin 1 - XR.fin M.timeDiff / XR.fin M.linTc = _
    rw [XR.fin_div _ _ hl', XR.fin_sub]
  have e2 : (1 : XR) - (motionFin M).timeDiff / (motionFin M).angTc = .fin (1 - M.timeDiff / M.angTc) := by
    show XR.fin 1 - XR.fin M.timeDiff / XR.fin M.angTc = _
    rw [XR.fin_div _ _ ha', XR.fin_sub]
  unfold Motion.predict
  simp only [ediff, eyaw, e1, e2, ofAxisAng_z]
  have eP : s.fin.pos + s.fin.rot.rotate
      (M.relTrans.smul (1 + s.noiseLL) + (⟨s.noiseAL * M.relAngle, 0, 0⟩ : Vec3 ℝ)).fin =
      (s.pos + s.rot.rotate (M.relTrans.smul (1 + s.noiseLL) + (⟨s.noiseAL * M.relAngle, 0, 0⟩ : Vec3 ℝ))).fin := by
    show s.pos.fin + s.rot.fin.rotate _ = _
    rw [rotate_fin, add_fin]
  have eR : (Quat.fin (Quat.ofAxisAng ⟨0, 0, 1⟩ (s.noiseLA * M.relNorm + s.noiseAA * M.relAngle)) * s.fin.rot *
      (motionFin M).relQuat).normalized =
      (Quat.ofAxisAng ⟨0, 0, 1⟩ (s.noiseLA * M.relNorm + s.noiseAA * M.relAngle) * s.rot * M.relQuat).normalized.fin := by
    show (Quat.fin (Quat.ofAxisAng ⟨0, 0, 1⟩ _) * s.rot.fin * M.relQuat.fin).normalized = _
    rw [qmul_fin, qmul_fin, qnormalized_fin hne]
  rw [eP, eR]
  have eL : s.fin.integLin + ((M.relTrans.smul (1 + s.noiseLL) + (⟨s.noiseAL * M.relAngle, 0, 0⟩ : Vec3 ℝ)).fin -
      (motionFin M).relTrans) = (s.integLin + (M.relTrans.smul (1 + s.noiseLL) +
        (⟨s.noiseAL * M.relAngle, 0, 0⟩ : Vec3 ℝ) - M.relTrans)).fin := by
    show s.integLin.fin + (_ - M.relTrans.fin) = _
    rw [sub_fin, add_fin]
  rw [eL]
  rfl

/-! ## Whatever follows -/

theorem goes_lost {log : XR → XR} {f g : Filter (State6 XR) XR} (h : Goes log f g) (hf : Lost f) : Lost g := by
  have add : ∀ s n : State6 XR, s.rot = Quat.nans → (StateOps.add s n : State6 XR).rot = Quat.nans := by
    intro s n hs
    show n.rot * s.rot = _
    rw [hs]; exact mul_hasNan _ hasNan_nans
  cases h with
  | odometry m =>
    intro p hp
    obtain ⟨q, hq, rfl⟩ := List.mem_map.1 hp
    exact (predict_lost m q.state (hf q hq)).1
  | reset =>
    intro p hp
    obtain ⟨q, hq, rfl⟩ := List.mem_map.1 hp
    exact hf q hq
  | measure lik =>
    intro p hp
    unfold Filter.measure at hp
    simp only at hp
    split_ifs at hp with hs
    · obtain ⟨q, hq, rfl⟩ := List.mem_map.1 hp
      obtain ⟨r, hr, rfl⟩ := List.mem_map.1 hq
      exact hf r hr
    · exact hf p hp
  | bias b =>
    intro p hp
    obtain ⟨q, hq, rfl⟩ := List.mem_map.1 hp
    exact hf q hq
  | noise n =>
    intro p hp
    obtain ⟨i, hi, rfl⟩ := List.mem_mapIdx.1 hp
    exact add _ _ (hf _ (List.getElem_mem hi))
  | resample u n hs hok =>
    obtain ⟨f', e, -, -, -, h⟩ := resample_spec f _ u n hs
    rw [hok] at e
    cases e
    intro p hp
    obtain ⟨-, q, hq, h1 | ⟨k, h1⟩⟩ := h p hp
    · rw [h1]; exact hf q hq
    · rw [h1]
      show (StateOps.add q.state (n k) : State6 XR).rot.normalized = _
      rw [add _ _ (hf q hq)]; exact normalized_nans
  | resize s0 junk k hs hok =>
    rename_i dup
    by_cases hne : f.particles ≠ [] ∨ k = 0
    · obtain ⟨f', e, -, -, h⟩ := resize_spec s0 junk f k dup hs hne
      rw [hok] at e
      cases e
      intro p hp
      obtain ⟨-, q, hq, h1⟩ := h p hp
      rw [h1]; exact hf q hq
    · push Not at hne
      obtain ⟨h1, h2⟩ := hne
      have hd : dup = [] := by
        have := hs.1.length_eq
        rw [h1] at this
        exact List.length_eq_zero_iff.1 this
      have hub := resize_empty_ub s0 junk f k h1 (by omega)
      rw [hd] at hok
      rw [hok] at hub
      cases hub

/-- **C174**: no motion, measurement, noise, resampling or change of the number of particles gives a particle an
orientation again. -/
theorem C174_lost {log : XR → XR} {f g : Filter (State6 XR) XR} (h : GoesOn log f g) (hf : Lost f) : Lost g := by
  induction h with
  | refl => exact hf
  | tail _ h ih => exact goes_lost h ih

theorem fold_front (ps : List (Particle (State6 XR) XR)) (m : State6.MeanAcc XR)
    (h : ps ≠ [] ∨ m.front = Vec3.nans) (hb : ∀ p ∈ ps, p.state.rot = Quat.nans) :
    (ps.foldl (fun m p => State6.meanQuat.add m p.state (p.prob * p.bias)) m).front = Vec3.nans := by
  induction ps generalizing m with
  | nil => rcases h with h | h; exact absurd rfl h; exact h
  | cons p ps ih =>
    refine ih _ (Or.inr ?_) fun q hq => hb q (List.mem_cons_of_mem _ hq)
    show m.front + (p.state.rot.rotate ⟨1, 0, 0⟩).smul (p.prob * p.bias) = _
    rw [hb p List.mem_cons_self, hasNan_rotate hasNan_nans]
    apply Vec3.ext
    · show m.front.x + XR.nan * _ = _; rw [XR.nan_mul, XR.add_nan]; rfl
    · show m.front.y + XR.nan * _ = _; rw [XR.nan_mul, XR.add_nan]; rfl
    · show m.front.z + XR.nan * _ = _; rw [XR.nan_mul, XR.add_nan]; rfl

/-- **C174**: every estimate from such particles has no orientation, and if it uses the bias around the previous
estimate, no position either. -/
theorem C174_estimate (f : Filter (State6 XR) XR) (hne : f.particles ≠ []) (hf : Lost f) :
    (estimateOf f).rot = Quat.nans ∧
    ∀ (vl va eps : XR) (prev : State6 XR), (estimateOf (biasAround vl va eps prev f)).pos = Vec3.nans ∧
      (estimateOf (biasAround vl va eps prev f)).rot = Quat.nans := by
  have rot : ∀ f : Filter (State6 XR) XR, f.particles ≠ [] → Lost f → (estimateOf f).rot = Quat.nans := by
    intro f hne hf
    show (Quat.lookAt _ _).normalized = _
    rw [fold_front f.particles _ (Or.inl hne) hf, lookAt_of_nans, qnormalized_zero]
    rw [nans_normalized, nans_cross, nans_normalized]
  refine ⟨rot f hne hf, fun vl va eps prev => ⟨?_, ?_⟩⟩
  · obtain ⟨h1, -⟩ := fold_nans (biasAround vl va eps prev f).particles State6.meanQuat.empty
      (Or.inl (by simpa [biasAround, Filter.bias] using hne)) (by
        intro p hp
        obtain ⟨q, hq, rfl⟩ := List.mem_map.1 hp
        have hw : (q.state.rot * prev.rot.inv).w = .nan := by rw [hf q hq, hasNan_mul hasNan_nans]; rfl
        simp only [getAxisAng_nan _ hw, eval_nan, XR.mul_nan, XR.nan_add])
    show Vec3.sdiv _ _ = _
    rw [h1]
    apply Vec3.ext <;> exact XR.nan_div _
  · refine rot _ (by simpa [biasAround, Filter.bias] using hne) ?_
    intro p hp
    obtain ⟨q, hq, rfl⟩ := List.mem_map.1 hp
    exact hf q hq

/-- **C174**: once such particles were used for an estimate, all later estimates with a bias are no poses, also if the
particles have been placed anew, at known poses, in between. -/
theorem C174_forever (vl va eps : XR) (prev : State6 XR) (f : Filter (State6 XR) XR) (hne : f.particles ≠ []) (hf : Lost f)
    (fs : List (Filter (State6 XR) XR)) (hfs : ∀ g ∈ fs, g.particles ≠ []) :
    ∀ e ∈ estimatesFrom vl va eps prev (f :: fs), e.pos = Vec3.nans ∧ e.rot = Quat.nans := by
  have h := (C174_estimate f hne hf).2 vl va eps prev
  intro e he
  rcases List.mem_cons.1 he with rfl | he
  · exact h
  · exact (C156_forever vl va eps _ h.2 fs hfs).2 e he

/-- **C174**: a smoothing filter that was once given NaN answers NaN, whatever it is given, until it is set. -/
theorem C174_smoothing (f : Filt XR) (vs : List XR) :
    ((f.input .nan).useAll (vs.map .input)).out = .nan := by
  have key : ∀ (vs : List XR) (f : Filt XR), f.x = .nan → f.out = .nan →
      (f.useAll (vs.map .input)).out = .nan := by
    intro vs
    induction vs with
    | nil => intro f _ h; exact h
    | cons v vs ih =>
      intro f hx ho
      have h1 : (f.input v).x = .nan := by
        show f.k0 * _ + f.k1 * f.x = _
        rw [hx, XR.mul_nan, XR.add_nan]
      refine ih (f.input v) h1 ?_
      show f.k2 * _ + f.k3 * (f.input v).x = _
      rw [h1, XR.mul_nan, XR.add_nan]
  have he : f.effective .nan = .nan := by
    unfold Filt.effective
    split_ifs
    · rw [nan_sub]; exact XR.add_nan _
    · rfl
  have h1 : (f.input .nan).x = .nan := by
    show f.k0 * f.effective .nan + _ = _
    rw [he, XR.mul_nan, XR.nan_add]
  refine key vs _ h1 ?_
  show f.k2 * f.effective .nan + _ = _
  rw [he, XR.mul_nan, XR.nan_add]

/-! ## A message nobody filled in -/

/-- The pose of a default-constructed `nav_msgs::Odometry`. -/
noncomputable def unfilled : State6 XR := State6.ofQuat ⟨0, 0, 0⟩ ⟨0, 0, 0, 0⟩

theorem unfilled_bad : BadPose unfilled := Or.inl rfl

/-- A robot standing at the origin gets a proper message, an unfilled one and a proper one: its particle is gone. -/
example (m : Motion XR) (dt : XR) (s : State6 XR) :
    (m.run (State6.ofQuat ⟨0, 0, 0⟩ 1) s
      [(State6.ofQuat ⟨0, 0, 0⟩ 1, dt), (unfilled, dt), (State6.ofQuat ⟨0, 0, 0⟩ 1, dt)]).pos = Vec3.nans :=
  (C174_message m _ s [(State6.ofQuat ⟨0, 0, 0⟩ 1, dt)] [(State6.ofQuat ⟨0, 0, 0⟩ 1, dt)] unfilled dt unfilled_bad).2
    (by simp)

/-- With proper messages only it is not: hypotheses and conclusion are about the odd message. -/
example : ¬ BadPose (State6.ofQuat ⟨0, 0, 0⟩ 1) := by
  rintro (h | h | h)
  · have h1 : (XR.fin 1) = XR.fin 0 := congrArg Quat.w h
    simp at h1
  · rcases h with h | h | h | h
    · exact XR.noConfusion (show XR.fin 0 = XR.nan from h)
    · exact XR.noConfusion (show XR.fin 0 = XR.nan from h)
    · exact XR.noConfusion (show XR.fin 0 = XR.nan from h)
    · exact XR.noConfusion (show XR.fin 1 = XR.nan from h)
  · rcases h with h | h | h <;> simp [State6.ofQuat] at h

example (s : State6 XR) (hs : s.rot = Quat.nans) : ∃ f : Filter (State6 XR) XR, f.particles ≠ [] ∧ Lost f :=
  ⟨⟨[⟨s, .fin 1, .fin 0, .fin 1⟩], none⟩, by simp, by
    intro p hp
    rw [List.mem_singleton] at hp
    rw [hp]; exact hs⟩

end BadOdom
end Mcl3dl
