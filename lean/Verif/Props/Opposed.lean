import Verif.Model.Estimate
import Verif.Spec.Finite
import Verif.Props.Estimate
import Verif.Props.QuatLookAt
import Verif.Props.NonFinite

/-!
# C156: opposed headings leave no orientation

The look-at constructor and the estimate over the extended reals with NaN.
-/

set_option linter.unusedSectionVars false

namespace Mcl3dl
namespace Opposed

open PF

/-! ## Finite arithmetic -/

theorem add_fin (a b : Vec3 ℝ) : a.fin + b.fin = (a + b).fin := rfl

theorem sub_fin (a b : Vec3 ℝ) : a.fin - b.fin = (a - b).fin := by
  show Vec3.sub a.fin b.fin = (Vec3.sub a b).fin
  simp only [Vec3.sub, Vec3.fin, XR.fin_sub]

theorem smul_fin (a : Vec3 ℝ) (r : ℝ) : a.fin.smul (.fin r) = (a.smul r).fin := rfl

theorem cross_fin (a b : Vec3 ℝ) : a.fin.cross b.fin = (a.cross b).fin := by
  simp only [Vec3.cross, Vec3.fin, XR.fin_mul, XR.fin_sub]

theorem dot_fin (a b : Vec3 ℝ) : a.fin.dot b.fin = .fin (a.dot b) := rfl

theorem dot_self_nonneg (v : Vec3 ℝ) : 0 ≤ v.dot v := by
  simp only [Vec3.dot]; nlinarith [mul_self_nonneg v.x, mul_self_nonneg v.y, mul_self_nonneg v.z]

theorem norm_fin (a : Vec3 ℝ) : a.fin.norm = .fin a.norm := by
  simp only [Vec3.norm, dot_fin, XR.transc_sqrt, XR.sqrt_fin _ (dot_self_nonneg a), Transc.sqrt_real]

theorem sdiv_fin (a : Vec3 ℝ) {r : ℝ} (hr : r ≠ 0) : a.fin.sdiv (.fin r) = (a.sdiv r).fin := by
  simp only [Vec3.sdiv, Vec3.fin, XR.fin_div _ _ hr]

theorem norm_eq_zero {a : Vec3 ℝ} : a.norm = 0 ↔ a = ⟨0, 0, 0⟩ := by
  constructor
  · intro h
    have h1 := (Real.sqrt_eq_zero (dot_self_nonneg a)).1 h
    simp only [Vec3.dot] at h1
    ext <;> simp only <;> nlinarith [mul_self_nonneg a.x, mul_self_nonneg a.y, mul_self_nonneg a.z]
  · rintro rfl; simp [Vec3.norm, Vec3.dot]

theorem normalized_fin {a : Vec3 ℝ} (h : a ≠ ⟨0, 0, 0⟩) : a.fin.normalized = a.normalized.fin := by
  simp only [Vec3.normalized, norm_fin]
  exact sdiv_fin a fun h0 => h (norm_eq_zero.1 h0)

theorem normalized_zero : (⟨0, 0, 0⟩ : Vec3 ℝ).fin.normalized = Vec3.nans := by
  simp only [Vec3.normalized, norm_fin, norm_eq_zero.2 rfl]
  simp only [Vec3.sdiv, Vec3.fin, XR.zero_div_zero, Vec3.nans]

theorem qmul_fin (a b : Quat ℝ) : a.fin * b.fin = (a * b).fin := by
  show Quat.mul a.fin b.fin = (Quat.mul a b).fin
  simp only [Quat.mul, Quat.fin, XR.fin_mul, XR.fin_add, XR.fin_sub]

theorem conj_fin (a : Quat ℝ) : a.fin.conj = a.conj.fin := rfl

theorem qdot_fin (a b : Quat ℝ) : a.fin.dot b.fin = .fin (a.dot b) := rfl

theorem rotate_fin (q : Quat ℝ) (v : Vec3 ℝ) : q.fin.rotate v.fin = (q.rotate v).fin := by
  have h : (⟨v.fin.x, v.fin.y, v.fin.z, 0⟩ : Quat XR) = (⟨v.x, v.y, v.z, 0⟩ : Quat ℝ).fin := rfl
  simp only [Quat.rotate, h, conj_fin, qmul_fin]
  rfl

theorem qdot_self_nonneg (q : Quat ℝ) : 0 ≤ q.dot q := by
  simp only [Quat.dot]
  nlinarith [mul_self_nonneg q.x, mul_self_nonneg q.y, mul_self_nonneg q.z, mul_self_nonneg q.w]

theorem qsdiv_fin (q : Quat ℝ) {r : ℝ} (hr : r ≠ 0) : q.fin.sdiv (.fin r) = (q.sdiv r).fin := by
  simp only [Quat.sdiv, Quat.smul, Quat.fin, XR.one_def, XR.fin_div _ _ hr, XR.fin_mul]

theorem qnormalized_fin {q : Quat ℝ} (h : q.dot q ≠ 0) : q.fin.normalized = q.normalized.fin := by
  simp only [Quat.normalized, Quat.norm, qdot_fin, XR.transc_sqrt, XR.sqrt_fin _ (qdot_self_nonneg q), Transc.sqrt_real]
  exact qsdiv_fin q ((Real.sqrt_ne_zero (qdot_self_nonneg q)).2 h)

theorem inv_fin {q : Quat ℝ} (h : q.dot q ≠ 0) : q.fin.inv = q.inv.fin := by
  simp only [Quat.inv, qdot_fin, conj_fin]
  exact qsdiv_fin _ h

theorem qnormalized_zero : (⟨0, 0, 0, 0⟩ : Quat ℝ).fin.normalized = Quat.nans := by
  have h1 : XR.fin 1 / XR.fin 0 = XR.pinf := XR.fin_div_zero_pos 1 one_pos
  simp only [Quat.normalized, Quat.norm, qdot_fin, XR.transc_sqrt]
  have h0 : (⟨0, 0, 0, 0⟩ : Quat ℝ).dot ⟨0, 0, 0, 0⟩ = 0 := by simp [Quat.dot]
  rw [h0, XR.sqrt_fin 0 le_rfl, Real.sqrt_zero]
  simp only [Quat.sdiv, Quat.smul, Quat.fin, XR.one_def, h1, XR.zero_mul_pinf, Quat.nans]

/-! ## The look-at constructor -/

theorem cmax_fin (a b : ℝ) : cmax (XR.fin a) (.fin b) = .fin (cmax a b) := by
  unfold cmax; simp only [XR.fin_lt]; split_ifs <;> rfl

theorem cmax_nan (a : XR) : cmax a .nan = a := by
  unfold cmax; rw [if_neg (XR.not_lt_nan a)]

theorem two_fin : (Quat.two : XR) = .fin 2 := by
  simp only [Quat.two, XR.natCast_def]; norm_num

theorem halfRoot_fin (t : ℝ) : Transc.sqrt (cmax (0 : XR) (.fin t)) / Quat.two =
    .fin (Transc.sqrt (cmax 0 t) / Quat.two) := by
  rw [two_fin, XR.zero_def, cmax_fin, XR.transc_sqrt, XR.sqrt_fin _ (by rw [cmax_eq]; exact le_max_left _ _),
    XR.fin_div _ _ two_ne_zero, Quat.two_real, Transc.sqrt_real]

theorem ite_fin (a b x : ℝ) : (if (0 : XR) < .fin a - .fin b then -XR.fin x else .fin x) =
    .fin (if 0 < a - b then -x else x) := by
  rw [XR.zero_def, XR.fin_sub]
  simp only [XR.fin_lt]
  split_ifs <;> rfl

theorem cross_normalized_ne {f u : Vec3 ℝ} (h : f.cross u ≠ ⟨0, 0, 0⟩) : u.cross f.normalized ≠ ⟨0, 0, 0⟩ := by
  have hf : f.norm ≠ 0 := by
    intro h0
    apply h
    rw [norm_eq_zero.1 h0]
    ext <;> simp [Vec3.cross]
  intro h0
  apply h
  have hx := congrArg Vec3.x h0
  have hy := congrArg Vec3.y h0
  have hz := congrArg Vec3.z h0
  simp only [Vec3.cross, Vec3.normalized, Vec3.sdiv] at hx hy hz
  field_simp at hx hy hz
  ext <;> simp only [Vec3.cross] <;> linarith

theorem cross_ne_left {a b : Vec3 ℝ} (h : a.cross b ≠ ⟨0, 0, 0⟩) : a ≠ ⟨0, 0, 0⟩ := by
  rintro rfl; apply h; ext <;> simp [Vec3.cross]

/-- `x × normalized(u × x)` is not zero if `u × x` is not. -/
theorem third_ne {x u : Vec3 ℝ} (h : u.cross x ≠ ⟨0, 0, 0⟩) : x.cross (u.cross x).normalized ≠ ⟨0, 0, 0⟩ := by
  set y := (u.cross x).normalized with hy
  have hn : (u.cross x).norm ≠ 0 := fun h0 => h (norm_eq_zero.1 h0)
  have hperp : x.dot y = 0 := by
    simp only [hy, Vec3.dot, Vec3.normalized, Vec3.sdiv, Vec3.cross]; field_simp; ring
  have hyne : y ≠ ⟨0, 0, 0⟩ := by
    intro h0
    apply h
    have hx' := congrArg Vec3.x h0
    have hy' := congrArg Vec3.y h0
    have hz' := congrArg Vec3.z h0
    simp only [hy, Vec3.normalized, Vec3.sdiv, div_eq_zero_iff, hn, or_false] at hx' hy' hz'
    ext
    · exact hx'
    · exact hy'
    · exact hz'
  have hxne : x ≠ ⟨0, 0, 0⟩ := by
    rintro rfl; apply h; ext <;> simp [Vec3.cross]
  have lag : (x.cross y).dot (x.cross y) = x.dot x * y.dot y - x.dot y * x.dot y := by
    simp only [Vec3.dot, Vec3.cross]; ring
  have pos : ∀ v : Vec3 ℝ, v ≠ ⟨0, 0, 0⟩ → 0 < v.dot v := by
    intro v hv
    refine lt_of_le_of_ne (dot_self_nonneg v) fun h0 => hv (norm_eq_zero.1 ?_)
    simp only [Vec3.norm, ← h0, Transc.sqrt_real, Real.sqrt_zero]
  intro h0
  rw [h0, hperp] at lag
  have : (⟨0, 0, 0⟩ : Vec3 ℝ).dot ⟨0, 0, 0⟩ = 0 := by simp [Vec3.dot]
  rw [this] at lag
  have := mul_pos (pos x hxne) (pos y hyne)
  linarith

theorem lookAt_fin {f u : Vec3 ℝ} (h : f.cross u ≠ ⟨0, 0, 0⟩) : Quat.lookAt f.fin u.fin = (Quat.lookAt f u).fin := by
  have h1 : f ≠ ⟨0, 0, 0⟩ := cross_ne_left h
  have h2 := cross_normalized_ne h
  have h3 := third_ne h2
  simp only [Quat.lookAt, normalized_fin h1, cross_fin, normalized_fin h2, normalized_fin h3]
  simp only [Vec3.fin, Quat.fin, XR.one_def, XR.fin_add, XR.fin_sub, halfRoot_fin]
  simp only [← XR.fin_sub, ite_fin]

theorem cross_zero_x {f u : Vec3 ℝ} (h : f.cross u = ⟨0, 0, 0⟩) : u.cross f.normalized = ⟨0, 0, 0⟩ := by
  have hx := congrArg Vec3.x h
  have hy := congrArg Vec3.y h
  have hz := congrArg Vec3.z h
  simp only [Vec3.cross] at hx hy hz
  ext <;> simp only [Vec3.cross, Vec3.normalized, Vec3.sdiv] <;> simp only [div_eq_mul_inv]
  · linear_combination -f.norm⁻¹ * hx
  · linear_combination -f.norm⁻¹ * hy
  · linear_combination -f.norm⁻¹ * hz

theorem nans_cross (v : Vec3 XR) : v.cross Vec3.nans = Vec3.nans := by
  simp only [Vec3.cross, Vec3.nans, XR.mul_nan]
  show (⟨XR.add .nan _, XR.add .nan _, XR.add .nan _⟩ : Vec3 XR) = _
  rfl

theorem nans_normalized : Vec3.nans.normalized = Vec3.nans := by
  simp only [Vec3.normalized, Vec3.sdiv, Vec3.nans, XR.nan_div]

theorem sub_nan (a : XR) : a - XR.nan = .nan := XR.add_nan a
theorem nan_sub (a : XR) : XR.nan - a = .nan := XR.nan_add _

theorem lookAt_of_nans (f u : Vec3 XR) (hy : (u.cross f.normalized).normalized = Vec3.nans) :
    Quat.lookAt f u = (⟨0, 0, 0, 0⟩ : Quat ℝ).fin := by
  have hz : XR.sqrt (0 : XR) / (Quat.two : XR) = .fin 0 := by
    rw [two_fin, XR.zero_def, XR.sqrt_fin 0 le_rfl, Real.sqrt_zero, XR.fin_div _ _ two_ne_zero, zero_div]
  simp only [Quat.lookAt, hy, nans_cross, nans_normalized]
  simp only [Vec3.nans, XR.add_nan, sub_nan, nan_sub, cmax_nan, XR.transc_sqrt, hz, XR.not_lt_nan, if_false,
    Quat.fin]

/-- **C156**: for parallel vectors (one of which may be zero) the look-at constructor returns the zero quaternion - NaN
is absorbed by `std::max` - and normalizing it gives NaN in every component. -/
theorem C156_lookAt_parallel (f u : Vec3 ℝ) (h : f.cross u = ⟨0, 0, 0⟩) :
    Quat.lookAt f.fin u.fin = ⟨0, 0, 0, 0⟩ ∧ (Quat.lookAt f.fin u.fin).normalized = Quat.nans := by
  have hy : (u.fin.cross f.fin.normalized).normalized = Vec3.nans := by
    by_cases hf : f = ⟨0, 0, 0⟩
    · rw [hf, normalized_zero, nans_cross, nans_normalized]
    · rw [normalized_fin hf, cross_fin, cross_zero_x h, normalized_zero]
  have h0 := lookAt_of_nans f.fin u.fin hy
  exact ⟨h0, by rw [h0, qnormalized_zero]⟩

/-- **C156**: for vectors that are not parallel its result is that of exact real arithmetic, a unit quaternion. -/
theorem C156_lookAt (f u : Vec3 ℝ) (h : f.cross u ≠ ⟨0, 0, 0⟩) :
    Quat.lookAt f.fin u.fin = (Quat.lookAt f u).fin ∧ (Quat.lookAt f u).dot (Quat.lookAt f u) = 1 :=
  ⟨lookAt_fin h, Quat.C38_unit f u h⟩

/-! ## The estimate -/

theorem fold_fin (ps : List (Particle (State6 ℝ) ℝ)) (m : State6.MeanAcc ℝ) (m' : State6.MeanAcc XR)
    (h1 : m'.pSum = .fin m.pSum) (h2 : m'.pos = m.pos.fin) (h3 : m'.front = m.front.fin) (h4 : m'.up = m.up.fin) :
    let r := ps.foldl (fun m p => State6.meanQuat.add m p.state (p.prob * p.bias)) m
    let r' := (ps.map Particle.fin).foldl (fun m p => State6.meanQuat.add m p.state (p.prob * p.bias)) m'
    r'.pSum = .fin r.pSum ∧ r'.pos = r.pos.fin ∧ r'.front = r.front.fin ∧ r'.up = r.up.fin := by
  induction ps generalizing m m' with
  | nil => exact ⟨h1, h2, h3, h4⟩
  | cons p ps ih =>
    refine ih (State6.meanQuat.add m p.state (p.prob * p.bias))
      (State6.meanQuat.add m' p.fin.state (p.fin.prob * p.fin.bias)) ?_ ?_ ?_ ?_
    · simp only [State6.meanQuat, Particle.fin, h1, XR.fin_mul, XR.fin_add]
    · simp only [State6.meanQuat, Particle.fin, State6.fin, h2, XR.fin_mul, smul_fin, add_fin]
    · have hv : (⟨1, 0, 0⟩ : Vec3 XR) = (⟨1, 0, 0⟩ : Vec3 ℝ).fin := rfl
      simp only [State6.meanQuat, Particle.fin, State6.fin, h3, XR.fin_mul, hv, rotate_fin, smul_fin, add_fin]
    · have hv : (⟨0, 0, 1⟩ : Vec3 XR) = (⟨0, 0, 1⟩ : Vec3 ℝ).fin := rfl
      simp only [State6.meanQuat, Particle.fin, State6.fin, h4, XR.fin_mul, hv, rotate_fin, smul_fin, add_fin]

theorem fold_axes (f : Filter (State6 ℝ) ℝ) :
    let r := f.particles.foldl (fun m p => State6.meanQuat.add m p.state (p.prob * p.bias)) State6.meanQuat.empty
    r.pSum = (f.particles.map fun p => p.prob * p.bias).sum ∧ r.front = voteAxis f ⟨1, 0, 0⟩ ∧
      r.up = voteAxis f ⟨0, 0, 1⟩ := by
  have h := Node.fold_meanQuat f.particles State6.meanQuat.empty
  simp only [h]
  refine ⟨?_, ?_, ?_⟩
  · show (0 : ℝ) + _ = _
    rw [zero_add]; simp only [Node.voteSum, Node.voteOf, mul_one]
  · ext <;> exact zero_add _
  · ext <;> exact zero_add _

/-- **C156**: particles with finite states, weights and biases whose votes do not sum to 0.  Before it is normalized every
component of the estimate is finite - the assertions hold - and its position is that of exact arithmetic; the normalized
orientation is a unit quaternion, that of exact arithmetic, if the votes are not opposed, and NaN in every component if
they are. -/
theorem C156_estimate (f : Filter (State6 ℝ) ℝ) (hs : (f.particles.map fun p => p.prob * p.bias).sum ≠ 0) :
    (∃ q : Quat ℝ, (rawEstimate f.fin).rot = q.fin) ∧
    (rawEstimate f.fin).pos = (rawEstimate f).pos.fin ∧ (estimateOf f.fin).pos = (estimateOf f).pos.fin ∧
    (¬ Opposed f → estimateOf f.fin = (estimateOf f).fin ∧ (estimateOf f).rot.dot (estimateOf f).rot = 1) ∧
    (Opposed f → (estimateOf f.fin).rot = Quat.nans) := by
  obtain ⟨a1, a2, a3, a4⟩ := fold_fin f.particles State6.meanQuat.empty State6.meanQuat.empty rfl rfl rfl rfl
  obtain ⟨b1, b2, b3⟩ := fold_axes f
  have hpos : (rawEstimate f.fin).pos = (rawEstimate f).pos.fin := by
    show Vec3.sdiv _ _ = (Vec3.sdiv _ _).fin
    rw [← sdiv_fin _ (by rw [b1]; exact hs), ← a2, ← a1]
    rfl
  have hrot : (rawEstimate f.fin).rot = Quat.lookAt (voteAxis f ⟨1, 0, 0⟩).fin (voteAxis f ⟨0, 0, 1⟩).fin := by
    rw [← b2, ← b3, ← a3, ← a4]; rfl
  have hrotR : (rawEstimate f).rot = Quat.lookAt (voteAxis f ⟨1, 0, 0⟩) (voteAxis f ⟨0, 0, 1⟩) := by
    rw [← b2, ← b3]; rfl
  refine ⟨?_, hpos, hpos, ?_, ?_⟩
  · by_cases ho : Opposed f
    · exact ⟨⟨0, 0, 0, 0⟩, hrot.trans (C156_lookAt_parallel _ _ ho).1⟩
    · exact ⟨_, hrot.trans (C156_lookAt _ _ ho).1⟩
  · intro ho
    obtain ⟨h1, h2⟩ := C156_lookAt _ _ ho
    have hr : (estimateOf f.fin).rot = (estimateOf f).rot.fin := by
      show (rawEstimate f.fin).rot.normalized = (rawEstimate f).rot.normalized.fin
      rw [hrot, h1, hrotR, qnormalized_fin (by rw [h2]; exact one_ne_zero)]
    refine ⟨?_, ?_⟩
    · apply State6.ext
      · exact hpos
      · exact hr
      all_goals rfl
    · show (rawEstimate f).rot.normalized.dot (rawEstimate f).rot.normalized = 1
      rw [hrotR]
      have hn : (Quat.lookAt (voteAxis f ⟨1, 0, 0⟩) (voteAxis f ⟨0, 0, 1⟩)).normalized =
          Quat.lookAt (voteAxis f ⟨1, 0, 0⟩) (voteAxis f ⟨0, 0, 1⟩) := by
        simp only [Quat.normalized, Quat.norm, h2, Transc.sqrt_real, Real.sqrt_one, Quat.sdiv, Quat.smul, div_one, mul_one]
      rw [hn, h2]
  · intro ho
    show (rawEstimate f.fin).rot.normalized = _
    rw [hrot, (C156_lookAt_parallel _ _ ho).2]

/-! ## The bias -/

theorem eval_fin {v : ℝ} (hv : v ≠ 0) (x : ℝ) :
    (NormalLikelihood.make (XR.fin v)).eval (.fin x) = .fin ((NormalLikelihood.make v).eval x) := by
  have hpi : (Transc.pi : XR) = .fin Real.pi := rfl
  have h2 : ((2 : ℕ) : XR) = .fin 2 := by rw [XR.natCast_def]; norm_num
  have hp : 0 < 2 * Real.pi * v * v := by
    have := mul_self_pos.2 hv
    have := Real.pi_pos
    rw [mul_assoc]; positivity
  have hq : v * v * 2 ≠ 0 := mul_ne_zero (mul_ne_zero hv hv) two_ne_zero
  simp only [NormalLikelihood.make, NormalLikelihood.eval, hpi, h2, XR.fin_mul, XR.transc_sqrt, XR.sqrt_fin _ hp.le,
    XR.one_def, XR.fin_div _ _ (Real.sqrt_ne_zero'.2 hp), XR.fin_neg, XR.fin_div _ _ hq, Transc.pi_real,
    Transc.sqrt_real, Nat.cast_ofNat, ExpFn.exp_real]
  rfl

theorem getAxisAng_fin (q : Quat ℝ) : (q.fin.getAxisAng).2 = .fin q.getAxisAng.2 := by
  have hm : ((1000000 : ℕ) : XR) = .fin 1000000 := by rw [XR.natCast_def]; norm_num
  have hc : cabs q.fin.w = .fin (cabs q.w) := by
    unfold cabs
    show (if XR.fin q.w < XR.fin 0 then _ else _) = _
    simp only [XR.fin_lt]
    split_ifs <;> rfl
  have hcond : ((1 : XR) - 1 / ((1000000 : ℕ) : XR) ≤ cabs q.fin.w) ↔ ((1 : ℝ) - 1 / ((1000000 : ℕ) : ℝ) ≤ cabs q.w) := by
    rw [hm, hc, XR.one_def, XR.fin_div _ _ (by norm_num), XR.fin_sub, XR.fin_le]
    norm_num
  unfold Quat.getAxisAng
  by_cases h : (1 : ℝ) - 1 / ((1000000 : ℕ) : ℝ) ≤ cabs q.w
  · rw [if_pos (hcond.2 h), if_pos h]; rfl
  · rw [if_neg (fun h' => h (hcond.1 h')), if_neg h]
    have hw : |q.w| ≤ 1 := by
      rw [cabs_eq] at h
      push _root_.Not at h
      have : (0 : ℝ) ≤ 1 / ((1000000 : ℕ) : ℝ) := by positivity
      linarith
    have hac : (Transc.acos q.fin.w : XR) = .fin (Real.arccos q.w) := by
      show (if |q.w| ≤ 1 then XR.fin (Real.arccos q.w) else .nan) = _
      rw [if_pos hw]
    have hpi : (Transc.pi : XR) = .fin Real.pi := rfl
    simp only [hac, hpi, two_fin, XR.fin_mul, XR.fin_lt, XR.fin_sub, Transc.acos_real, Transc.pi_real, Quat.two_real]
    split_ifs <;> rfl

/-- **C156**: around a finite previous estimate with a non-zero orientation, and for spreads that are not 0, the bias of
finite particles is finite, that of exact arithmetic. -/
theorem C156_bias (vl va eps : ℝ) (hl : vl ≠ 0) (ha : va ≠ 0) (prev : State6 ℝ) (hp : prev.rot.dot prev.rot ≠ 0)
    (f : Filter (State6 ℝ) ℝ) :
    biasAround (.fin vl) (.fin va) (.fin eps) prev.fin f.fin = (biasAround vl va eps prev f).fin := by
  unfold biasAround Filter.bias Filter.fin
  simp only [List.map_map]
  congr 1
  apply List.map_congr_left
  intro p _
  have h1 : (p.fin.state.pos - prev.fin.pos).norm = .fin ((p.state.pos - prev.pos).norm) := by
    rw [← norm_fin, ← sub_fin]; rfl
  have h2 : ((p.fin.state.rot * prev.fin.rot.inv).getAxisAng).2 =
      .fin ((p.state.rot * prev.rot.inv).getAxisAng.2) := by
    rw [← getAxisAng_fin, ← qmul_fin, ← inv_fin hp]; rfl
  simp only [Function.comp, h1, h2, eval_fin hl, eval_fin ha, XR.fin_mul, XR.fin_add]
  rfl

/-! ## Ever after -/

theorem nans_inv : Quat.nans.inv = Quat.nans := by
  have hn : (-XR.nan : XR) = .nan := rfl
  simp only [Quat.inv, Quat.conj, Quat.nans, Quat.sdiv, Quat.smul, hn, XR.nan_mul]

theorem mul_nans (q : Quat XR) : (q * Quat.nans).w = .nan := by
  show Quat.w (Quat.mul q Quat.nans) = _
  simp only [Quat.mul, Quat.nans, XR.mul_nan, nan_sub]

theorem not_le_nan (a : XR) : ¬ a ≤ XR.nan := by
  intro h; cases a <;> exact h

theorem getAxisAng_nan (q : Quat XR) (h : q.w = .nan) : q.getAxisAng.2 = .nan := by
  have hc : cabs q.w = .nan := by
    unfold cabs; rw [h, if_neg (XR.not_nan_lt _)]
  unfold Quat.getAxisAng
  rw [hc, if_neg (not_le_nan _)]
  have ha : (Transc.acos q.w : XR) = .nan := by rw [h]; rfl
  simp only [ha, XR.nan_mul, XR.not_lt_nan, if_false]

theorem eval_nan (n : NormalLikelihood XR) : n.eval .nan = .nan := by
  unfold NormalLikelihood.eval
  rw [show (-XR.nan : XR) = XR.nan from rfl, XR.nan_mul, XR.nan_div]
  exact XR.mul_nan _

theorem fold_nans (ps : List (Particle (State6 XR) XR)) (m : State6.MeanAcc XR)
    (h : ps ≠ [] ∨ (m.pos = Vec3.nans ∧ m.front = Vec3.nans)) (hb : ∀ p ∈ ps, p.bias = .nan) :
    let r := ps.foldl (fun m p => State6.meanQuat.add m p.state (p.prob * p.bias)) m
    r.pos = Vec3.nans ∧ r.front = Vec3.nans := by
  induction ps generalizing m with
  | nil => rcases h with h | h; exact absurd rfl h; exact h
  | cons p ps ih =>
    refine ih _ (Or.inr ?_) fun q hq => hb q (List.mem_cons_of_mem _ hq)
    have hv : ∀ (a b : Vec3 XR), a + b.smul (p.prob * p.bias) = Vec3.nans := by
      intro a b
      rw [hb p List.mem_cons_self, XR.mul_nan]
      apply Vec3.ext
      · show a.x + b.x * XR.nan = _; rw [XR.mul_nan, XR.add_nan]; rfl
      · show a.y + b.y * XR.nan = _; rw [XR.mul_nan, XR.add_nan]; rfl
      · show a.z + b.z * XR.nan = _; rw [XR.mul_nan, XR.add_nan]; rfl
    exact ⟨hv _ _, hv _ _⟩

theorem estimate_nans (vl va eps : XR) (prev : State6 XR) (hp : prev.rot = Quat.nans) (f : Filter (State6 XR) XR)
    (hne : f.particles ≠ []) :
    (estimateOf (biasAround vl va eps prev f)).pos = Vec3.nans ∧
      (estimateOf (biasAround vl va eps prev f)).rot = Quat.nans := by
  obtain ⟨h1, h2⟩ := fold_nans (biasAround vl va eps prev f).particles State6.meanQuat.empty
    (Or.inl (by simpa [biasAround, Filter.bias] using hne)) (by
      intro p hp'
      obtain ⟨q, _, rfl⟩ := List.mem_map.1 hp'
      simp only [hp, nans_inv, getAxisAng_nan _ (mul_nans _), eval_nan, XR.mul_nan, XR.nan_add])
  constructor
  · show Vec3.sdiv _ _ = _
    rw [h1]
    apply Vec3.ext <;> exact XR.nan_div _
  · show (Quat.lookAt _ _).normalized = _
    rw [h2, lookAt_of_nans, qnormalized_zero]
    rw [nans_normalized, nans_cross, nans_normalized]

/-- **C156**: once an estimate has no orientation, every later one - whatever the particles, the weights and the
measurements - has neither a position nor an orientation, as long as the particle count does not exceed the configured
one. -/
theorem C156_forever (vl va eps : XR) (prev : State6 XR) (hp : prev.rot = Quat.nans)
    (fs : List (Filter (State6 XR) XR)) (hne : ∀ f ∈ fs, f.particles ≠ []) :
    (estimatesFrom vl va eps prev fs).length = fs.length ∧
    ∀ e ∈ estimatesFrom vl va eps prev fs, e.pos = Vec3.nans ∧ e.rot = Quat.nans := by
  induction fs generalizing prev with
  | nil => exact ⟨rfl, by simp [estimatesFrom]⟩
  | cons f fs ih =>
    have h := estimate_nans vl va eps prev hp f (hne f List.mem_cons_self)
    have ih' := ih _ h.2 fun g hg => hne g (List.mem_cons_of_mem _ hg)
    refine ⟨by simp only [estimatesFrom, List.length_cons, ih'.1], ?_⟩
    intro e he
    rcases List.mem_cons.1 he with rfl | he
    · exact h
    · exact ih'.2 e he

/-- **C156**: opposed votes, once, and no estimate is a number again. -/
theorem C156_opposed (f : Filter (State6 ℝ) ℝ) (hs : (f.particles.map fun p => p.prob * p.bias).sum ≠ 0)
    (ho : Opposed f) (vl va eps : XR) (fs : List (Filter (State6 XR) XR)) (hne : ∀ f ∈ fs, f.particles ≠ []) :
    ∀ e ∈ estimatesFrom vl va eps (estimateOf f.fin) fs, e.pos = Vec3.nans ∧ e.rot = Quat.nans :=
  (C156_forever vl va eps _ ((C156_estimate f hs).2.2.2.2 ho) fs hne).2

/-! ## Non-vacuity -/

/-- Two particles of equal votes, the second one with heading `rot`. -/
noncomputable def pair (rot : Quat ℝ) : Filter (State6 ℝ) ℝ :=
  { particles := [⟨State6.ofQuat ⟨0, 0, 0⟩ ⟨0, 0, 0, 1⟩, 1 / 2, 1, 0⟩, ⟨State6.ofQuat ⟨2, 0, 0⟩ rot, 1 / 2, 1, 0⟩],
    entropy := none }

/-- Two particles at headings 0 and 180 degrees are opposed. -/
example : Opposed (pair ⟨0, 0, 1, 0⟩) ∧ ((pair ⟨0, 0, 1, 0⟩).particles.map fun p => p.prob * p.bias).sum ≠ 0 := by
  constructor
  · ext <;> simp [voteAxis, pair, Vec3.cross, State6.ofQuat, Quat.rotate_x, Quat.rotate_y, Quat.rotate_z]
  · norm_num [pair]

/-- Two particles at headings 0 and 90 degrees are not. -/
example : ¬ Opposed (pair ⟨0, 0, Real.sqrt 2 / 2, Real.sqrt 2 / 2⟩) := by
  intro h
  have := congrArg Vec3.y h
  have h2 : Real.sqrt 2 * Real.sqrt 2 = 2 := Real.mul_self_sqrt (by norm_num)
  simp [voteAxis, pair, Vec3.cross, State6.ofQuat, Quat.rotate_x, Quat.rotate_y, Quat.rotate_z] at this
  nlinarith

end Opposed
end Mcl3dl
