import Verif.Model.Motion
import Verif.Props.Motion
import Mathlib.LinearAlgebra.Matrix.PosDef
import Mathlib.Analysis.Matrix.PosDef
import Mathlib.Algebra.Order.Star.Real
import Mathlib.Tactic

/-!
# C80, C81, C108: Gaussian likelihoods, the IMU gravity model, the landmark measurement
-/

set_option linter.unusedSectionVars false

namespace Mcl3dl

namespace NormalLikelihood

/-- C80: with `sigma ≠ 0` the likelihood is the Gaussian density of standard deviation `|sigma|`. -/
theorem C80_density (σ x : ℝ) (_hσ : σ ≠ 0) :
    (make σ).eval x = 1 / (|σ| * Real.sqrt (2 * Real.pi)) * Real.exp (-(x ^ 2) / (2 * σ ^ 2)) := by
  simp only [make, eval, Transc.sqrt_real, Transc.pi_real, ExpFn.exp_real, Nat.cast_ofNat]
  congr 2
  · rw [show (2 * Real.pi * σ * σ : ℝ) = σ ^ 2 * (2 * Real.pi) by ring, Real.sqrt_mul (sq_nonneg σ),
      Real.sqrt_sq_eq_abs]
  · congr 1 <;> ring

/-- C80: the likelihood is positive, symmetric, maximal at 0 and strictly decreasing in `|x|`. -/
theorem C80_shape (σ : ℝ) (hσ : σ ≠ 0) :
    (∀ x, 0 < (make σ).eval x) ∧ (∀ x, (make σ).eval (-x) = (make σ).eval x) ∧
    (∀ x, (make σ).eval x ≤ (make σ).eval 0) ∧
    (∀ x y, |x| < |y| → (make σ).eval y < (make σ).eval x) := by
  have ha : 0 < 1 / (|σ| * Real.sqrt (2 * Real.pi)) := by
    have := abs_pos.2 hσ
    have := Real.sqrt_pos.2 (show (0:ℝ) < 2 * Real.pi by positivity)
    positivity
  have hs : 0 < 2 * σ ^ 2 := by positivity
  refine ⟨?_, ?_, ?_, ?_⟩
  · intro x; rw [C80_density σ x hσ]; positivity
  · intro x; rw [C80_density σ _ hσ, C80_density σ _ hσ, neg_sq]
  · intro x
    rw [C80_density σ _ hσ, C80_density σ _ hσ]
    refine mul_le_mul_of_nonneg_left (Real.exp_le_exp.2 ?_) ha.le
    refine div_le_div_of_nonneg_right ?_ hs.le
    nlinarith [sq_nonneg x]
  · intro x y h
    rw [C80_density σ _ hσ, C80_density σ _ hσ]
    refine mul_lt_mul_of_pos_left (Real.exp_lt_exp.2 ?_) ha
    refine div_lt_div_of_pos_right ?_ hs
    have := sq_lt_sq.2 h
    linarith

/-- C80: `sigma = 0` is excluded for a reason: the likelihood of every finite value is NaN. -/
theorem C80_zero_sigma (x : ℝ) : (make (XR.fin 0)).eval (XR.fin x) = XR.nan := by
  have ha : (make (XR.fin 0)).a = XR.pinf := by
    change XR.fin 1 / XR.sqrt (XR.fin _ * XR.fin _ * XR.fin 0 * XR.fin 0) = _
    simp only [XR.fin_mul, mul_zero]
    rw [XR.sqrt_fin 0 le_rfl, Real.sqrt_zero, XR.fin_div_zero_pos 1 one_pos]
  have hs : (make (XR.fin 0)).sq2 = XR.fin 0 := by
    change XR.fin 0 * XR.fin 0 * XR.fin _ = _
    simp
  rw [eval, ha, hs, XR.fin_neg, XR.fin_mul]
  by_cases hx : x = 0
  · subst hx
    rw [neg_zero, zero_mul, XR.zero_div_zero]
    exact XR.mul_nan _
  · have : -x * x < 0 := by
      have := mul_self_pos.2 hx; linarith
    rw [XR.fin_div_zero_neg _ this]
    change XR.pinf * XR.fin 0 = _
    exact XR.pinf_mul_zero

example : (make (2 : ℝ)).eval 3 < (make (2 : ℝ)).eval (-1) :=
  (C80_shape 2 two_ne_zero).2.2.2 (-1) 3 (by norm_num)

end NormalLikelihood

namespace NormalLikelihoodNd
open Matrix

variable {n : ℕ}

theorem eval_eq (sigma : Matrix (Fin n) (Fin n) ℝ) (x : Fin n → ℝ) :
    (make sigma).eval x = (make sigma).a * Real.exp (-(1 / 2) * (x ⬝ᵥ sigma⁻¹ *ᵥ x)) := by
  unfold eval
  congr 2
  have : (fun i => -(1 / 2) * x i) = (-(1 / 2) : ℝ) • x := rfl
  rw [this, smul_vecMul, smul_dotProduct, dotProduct_mulVec]
  rfl

theorem a_pos {sigma : Matrix (Fin n) (Fin n) ℝ} (h : sigma.PosDef) : 0 < (make sigma).a := by
  have := h.det_pos
  simp only [make]
  have := Real.sqrt_pos.2 this
  positivity

/-- C80 (multivariate): for a positive definite covariance the likelihood is positive, symmetric and
attains its maximum exactly at 0. -/
theorem C80_multivariate (sigma : Matrix (Fin n) (Fin n) ℝ) (h : sigma.PosDef) :
    (∀ x, 0 < (make sigma).eval x) ∧ (∀ x, (make sigma).eval (-x) = (make sigma).eval x) ∧
    (∀ x, x ≠ 0 → (make sigma).eval x < (make sigma).eval 0) ∧
    (∀ x y, x ⬝ᵥ sigma⁻¹ *ᵥ x ≤ y ⬝ᵥ sigma⁻¹ *ᵥ y → (make sigma).eval y ≤ (make sigma).eval x) := by
  have ha := a_pos h
  refine ⟨?_, ?_, ?_, ?_⟩
  · intro x; rw [eval_eq]; exact mul_pos ha (Real.exp_pos _)
  · intro x; rw [eval_eq, eval_eq, mulVec_neg, neg_dotProduct, dotProduct_neg, neg_neg]
  · intro x hx
    rw [eval_eq, eval_eq]
    refine mul_lt_mul_of_pos_left (Real.exp_lt_exp.2 ?_) ha
    have := h.inv.dotProduct_mulVec_pos hx
    simp only [star_trivial] at this
    rw [zero_dotProduct]
    linarith
  · intro x y hxy
    rw [eval_eq, eval_eq]
    refine mul_le_mul_of_nonneg_left (Real.exp_le_exp.2 ?_) ha.le
    linarith

/-- C80 (multivariate): for a diagonal covariance the likelihood is the product of the
one-dimensional ones. -/
theorem C80_diagonal (d : Fin n → ℝ) (hd : ∀ i, 0 < d i) (x : Fin n → ℝ) :
    (make (diagonal d)).eval x = ∏ i, (NormalLikelihood.make (Real.sqrt (d i))).eval (x i) := by
  have hne : ∀ i, d i ≠ 0 := fun i => (hd i).ne'
  have hinv : (diagonal d)⁻¹ = diagonal (fun i => (d i)⁻¹) := by
    apply Matrix.inv_eq_left_inv
    rw [diagonal_mul_diagonal]
    rw [show (fun i => (d i)⁻¹ * d i) = 1 from funext fun i => inv_mul_cancel₀ (hne i)]
    exact diagonal_one
  rw [eval_eq, hinv]
  have h1 : ∀ i, (NormalLikelihood.make (Real.sqrt (d i))).eval (x i) =
      1 / (Real.sqrt (d i) * Real.sqrt (2 * Real.pi)) * Real.exp (-(1/2) * (x i * ((d i)⁻¹ * x i))) := by
    intro i
    rw [NormalLikelihood.C80_density _ _ (Real.sqrt_pos.2 (hd i)).ne', abs_of_nonneg (Real.sqrt_nonneg _),
      Real.sq_sqrt (hd i).le]
    congr 2
    have := hne i
    field_simp
  simp only [h1]
  rw [Finset.prod_mul_distrib, ← Real.exp_sum]
  congr 1
  · simp only [make, det_diagonal]
    rw [Finset.prod_div_distrib, Finset.prod_const_one, Finset.prod_mul_distrib, Finset.prod_const, Finset.card_univ,
      Fintype.card_fin, mul_comm]
    congr 2
    · rw [Real.sqrt_eq_rpow, ← Real.finsetProd_rpow _ _ (fun i _ => (hd i).le)]
      exact Finset.prod_congr rfl fun i _ => by rw [Real.sqrt_eq_rpow]
    · rw [Real.sqrt_eq_rpow, ← Real.rpow_natCast, ← Real.rpow_mul (by positivity)]
  · rw [← Finset.mul_sum]
    congr 2
    simp [dotProduct, mulVec_diagonal]

example : (diagonal ![1, 2] : Matrix (Fin 2) (Fin 2) ℝ).PosDef := by
  rw [posDef_diagonal_iff]
  intro i; fin_cases i <;> norm_num

end NormalLikelihoodNd

namespace GravityModel

/-- The direction of gravity (upwards) that a particle predicts in the robot frame, times the squared
norm of its orientation. -/
theorem est_ne {q : Quat ℝ} (hq : q ≠ ⟨0, 0, 0, 0⟩) : q.inv.rotate ⟨0, 0, 1⟩ ≠ (⟨0, 0, 0⟩ : Vec3 ℝ) := by
  intro h
  have hd := Quat.dot_self_ne_zero q hq
  have h2 := congrArg q.rotate h
  rw [(Quat.C30_inv_rotate q hd.ne' _).2] at h2
  have := congrArg Vec3.z h2
  simp [Quat.rotate_z] at this

theorem dot_nonneg (v : Vec3 ℝ) : 0 ≤ v.dot v := by
  simp only [Vec3.dot]; nlinarith [mul_self_nonneg v.x, mul_self_nonneg v.y, mul_self_nonneg v.z]

theorem norm_pos {v : Vec3 ℝ} (hv : v ≠ ⟨0, 0, 0⟩) : 0 < v.norm := by
  simp only [Vec3.norm, Transc.sqrt_real]
  refine Real.sqrt_pos.2 (lt_of_le_of_ne (dot_nonneg v) ?_)
  intro h
  apply hv
  simp only [Vec3.dot] at h
  have hx : v.x = 0 := by nlinarith [mul_self_nonneg v.x, mul_self_nonneg v.y, mul_self_nonneg v.z]
  have hy : v.y = 0 := by nlinarith [mul_self_nonneg v.x, mul_self_nonneg v.y, mul_self_nonneg v.z]
  have hz : v.z = 0 := by nlinarith [mul_self_nonneg v.x, mul_self_nonneg v.y, mul_self_nonneg v.z]
  ext <;> assumption

theorem norm_sq (v : Vec3 ℝ) : v.norm ^ 2 = v.dot v := by
  simp only [Vec3.norm, Transc.sqrt_real]; exact Real.sq_sqrt (dot_nonneg v)

/-- Cauchy-Schwarz. -/
theorem cos_bound {u v : Vec3 ℝ} (hu : u ≠ ⟨0, 0, 0⟩) (hv : v ≠ ⟨0, 0, 0⟩) :
    |u.dot v / (v.norm * u.norm)| ≤ 1 := by
  have h1 := norm_pos hu
  have h2 := norm_pos hv
  rw [abs_div, abs_of_pos (mul_pos h2 h1), div_le_one (mul_pos h2 h1)]
  apply abs_le_of_sq_le_sq _ (mul_pos h2 h1).le
  rw [mul_pow, norm_sq, norm_sq]
  simp only [Vec3.dot]
  nlinarith [sq_nonneg (u.x * v.y - u.y * v.x), sq_nonneg (u.x * v.z - u.z * v.x), sq_nonneg (u.y * v.z - u.z * v.y)]

/-- The angle between two vectors. -/
noncomputable def angle (u v : Vec3 ℝ) : ℝ := Real.arccos (u.dot v / (u.norm * v.norm))

/-- The gravity direction predicted by a particle, in the robot frame. -/
noncomputable def predicted (s : State6 ℝ) : Vec3 ℝ := s.rot.inv.rotate ⟨0, 0, 1⟩

theorem measure_eq (var : ℝ) (acc : Vec3 ℝ) (s : State6 ℝ) :
    (make var acc).measure s = (NormalLikelihood.make var).eval (angle (predicted s) acc) := by
  simp only [make, measure, angle, predicted, Transc.acos_real]
  rw [mul_comm acc.norm]

/-- C81: for a non-zero acceleration and orientation the argument of `acos` is in `[-1, 1]`, the
likelihood is positive, and it is the Gaussian likelihood of the angle between the measured and the
predicted gravity direction; it decreases strictly with this angle. -/
theorem C81_wellDefined (var : ℝ) (hv : var ≠ 0) (acc : Vec3 ℝ) (ha : acc ≠ ⟨0, 0, 0⟩) (s : State6 ℝ)
    (hs : s.rot ≠ ⟨0, 0, 0, 0⟩) :
    |(predicted s).dot acc / (acc.norm * (predicted s).norm)| ≤ 1 ∧
    0 < (make var acc).measure s ∧
    (make var acc).measure s = (NormalLikelihood.make var).eval (angle (predicted s) acc) ∧
    (∀ s' : State6 ℝ, angle (predicted s) acc < angle (predicted s') acc →
      (make var acc).measure s' < (make var acc).measure s) := by
  refine ⟨cos_bound (est_ne hs) ha, ?_, measure_eq _ _ _, ?_⟩
  · rw [measure_eq]; exact (NormalLikelihood.C80_shape var hv).1 _
  · intro s' h
    rw [measure_eq, measure_eq]
    apply (NormalLikelihood.C80_shape var hv).2.2.2
    have hn : ∀ t : State6 ℝ, 0 ≤ angle (predicted t) acc := fun _ => Real.arccos_nonneg _
    rw [abs_of_nonneg (hn _), abs_of_nonneg (hn _)]
    exact h

/-- C81: no orientation is more likely than one that predicts exactly the measured direction. -/
theorem C81_max (var : ℝ) (hv : var ≠ 0) (acc : Vec3 ℝ) (ha : acc ≠ ⟨0, 0, 0⟩) (s s' : State6 ℝ)
    (r : ℝ) (hr : 0 < r) (h : acc = (predicted s).smul r) :
    (make var acc).measure s' ≤ (make var acc).measure s := by
  have h0 : angle (predicted s) acc = 0 := by
    have hp : predicted s ≠ ⟨0, 0, 0⟩ := by
      intro h0; rw [h0] at h; apply ha; rw [h]; ext <;> simp [Vec3.smul]
    have hn := norm_pos hp
    have hnorm : acc.norm = (predicted s).norm * r := by
      have : acc.dot acc = (predicted s).dot (predicted s) * r ^ 2 := by
        rw [h]; simp only [Vec3.dot, Vec3.smul]; ring
      simp only [Vec3.norm, Transc.sqrt_real]
      rw [this, Real.sqrt_mul (dot_nonneg _), Real.sqrt_sq hr.le]
    have hdot : (predicted s).dot acc = (predicted s).norm * (predicted s).norm * r := by
      rw [← sq, norm_sq, h]; simp only [Vec3.dot, Vec3.smul]; ring
    rw [angle, hnorm, hdot]
    rw [show (predicted s).norm * (predicted s).norm * r / ((predicted s).norm * ((predicted s).norm * r)) = 1 by
      field_simp]
    exact Real.arccos_one
  rw [measure_eq, measure_eq, h0]
  exact (NormalLikelihood.C80_shape var hv).2.2.1 _

/-- C81: turning a particle about the vertical does not change its likelihood. -/
theorem C81_yaw_invariant (var : ℝ) (acc : Vec3 ℝ) (s : State6 ℝ) (hs : s.rot ≠ ⟨0, 0, 0, 0⟩) (yaw : ℝ) :
    (make var acc).measure { s with rot := Quat.ofAxisAng ⟨0, 0, 1⟩ yaw * s.rot } =
      (make var acc).measure s := by
  rw [measure_eq, measure_eq]
  congr 2
  have hd := Quat.dot_self_ne_zero s.rot hs
  have hz := Quat.C35_unit (⟨0, 0, 1⟩ : Vec3 ℝ) Motion.axisZ_ne yaw
  have hdd : (Quat.ofAxisAng (⟨0, 0, 1⟩ : Vec3 ℝ) yaw * s.rot).dot (Quat.ofAxisAng ⟨0, 0, 1⟩ yaw * s.rot) ≠ 0 := by
    rw [Quat.C29_dot_mul, hz, one_mul]; exact hd.ne'
  -- both sides are rotated to the vertical by the turned orientation
  have hcancel : ∀ u v : Vec3 ℝ, (Quat.ofAxisAng ⟨0, 0, 1⟩ yaw * s.rot).rotate u =
      (Quat.ofAxisAng ⟨0, 0, 1⟩ yaw * s.rot).rotate v → u = v := by
    intro u v h
    rw [← (Quat.C30_inv_rotate _ hdd u).1, h, (Quat.C30_inv_rotate _ hdd v).1]
  apply hcancel
  simp only [predicted]
  rw [(Quat.C30_inv_rotate _ hdd _).2, Quat.C29_mul_rotate, (Quat.C30_inv_rotate _ hd.ne' _).2,
    Quat.C35_fixes_axis _ Motion.axisZ_ne]

/-- C81: an acceleration of zero is excluded for a reason: the likelihood is NaN. -/
theorem C81_zero_acceleration (var x y z w : ℝ) (s : State6 XR)
    (hs : s.rot = ⟨.fin x, .fin y, .fin z, .fin w⟩) (hne : x * x + y * y + z * z + w * w ≠ 0) :
    (make (XR.fin var) ⟨.fin 0, .fin 0, .fin 0⟩).measure s = XR.nan := by
  have hnum : ∀ a b c : ℝ, Vec3.dot (⟨.fin a, .fin b, .fin c⟩ : Vec3 XR) ⟨.fin 0, .fin 0, .fin 0⟩ = .fin 0 := by
    intro a b c; simp [Vec3.dot]
  have hnorm : Vec3.norm (⟨.fin 0, .fin 0, .fin 0⟩ : Vec3 XR) = .fin 0 := by
    simp [Vec3.norm, Vec3.dot, XR.sqrt_fin]
  have hest : ∃ a b c : ℝ, s.rot.inv.rotate ⟨0, 0, 1⟩ = (⟨.fin a, .fin b, .fin c⟩ : Vec3 XR) := by
    rw [hs]
    have hdot : Quat.dot (⟨.fin x, .fin y, .fin z, .fin w⟩ : Quat XR) ⟨.fin x, .fin y, .fin z, .fin w⟩ =
        .fin (x * x + y * y + z * z + w * w) := rfl
    have hinv : ∃ a b c d : ℝ, Quat.inv (⟨.fin x, .fin y, .fin z, .fin w⟩ : Quat XR) = ⟨.fin a, .fin b, .fin c, .fin d⟩ := by
      refine ⟨-x * (1 / (x * x + y * y + z * z + w * w)), -y * (1 / (x * x + y * y + z * z + w * w)),
        -z * (1 / (x * x + y * y + z * z + w * w)), w * (1 / (x * x + y * y + z * z + w * w)), ?_⟩
      simp only [Quat.inv, hdot, Quat.sdiv, XR.one_def, XR.fin_div _ _ hne, Quat.smul, Quat.conj, XR.fin_neg, XR.fin_mul]
    obtain ⟨a, b, c, d, h⟩ := hinv
    rw [h]
    refine ⟨(Quat.rotate (⟨a, b, c, d⟩ : Quat ℝ) ⟨0, 0, 1⟩).x, (Quat.rotate (⟨a, b, c, d⟩ : Quat ℝ) ⟨0, 0, 1⟩).y,
      (Quat.rotate (⟨a, b, c, d⟩ : Quat ℝ) ⟨0, 0, 1⟩).z, ?_⟩
    have hmul : ∀ p q r t p' q' r' t' : ℝ, ((⟨.fin p, .fin q, .fin r, .fin t⟩ : Quat XR) * ⟨.fin p', .fin q', .fin r', .fin t'⟩) =
        ⟨.fin ((⟨p, q, r, t⟩ : Quat ℝ) * ⟨p', q', r', t'⟩).x, .fin ((⟨p, q, r, t⟩ : Quat ℝ) * ⟨p', q', r', t'⟩).y,
         .fin ((⟨p, q, r, t⟩ : Quat ℝ) * ⟨p', q', r', t'⟩).z, .fin ((⟨p, q, r, t⟩ : Quat ℝ) * ⟨p', q', r', t'⟩).w⟩ := by
      intro p q r t p' q' r' t'
      change Quat.mul _ _ = _
      simp only [Quat.mul, XR.fin_mul, XR.fin_add, XR.fin_sub]
      rfl
    simp only [Quat.rotate, Quat.conj, XR.fin_neg, XR.zero_def, XR.one_def, hmul]
  obtain ⟨a, b, c, h⟩ := hest
  have hn2 : ∃ r : ℝ, Vec3.norm (⟨.fin a, .fin b, .fin c⟩ : Vec3 XR) = .fin r := by
    refine ⟨Real.sqrt (a * a + b * b + c * c), ?_⟩
    simp only [Vec3.norm, Vec3.dot, XR.fin_mul, XR.fin_add, XR.transc_sqrt]
    exact XR.sqrt_fin _ (by nlinarith [mul_self_nonneg a, mul_self_nonneg b, mul_self_nonneg c])
  obtain ⟨r, hr⟩ := hn2
  simp only [measure, make, h, hnum, hnorm, hr, XR.fin_mul, zero_mul, XR.zero_div_zero]
  change NormalLikelihood.eval _ XR.nan = _
  simp only [NormalLikelihood.eval]
  rw [show (-XR.nan : XR) = XR.nan from rfl, XR.nan_mul, XR.nan_div]
  exact XR.mul_nan _

/-- A level particle and the acceleration of gravity meet the hypotheses of C81. -/
example : (⟨0, 0, 9.8⟩ : Vec3 ℝ) ≠ ⟨0, 0, 0⟩ ∧ (1 : Quat ℝ) ≠ ⟨0, 0, 0, 0⟩ ∧
    (⟨0, 0, 9.8⟩ : Vec3 ℝ) = (predicted (State6.default : State6 ℝ)).smul 9.8 := by
  refine ⟨?_, ?_, ?_⟩
  · intro h; have := congrArg Vec3.z h; norm_num at this
  · intro h; have := congrArg Quat.w h; norm_num at this
  · have h1 : (State6.default : State6 ℝ).rot.inv = 1 := by
      change (1 : Quat ℝ).inv = 1
      rw [Quat.C30_inv_unit _ (by simp [Quat.dot])]
      ext <;> simp
    simp only [predicted, h1]
    ext <;> simp [Quat.rotate_x, Quat.rotate_y, Quat.rotate_z, Vec3.smul]

end GravityModel

namespace Landmark
open Matrix

/-- The covariance of a landmark message as a matrix. -/
def covMatrix (cov : Fin 36 → ℝ) : Matrix (Fin 6) (Fin 6) ℝ := fun i j => cov ⟨6 * i + j, by omega⟩

/-- C108: for a positive definite landmark covariance every particle gets a positive likelihood, and
none is more likely than a particle at exactly the measured pose. -/
theorem C108_landmark (cov : Fin 36 → ℝ) (hcov : (covMatrix cov).PosDef) (measured s : State6 ℝ)
    (hm : measured.rot.dot measured.rot ≠ 0) :
    0 < landmarkLikelihood cov measured s ∧
    ∀ s' : State6 ℝ, s'.pos = measured.pos → s'.rot = measured.rot →
      landmarkLikelihood cov measured s ≤ landmarkLikelihood cov measured s' := by
  have hT : (fun (i j : Fin 6) => cov ⟨i + 6 * j, by omega⟩) = (covMatrix cov)ᵀ := by
    ext i j; simp only [covMatrix, transpose_apply]; congr 1; ext; simp only; omega
  have hpd : ((covMatrix cov)ᵀ).PosDef := hcov.transpose
  obtain ⟨h1, -, h3, -⟩ := NormalLikelihoodNd.C80_multivariate _ hpd
  simp only [landmarkLikelihood, hT]
  refine ⟨h1 _, ?_⟩
  intro s' hp hr
  have h0 : (![(s'.sub measured).pos.x, (s'.sub measured).pos.y, (s'.sub measured).pos.z,
      (s'.sub measured).rot.getRPY.x, (s'.sub measured).rot.getRPY.y, (s'.sub measured).rot.getRPY.z] : Fin 6 → ℝ) = 0 := by
    have hpos : (s'.sub measured).pos = ⟨0, 0, 0⟩ := by
      change s'.pos - measured.pos = _
      rw [hp]
      ext <;> simp [Vec3.sub_x, Vec3.sub_y, Vec3.sub_z]
    have hrot : (s'.sub measured).rot = 1 := by
      change measured.rot.inv * s'.rot = 1
      rw [hr]; exact (Quat.C30_inv_mul _ hm).1
    have hrpy : (1 : Quat ℝ).getRPY = ⟨0, 0, 0⟩ := by
      have h1 : (⟨1, 0⟩ : ℂ) = 1 := rfl
      ext <;> simp [Quat.getRPY, cmax_eq, cmin_eq, h1]
    rw [hpos, hrot, hrpy]
    ext i; fin_cases i <;> rfl
  rw [h0]
  by_cases hx : (![(s.sub measured).pos.x, (s.sub measured).pos.y, (s.sub measured).pos.z,
      (s.sub measured).rot.getRPY.x, (s.sub measured).rot.getRPY.y, (s.sub measured).rot.getRPY.z] : Fin 6 → ℝ) = 0
  · rw [hx]
  · exact (h3 _ hx).le

/-- C108: the likelihood depends on the orientations only as rotations: flipping the sign of the
particle's quaternion does not change it. -/
theorem C108_sign_invariant (cov : Fin 36 → ℝ) (measured s : State6 ℝ) :
    landmarkLikelihood cov measured { s with rot := -s.rot } = landmarkLikelihood cov measured s := by
  have hrot : (({ s with rot := -s.rot } : State6 ℝ).sub measured).rot.getRPY = (s.sub measured).rot.getRPY := by
    change (measured.rot.inv * -s.rot).getRPY = (measured.rot.inv * s.rot).getRPY
    have : measured.rot.inv * -s.rot = -(measured.rot.inv * s.rot) := by
      ext
      · simp only [Quat.mul_x, Quat.neg_x, Quat.neg_y, Quat.neg_z, Quat.neg_w]; ring
      · simp only [Quat.mul_y, Quat.neg_x, Quat.neg_y, Quat.neg_z, Quat.neg_w]; ring
      · simp only [Quat.mul_z, Quat.neg_x, Quat.neg_y, Quat.neg_z, Quat.neg_w]; ring
      · simp only [Quat.mul_w, Quat.neg_x, Quat.neg_y, Quat.neg_z, Quat.neg_w]; ring
    rw [this]
    simp only [Quat.getRPY, Quat.neg_x, Quat.neg_y, Quat.neg_z, Quat.neg_w, neg_mul_neg]
  simp only [landmarkLikelihood, hrot]
  rfl

/-- The unit covariance is positive definite. -/
example : (covMatrix fun k => if k.1 % 7 = 0 then 1 else 0).PosDef := by
  have : covMatrix (fun k => if k.1 % 7 = 0 then 1 else 0) = 1 := by
    ext i j; fin_cases i <;> fin_cases j <;> rfl
  rw [this]; exact PosDef.one

end Landmark
end Mcl3dl
