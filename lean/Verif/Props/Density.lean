import Verif.Props.Likelihood
import Mathlib.Analysis.Matrix.Order
import Mathlib.Analysis.SpecialFunctions.Gaussian.GaussianIntegral
import Mathlib.MeasureTheory.Integral.Pi
import Mathlib.MeasureTheory.Measure.Lebesgue.Basic
import Mathlib.Probability.Distributions.Gaussian.Real

/-!
# C143: the Gaussian likelihoods are probability densities
-/

set_option linter.unusedSectionVars false

open MeasureTheory

namespace Mcl3dl

/-- C143: the one-dimensional likelihood integrates to 1. -/
theorem C143_integral (σ : ℝ) (hσ : σ ≠ 0) : ∫ x, (NormalLikelihood.make σ).eval x = 1 := by
  have h : ∀ x, (NormalLikelihood.make σ).eval x =
      1 / (|σ| * Real.sqrt (2 * Real.pi)) * Real.exp (-(1 / (2 * σ ^ 2)) * x ^ 2) := fun x => by
    rw [NormalLikelihood.C80_density σ x hσ]; congr 2; ring
  simp_rw [h]
  rw [integral_const_mul, integral_gaussian]
  have : Real.pi / (1 / (2 * σ ^ 2)) = σ ^ 2 * (2 * Real.pi) := by field_simp
  rw [this, Real.sqrt_mul (sq_nonneg σ), Real.sqrt_sq_eq_abs]
  have := abs_pos.2 hσ
  have := Real.sqrt_pos.2 (show (0:ℝ) < 2 * Real.pi by positivity)
  field_simp

example : ∫ x, (NormalLikelihood.make (3 : ℝ)).eval x = 1 := C143_integral 3 (by norm_num)

/-- The density as Mathlib has it. -/
theorem eval_eq_pdf (σ x : ℝ) (hσ : σ ≠ 0) :
    (NormalLikelihood.make σ).eval x = ProbabilityTheory.gaussianPDFReal 0 (σ ^ 2).toNNReal x := by
  rw [NormalLikelihood.C80_density σ x hσ, ProbabilityTheory.gaussianPDFReal, Real.coe_toNNReal _ (sq_nonneg σ),
    sub_zero, show 2 * Real.pi * σ ^ 2 = σ ^ 2 * (2 * Real.pi) by ring, Real.sqrt_mul (sq_nonneg σ),
    Real.sqrt_sq_eq_abs, one_div]

/-- C143: the parameter is the standard deviation: the mean is 0 and the variance `sigma²`. -/
theorem C143_moments (σ : ℝ) (hσ : σ ≠ 0) :
    ∫ x, x * (NormalLikelihood.make σ).eval x = 0 ∧ ∫ x, x ^ 2 * (NormalLikelihood.make σ).eval x = σ ^ 2 := by
  have hv : (σ ^ 2).toNNReal ≠ 0 := by
    rw [ne_eq, Real.toNNReal_eq_zero, not_le]; positivity
  have key : ∀ f : ℝ → ℝ, ∫ x, f x * (NormalLikelihood.make σ).eval x =
      ∫ x, f x ∂ProbabilityTheory.gaussianReal 0 (σ ^ 2).toNNReal := fun f => by
    rw [ProbabilityTheory.integral_gaussianReal_eq_integral_smul hv]
    exact integral_congr_ae (Filter.Eventually.of_forall fun x => by
      simp only [smul_eq_mul, eval_eq_pdf σ x hσ, mul_comm])
  refine ⟨?_, ?_⟩
  · rw [key fun x => x, ProbabilityTheory.integral_id_gaussianReal]
  · rw [key fun x => x ^ 2]
    have := ProbabilityTheory.variance_fun_id_gaussianReal (μ := 0) (v := (σ ^ 2).toNNReal)
    rw [ProbabilityTheory.variance_eq_integral measurable_id'.aemeasurable] at this
    simp only [ProbabilityTheory.integral_id_gaussianReal, sub_zero, Real.coe_toNNReal _ (sq_nonneg σ)] at this
    exact this

/-- The standard Gaussian integral over `n` variables. -/
theorem integral_standard (n : ℕ) :
    ∫ y : Fin n → ℝ, Real.exp (-(1 / 2) * (y ⬝ᵥ y)) = (2 * Real.pi) ^ ((1 / 2 : ℝ) * n) := by
  have h : ∀ y : Fin n → ℝ, Real.exp (-(1 / 2) * (y ⬝ᵥ y)) = ∏ i, Real.exp (-(1 / 2) * y i ^ 2) := fun y => by
    rw [← Real.exp_sum, dotProduct, Finset.mul_sum]
    congr 1
    exact Finset.sum_congr rfl fun i _ => by ring
  simp_rw [h]
  rw [integral_fintype_prod_volume_eq_pow (fun x : ℝ => Real.exp (-(1 / 2) * x ^ 2)), integral_gaussian]
  have : Real.pi / (1 / 2) = 2 * Real.pi := by ring
  rw [this, Fintype.card_fin, Real.sqrt_eq_rpow, ← Real.rpow_natCast, ← Real.rpow_mul (by positivity)]

open scoped MatrixOrder in
/-- A positive semidefinite matrix is `Bᵀ B`. -/
theorem exists_factor {n : ℕ} {A : Matrix (Fin n) (Fin n) ℝ} (h : A.PosSemidef) :
    ∃ B : Matrix (Fin n) (Fin n) ℝ, A = B.conjTranspose * B := by
  obtain ⟨B, hB⟩ := CStarAlgebra.nonneg_iff_eq_star_mul_self.mp h.nonneg
  exact ⟨B, hB⟩

/-- The exponent in terms of a factor of the inverse covariance. -/
theorem eval_factor {n : ℕ} (sigma : Matrix (Fin n) (Fin n) ℝ) (h : sigma.PosDef) :
    ∃ B : Matrix (Fin n) (Fin n) ℝ, B.det ≠ 0 ∧ sigma⁻¹ = B.conjTranspose * B ∧
      ∀ x, (NormalLikelihoodNd.make sigma).eval x =
        1 / ((2 * Real.pi) ^ ((1 / 2 : ℝ) * n) * Real.sqrt sigma.det) *
          Real.exp (-(1 / 2) * (Matrix.toLin' B x ⬝ᵥ Matrix.toLin' B x)) := by
  obtain ⟨B, hB⟩ := exists_factor h.inv.posSemidef
  refine ⟨B, fun h0 => ?_, hB, fun x => ?_⟩
  · have := congrArg Matrix.det hB
    rw [Matrix.det_mul, h0, mul_zero] at this
    exact h.inv.det_pos.ne' this
  · simp only [NormalLikelihoodNd.eval, NormalLikelihoodNd.make]
    congr 2
    rw [hB, show (fun i => -(1 / 2) * x i) = (-(1 / 2 : ℝ)) • x from rfl, Matrix.smul_vecMul, smul_dotProduct,
      smul_eq_mul]
    congr 1
    rw [Matrix.toLin'_apply, ← Matrix.vecMul_vecMul, Matrix.conjTranspose_eq_transpose_of_trivial,
      Matrix.vecMul_transpose, ← Matrix.dotProduct_mulVec]

theorem sqrt_det_factor {n : ℕ} {sigma B : Matrix (Fin n) (Fin n) ℝ}
    (hB : sigma⁻¹ = B.conjTranspose * B) : Real.sqrt sigma.det = |B.det|⁻¹ := by
  have hBdet : B.det * B.det = sigma.det⁻¹ := by
    have := congrArg Matrix.det hB
    rw [Matrix.det_mul, Matrix.det_conjTranspose, Matrix.det_nonsing_inv, Ring.inverse_eq_inv] at this
    simpa using this.symm
  have : sigma.det = (|B.det|⁻¹) ^ 2 := by
    rw [inv_pow, sq_abs, sq, hBdet, inv_inv]
  rw [this, Real.sqrt_sq (by positivity)]

/-- The change of variables. -/
theorem integral_comp_factor {n : ℕ} {B : Matrix (Fin n) (Fin n) ℝ} (hB0 : B.det ≠ 0) (G : (Fin n → ℝ) → ℝ)
    (hG : Continuous G) : ∫ x, G (Matrix.toLin' B x) = |B.det|⁻¹ * ∫ y, G y := by
  rw [← integral_map (μ := volume) (φ := fun x => Matrix.toLin' B x) (f := G)
    (LinearMap.continuous_of_finiteDimensional _).aemeasurable hG.aestronglyMeasurable]
  rw [show (fun x => Matrix.toLin' B x) = ⇑(Matrix.toLin' B) from rfl,
    Real.map_matrix_volume_pi_eq_smul_volume_pi hB0, integral_smul_measure,
    ENNReal.toReal_ofReal (abs_nonneg _), abs_inv, smul_eq_mul]

/-- C143: so does the one of several variables, for every positive definite covariance. -/
theorem C143_multivariate {n : ℕ} (sigma : Matrix (Fin n) (Fin n) ℝ) (h : sigma.PosDef) :
    ∫ x, (NormalLikelihoodNd.make sigma).eval x = 1 := by
  obtain ⟨B, hB0, hs, he⟩ := eval_factor sigma h
  simp_rw [he]
  rw [integral_const_mul, integral_comp_factor hB0 (fun y : Fin n → ℝ => Real.exp (-(1 / 2) * (y ⬝ᵥ y)))
    (by unfold dotProduct; fun_prop), integral_standard, sqrt_det_factor hs]
  have : 0 < |B.det| := abs_pos.2 hB0
  have : 0 < (2 * Real.pi) ^ ((1 / 2 : ℝ) * n) := by positivity
  field_simp

/-- The second moments of the standard Gaussian of `n` variables. -/
theorem standard_moments (n : ℕ) (k l : Fin n) :
    Integrable (fun y : Fin n → ℝ => y k * y l * Real.exp (-(1 / 2) * (y ⬝ᵥ y))) ∧
    ∫ y : Fin n → ℝ, y k * y l * Real.exp (-(1 / 2) * (y ⬝ᵥ y)) =
      (if k = l then 1 else 0) * (2 * Real.pi) ^ ((1 / 2 : ℝ) * n) := by
  let g : Fin n → ℝ → ℝ := fun m x =>
    (if m = k then x else 1) * (if m = l then x else 1) * Real.exp (-(1 / 2) * x ^ 2)
  have h : (fun y : Fin n → ℝ => y k * y l * Real.exp (-(1 / 2) * (y ⬝ᵥ y))) = fun y => ∏ i, g i (y i) := by
    funext y
    simp only [g, Finset.prod_mul_distrib, Finset.prod_ite_eq', Finset.mem_univ, if_true]
    rw [← Real.exp_sum, dotProduct, Finset.mul_sum]
    congr 2
    exact Finset.sum_congr rfl fun i _ => by ring
  have e0 : Integrable fun x : ℝ => Real.exp (-(1 / 2) * x ^ 2) := integrable_exp_neg_mul_sq (by norm_num)
  have e1 : Integrable fun x : ℝ => x * Real.exp (-(1 / 2) * x ^ 2) := integrable_mul_exp_neg_mul_sq (by norm_num)
  have e2 : Integrable fun x : ℝ => x ^ 2 * Real.exp (-(1 / 2) * x ^ 2) := by
    have := integrable_rpow_mul_exp_neg_mul_sq (b := 1 / 2) (by norm_num) (s := 2) (by norm_num)
    refine this.congr (Filter.Eventually.of_forall fun x => ?_)
    simp only [Real.rpow_two]
  have i0 : ∫ x : ℝ, Real.exp (-(1 / 2) * x ^ 2) = Real.sqrt (2 * Real.pi) := by
    rw [integral_gaussian]; congr 1; ring
  obtain ⟨m1, m2⟩ := C143_moments 1 one_ne_zero
  have c : ∀ x : ℝ, (NormalLikelihood.make (1:ℝ)).eval x = 1 / Real.sqrt (2 * Real.pi) * Real.exp (-(1 / 2) * x ^ 2) :=
    fun x => by
      rw [NormalLikelihood.C80_density 1 x one_ne_zero]
      norm_num
      left; ring
  have hp : 0 < Real.sqrt (2 * Real.pi) := Real.sqrt_pos.2 (by positivity)
  have i1 : ∫ x : ℝ, x * Real.exp (-(1 / 2) * x ^ 2) = 0 := by
    have : (fun x : ℝ => x * (NormalLikelihood.make (1:ℝ)).eval x) =
        fun x => 1 / Real.sqrt (2 * Real.pi) * (x * Real.exp (-(1 / 2) * x ^ 2)) := by
      funext x; rw [c x]; ring
    rw [this, integral_const_mul] at m1
    rcases mul_eq_zero.1 m1 with h | h
    · exact absurd h (by positivity)
    · exact h
  have i2 : ∫ x : ℝ, x ^ 2 * Real.exp (-(1 / 2) * x ^ 2) = Real.sqrt (2 * Real.pi) := by
    have : (fun x : ℝ => x ^ 2 * (NormalLikelihood.make (1:ℝ)).eval x) =
        fun x => 1 / Real.sqrt (2 * Real.pi) * (x ^ 2 * Real.exp (-(1 / 2) * x ^ 2)) := by
      funext x; rw [c x]; ring
    rw [this, integral_const_mul] at m2
    rw [div_mul_eq_mul_div, one_mul, div_eq_iff hp.ne'] at m2
    rw [m2]; ring
  have gi : ∀ m, Integrable (g m) := fun m => by
    by_cases hk : m = k <;> by_cases hl : m = l
    · refine e2.congr (Filter.Eventually.of_forall fun x => ?_)
      simp only [g, if_pos hk, if_pos hl, sq]
    · simpa only [g, if_pos hk, if_neg hl, mul_one] using e1
    · simpa only [g, if_neg hk, if_pos hl, one_mul] using e1
    · simpa only [g, if_neg hk, if_neg hl, one_mul] using e0
  refine ⟨by rw [h]; exact Integrable.fintype_prod gi, ?_⟩
  rw [h, integral_fintype_prod_volume_eq_prod g]
  by_cases hkl : k = l
  · rw [if_pos hkl, one_mul]
    have : ∀ m, ∫ x, g m x = Real.sqrt (2 * Real.pi) := fun m => by
      by_cases hk : m = k
      · simp only [g, if_pos hk, if_pos (hk.trans hkl), ← sq]; exact i2
      · simp only [g, if_neg hk, if_neg (fun e : m = l => hk (e.trans hkl.symm)), one_mul]; exact i0
    rw [Finset.prod_congr rfl fun m _ => this m, Finset.prod_const, Finset.card_univ, Fintype.card_fin,
      Real.sqrt_eq_rpow, ← Real.rpow_natCast, ← Real.rpow_mul (by positivity)]
  · rw [if_neg hkl, zero_mul]
    refine Finset.prod_eq_zero (Finset.mem_univ k) ?_
    simp only [g, if_neg hkl, mul_one, if_true]; exact i1

/-- C143: the matrix is the covariance. -/
theorem C143_covariance {n : ℕ} (sigma : Matrix (Fin n) (Fin n) ℝ) (h : sigma.PosDef) (i j : Fin n) :
    ∫ x : Fin n → ℝ, x i * x j * (NormalLikelihoodNd.make sigma).eval x = sigma i j := by
  obtain ⟨B, hB0, hs, he⟩ := eval_factor sigma h
  have hu : IsUnit B.det := isUnit_iff_ne_zero.2 hB0
  let N : ℝ := (2 * Real.pi) ^ ((1 / 2 : ℝ) * n)
  have hN : 0 < N := by positivity
  have hx : ∀ x : Fin n → ℝ, x = B⁻¹.mulVec (Matrix.toLin' B x) := fun x => by
    rw [Matrix.toLin'_apply, Matrix.mulVec_mulVec, Matrix.nonsing_inv_mul _ hu, Matrix.one_mulVec]
  let G : (Fin n → ℝ) → ℝ := fun y => B⁻¹.mulVec y i * B⁻¹.mulVec y j * Real.exp (-(1 / 2) * (y ⬝ᵥ y))
  have hG : ∀ x : Fin n → ℝ, x i * x j * (NormalLikelihoodNd.make sigma).eval x =
      1 / (N * Real.sqrt sigma.det) * G (Matrix.toLin' B x) := fun x => by
    simp only [G, ← hx x, he x, N]; ring
  have hcont : Continuous G := by
    simp only [G, Matrix.mulVec]; unfold dotProduct; fun_prop
  simp_rw [hG]
  rw [integral_const_mul]
  have hGs : ∫ y, G y = N * sigma i j := by
    have hexp : G = fun y => ∑ k, ∑ l, B⁻¹ i k * B⁻¹ j l * (y k * y l * Real.exp (-(1 / 2) * (y ⬝ᵥ y))) := by
      funext y
      simp only [G, Matrix.mulVec]
      rw [dotProduct, dotProduct, Finset.sum_mul_sum, Finset.sum_mul]
      refine Finset.sum_congr rfl fun k _ => ?_
      rw [Finset.sum_mul]
      exact Finset.sum_congr rfl fun l _ => by ring
    rw [hexp, integral_finsetSum _ fun k _ => integrable_finsetSum _ fun l _ =>
      ((standard_moments n k l).1.const_mul _)]
    have : ∀ k, ∫ y : Fin n → ℝ, ∑ l, B⁻¹ i k * B⁻¹ j l * (y k * y l * Real.exp (-(1 / 2) * (y ⬝ᵥ y))) =
        N * (B⁻¹ i k * B⁻¹ j k) := fun k => by
      rw [integral_finsetSum _ fun l _ => ((standard_moments n k l).1.const_mul _)]
      simp_rw [integral_const_mul, (standard_moments n k _).2]
      rw [Finset.sum_eq_single k]
      · rw [if_pos rfl]; simp only [N]; ring
      · intro l _ hl; rw [if_neg (Ne.symm hl)]; ring
      · intro hk; exact absurd (Finset.mem_univ k) hk
    simp_rw [this]
    rw [← Finset.mul_sum]
    congr 1
    have hsig : sigma = B⁻¹ * (B⁻¹).transpose := by
      rw [← Matrix.nonsing_inv_nonsing_inv sigma (isUnit_iff_ne_zero.2 h.det_pos.ne'), hs,
        Matrix.conjTranspose_eq_transpose_of_trivial, Matrix.mul_inv_rev, Matrix.transpose_nonsing_inv]
    conv_rhs => rw [hsig]
    simp only [Matrix.mul_apply, Matrix.transpose_apply]
  rw [integral_comp_factor hB0 G hcont, hGs, sqrt_det_factor hs]
  have : 0 < |B.det| := abs_pos.2 hB0
  field_simp

/-- A correlated covariance. -/
noncomputable def exampleCov : Matrix (Fin 2) (Fin 2) ℝ := !![2, 1; 1, 2]

theorem exampleCov_posDef : exampleCov.PosDef := by
  refine Matrix.PosDef.of_dotProduct_mulVec_pos ?_ fun x hx => ?_
  · ext i j; fin_cases i <;> fin_cases j <;> simp [exampleCov]
  · have : 0 < x 0 ^ 2 + x 1 ^ 2 := by
      by_contra h0
      have h1 : x 0 = 0 := by nlinarith [sq_nonneg (x 0), sq_nonneg (x 1)]
      have h2 : x 1 = 0 := by nlinarith [sq_nonneg (x 0), sq_nonneg (x 1)]
      exact hx (by funext i; fin_cases i <;> simp [h1, h2])
    simp [exampleCov, Matrix.mulVec, dotProduct, Fin.sum_univ_two]
    nlinarith [sq_nonneg (x 0 + x 1)]

example : ∫ x, (NormalLikelihoodNd.make exampleCov).eval x = 1 := C143_multivariate _ exampleCov_posDef
example : ∫ x : Fin 2 → ℝ, x 0 * x 1 * (NormalLikelihoodNd.make exampleCov).eval x = 1 := by
  rw [C143_covariance _ exampleCov_posDef]; simp [exampleCov]

end Mcl3dl
