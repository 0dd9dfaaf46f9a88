import Verif.Model.MultiNoise
import Verif.Model.XR
import Mathlib.LinearAlgebra.Matrix.NonsingularInverse
import Mathlib.MeasureTheory.Integral.Bochner.Basic
import Mathlib.Probability.Distributions.Uniform
import Mathlib.Analysis.Matrix.Spectrum
import Mathlib.Tactic

/-!
# C109: multivariate noise has the requested mean and covariance
-/

set_option linter.unusedSectionVars false

namespace Mcl3dl
namespace MultiNoise
open MeasureTheory

theorem foldl_sum {α : Type*} (f : α → ℝ) (l : List α) : ∀ a : ℝ, l.foldl (fun a j => a + f j) a = a + (l.map f).sum := by
  induction l with
  | nil => intro a; simp
  | cons x l ih => intro a; simp only [List.foldl_cons, ih, List.map_cons, List.sum_cons]; ring

theorem matVec_eq {n : ℕ} (t : Fin n → Fin n → ℝ) (z : Fin n → ℝ) (i : Fin n) : matVec t z i = ∑ j, t i j * z j := by
  unfold matVec
  rw [foldl_sum (fun j => t i j * z j)]
  rw [zero_add, ← List.ofFn_eq_map, List.sum_ofFn]

/-- The transform is a square root of the symmetric matrix, if no eigenvalue is negative. -/
theorem transform_sq {n : ℕ} {A : Fin n → Fin n → ℝ} {vals : Fin n → ℝ} {vecs : Fin n → Fin n → ℝ}
    (h : Solved A vals vecs) (hv : ∀ j, 0 ≤ vals j) (i j : Fin n) :
    ∑ k, normTransform vals vecs i k * normTransform vals vecs j k = lowerSym A i j := by
  have e : ∀ k, normTransform vals vecs i k * normTransform vals vecs j k = (∑ l, lowerSym A i l * vecs l k) * vecs j k := by
    intro k
    rw [h.eigen]
    simp only [normTransform, Transc.sqrt_real]
    have := Real.mul_self_sqrt (hv k)
    linear_combination (vecs i k * vecs j k) * this
  simp only [e]
  have horth : (Matrix.of vecs).transpose * Matrix.of vecs = 1 := by
    ext a b
    rw [Matrix.mul_apply, Matrix.one_apply]
    simpa [Matrix.transpose_apply] using h.orthonormal a b
  have horth' : Matrix.of vecs * (Matrix.of vecs).transpose = 1 := mul_eq_one_comm.1 horth
  have hrow : ∀ l, ∑ k, vecs l k * vecs j k = if l = j then 1 else 0 := by
    intro l
    have := congrFun (congrFun horth' l) j
    rw [Matrix.mul_apply, Matrix.one_apply] at this
    simpa [Matrix.transpose_apply] using this
  calc ∑ k, (∑ l, lowerSym A i l * vecs l k) * vecs j k
      = ∑ l, ∑ k, lowerSym A i l * vecs l k * vecs j k := by
        rw [Finset.sum_comm]; exact Finset.sum_congr rfl fun k _ => Finset.sum_mul _ _ _
    _ = ∑ l, lowerSym A i l * (∑ k, vecs l k * vecs j k) := by
        refine Finset.sum_congr rfl fun l _ => ?_
        rw [Finset.mul_sum]; exact Finset.sum_congr rfl fun k _ => by ring
    _ = lowerSym A i j := by simp [hrow]

/-- The eigenvalues of a positive semidefinite matrix are not negative. -/
theorem vals_nonneg {n : ℕ} {A : Fin n → Fin n → ℝ} {vals : Fin n → ℝ} {vecs : Fin n → Fin n → ℝ}
    (h : Solved A vals vecs) (hpsd : ∀ u : Fin n → ℝ, 0 ≤ ∑ i, ∑ j, u i * lowerSym A i j * u j) (j : Fin n) :
    0 ≤ vals j := by
  have h1 := hpsd fun i => vecs i j
  have h2 : ∑ i, ∑ k, vecs i j * lowerSym A i k * vecs k j = vals j := by
    calc _ = ∑ i, vecs i j * (∑ k, lowerSym A i k * vecs k j) := by
          refine Finset.sum_congr rfl fun i _ => ?_
          rw [Finset.mul_sum]; exact Finset.sum_congr rfl fun k _ => by ring
      _ = vals j * ∑ i, vecs i j * vecs i j := by
          rw [Finset.mul_sum]; refine Finset.sum_congr rfl fun i _ => ?_
          rw [h.eigen]; ring
      _ = vals j := by rw [h.orthonormal, if_pos rfl, mul_one]
  rw [h2] at h1; exact h1

/-- The noise has the mean and the covariance given by the lower triangle. -/
theorem lower_covariance {n : ℕ} {Ω : Type} [MeasurableSpace Ω] (μ : Measure Ω) [IsProbabilityMeasure μ]
    (Z : Ω → Fin n → ℝ) (hint : ∀ i, Integrable (fun ω => Z ω i) μ)
    (hint2 : ∀ i j, Integrable (fun ω => Z ω i * Z ω j) μ)
    (hmean : ∀ i, ∫ ω, Z ω i ∂μ = 0) (hcov : ∀ i j, ∫ ω, Z ω i * Z ω j ∂μ = if i = j then 1 else 0)
    (mean : Fin n → ℝ) {A : Fin n → Fin n → ℝ} {vals : Fin n → ℝ} {vecs : Fin n → Fin n → ℝ}
    (hpsd : ∀ u : Fin n → ℝ, 0 ≤ ∑ i, ∑ j, u i * lowerSym A i j * u j) (h : Solved A vals vecs) :
    let X := fun ω => noise mean (normTransform vals vecs) (Z ω)
    (∀ i, ∫ ω, X ω i ∂μ = mean i) ∧
    ∀ i j : Fin n, ∫ ω, (X ω i - mean i) * (X ω j - mean j) ∂μ = lowerSym A i j := by
  intro X
  have hv := vals_nonneg h hpsd
  set T := normTransform vals vecs with hT
  have hX : ∀ ω i, X ω i = mean i + ∑ j, T i j * Z ω j := by
    intro ω i; simp only [X, noise, matVec_eq, hT]
  constructor
  · intro i
    simp only [hX]
    rw [integral_add (integrable_const _) (integrable_finsetSum _ fun j _ => (hint j).const_mul _), integral_const]
    rw [integral_finsetSum _ fun j _ => (hint j).const_mul _]
    simp [integral_const_mul, hmean]
  · intro i j
    have e : ∀ ω, (X ω i - mean i) * (X ω j - mean j) = ∑ k, ∑ l, T i k * T j l * (Z ω k * Z ω l) := by
      intro ω
      rw [hX, hX, add_sub_cancel_left, add_sub_cancel_left, Finset.sum_mul_sum]
      exact Finset.sum_congr rfl fun k _ => Finset.sum_congr rfl fun l _ => by ring
    simp only [e]
    rw [integral_finsetSum _ fun k _ => integrable_finsetSum _ fun l _ => (hint2 k l).const_mul _]
    have e2 : ∀ k, ∫ ω, ∑ l, T i k * T j l * (Z ω k * Z ω l) ∂μ = T i k * T j k := by
      intro k
      rw [integral_finsetSum _ fun l _ => (hint2 k l).const_mul _]
      simp [integral_const_mul, hcov]
    simp only [e2]
    rw [hT, transform_sq h hv]

/-- The symmetric matrix of the quadratic form in the message, read row by row: below and on the
diagonal the entries sent, above it the mirrored ones. -/
def mirrored (n : ℕ) (cov : ℕ → ℝ) (i j : Fin n) : ℝ := cov (min i.val j.val + max i.val j.val * n)

theorem lowerSym_mirrored {n : ℕ} (cov : ℕ → ℝ) (i j : Fin n) : lowerSym (covMatrix cov) i j = mirrored n cov i j := by
  simp only [lowerSym, covMatrix, mirrored, Fin.le_def]
  split_ifs with h
  · rw [min_eq_right h, max_eq_left h]
  · push Not at h
    rw [min_eq_left h.le, max_eq_right h.le]

/-- C109: let `Z` be the vector of standard normal draws, seen as a random vector: mean 0, covariance
the identity.  For every symmetric positive semidefinite covariance and every mean, and whatever
eigenvectors the solver picks, the generated noise has exactly the requested mean and covariance. -/
theorem C109_mean_covariance {n : ℕ} {Ω : Type} [MeasurableSpace Ω] (μ : Measure Ω) [IsProbabilityMeasure μ]
    (Z : Ω → Fin n → ℝ) (hint : ∀ i, Integrable (fun ω => Z ω i) μ)
    (hint2 : ∀ i j, Integrable (fun ω => Z ω i * Z ω j) μ)
    (hmean : ∀ i, ∫ ω, Z ω i ∂μ = 0) (hcov : ∀ i j, ∫ ω, Z ω i * Z ω j ∂μ = if i = j then 1 else 0)
    (mean : Fin n → ℝ) (cov : ℕ → ℝ) {vals : Fin n → ℝ} {vecs : Fin n → Fin n → ℝ}
    (hsym : ∀ i j : Fin n, cov (j + i * n) = cov (i + j * n))
    (hpsd : ∀ u : Fin n → ℝ, 0 ≤ ∑ i : Fin n, ∑ j : Fin n, u i * cov (j + i * n) * u j)
    (h : Solved (covMatrix cov) vals vecs) :
    let X := fun ω => noise mean (normTransform vals vecs) (Z ω)
    (∀ i, ∫ ω, X ω i ∂μ = mean i) ∧
    ∀ i j : Fin n, ∫ ω, (X ω i - mean i) * (X ω j - mean j) ∂μ = cov (j + i * n) := by
  intro X
  have hls : ∀ i j : Fin n, lowerSym (covMatrix cov) i j = cov (j + i * n) := by
    intro i j
    simp only [lowerSym, covMatrix]
    split_ifs
    · rfl
    · exact hsym j i
  have := lower_covariance μ Z hint hint2 hmean hcov mean (by intro u; simpa only [hls] using hpsd u) h
  simpa only [hls] using this

/-- C109: if the entries sent are not symmetric, those above the diagonal are ignored: the generated
noise has the covariance made of the others. -/
theorem C109_not_symmetric {n : ℕ} {Ω : Type} [MeasurableSpace Ω] (μ : Measure Ω) [IsProbabilityMeasure μ]
    (Z : Ω → Fin n → ℝ) (hint : ∀ i, Integrable (fun ω => Z ω i) μ)
    (hint2 : ∀ i j, Integrable (fun ω => Z ω i * Z ω j) μ)
    (hmean : ∀ i, ∫ ω, Z ω i ∂μ = 0) (hcov : ∀ i j, ∫ ω, Z ω i * Z ω j ∂μ = if i = j then 1 else 0)
    (mean : Fin n → ℝ) (cov : ℕ → ℝ) {vals : Fin n → ℝ} {vecs : Fin n → Fin n → ℝ}
    (hpsd : ∀ u : Fin n → ℝ, 0 ≤ ∑ i, ∑ j, u i * mirrored n cov i j * u j)
    (h : Solved (covMatrix cov) vals vecs) :
    let X := fun ω => noise mean (normTransform vals vecs) (Z ω)
    (∀ i, ∫ ω, X ω i ∂μ = mean i) ∧
    ∀ i j : Fin n, ∫ ω, (X ω i - mean i) * (X ω j - mean j) ∂μ = mirrored n cov i j := by
  intro X
  have := lower_covariance μ Z hint hint2 hmean hcov mean
    (by intro u; simpa only [lowerSym_mirrored] using hpsd u) h
  simpa only [lowerSym_mirrored] using this

/-- A negative eigenvalue makes every component NaN. -/
theorem noise_nan {n : ℕ} (mean : Fin n → XR) (vals : Fin n → XR) (vecs : Fin n → Fin n → XR) (z : Fin n → XR)
    (j : Fin n) (r : ℝ) (hr : r < 0) (hj : vals j = .fin r) (i : Fin n) :
    noise mean (normTransform vals vecs) z i = XR.nan := by
  have ht : normTransform vals vecs i j = XR.nan := by
    simp only [normTransform, hj, XR.transc_sqrt, XR.sqrt_neg r hr]; exact XR.mul_nan _
  have key : ∀ (l : List (Fin n)) (a : XR), (a = XR.nan ∨ j ∈ l) →
      l.foldl (fun a k => a + normTransform vals vecs i k * z k) a = XR.nan := by
    intro l
    induction l with
    | nil => intro a ha; simpa using ha
    | cons k l ih =>
      intro a ha
      rw [List.foldl_cons]
      apply ih
      rcases ha with ha | ha
      · left; rw [ha]; exact XR.nan_add _
      · rcases List.mem_cons.1 ha with ha | ha
        · left; subst ha; rw [ht, XR.nan_mul]; exact XR.add_nan _
        · right; exact ha
  unfold noise matVec
  rw [key _ _ (Or.inr (List.mem_finRange j))]
  exact XR.add_nan _

/-- A matrix whose eigenvalues are not negative is positive semidefinite. -/
theorem psd_of_vals {n : ℕ} {A : Fin n → Fin n → ℝ} {vals : Fin n → ℝ} {vecs : Fin n → Fin n → ℝ}
    (h : Solved A vals vecs) (hv : ∀ j, 0 ≤ vals j) (u : Fin n → ℝ) : 0 ≤ ∑ i, ∑ j, u i * lowerSym A i j * u j := by
  have e : ∑ i, ∑ j, u i * lowerSym A i j * u j = ∑ k, (∑ i, u i * normTransform vals vecs i k) ^ 2 := by
    simp only [← transform_sq h hv]
    calc _ = ∑ i, ∑ j, ∑ k, u i * normTransform vals vecs i k * (u j * normTransform vals vecs j k) := by
          refine Finset.sum_congr rfl fun i _ => Finset.sum_congr rfl fun j _ => ?_
          rw [Finset.mul_sum, Finset.sum_mul]
          exact Finset.sum_congr rfl fun k _ => by ring
      _ = ∑ i, ∑ k, ∑ j, u i * normTransform vals vecs i k * (u j * normTransform vals vecs j k) :=
          Finset.sum_congr rfl fun i _ => Finset.sum_comm
      _ = ∑ k, ∑ i, ∑ j, u i * normTransform vals vecs i k * (u j * normTransform vals vecs j k) := Finset.sum_comm
      _ = _ := by
          refine Finset.sum_congr rfl fun k _ => ?_
          rw [sq, Finset.sum_mul_sum]
  rw [e]
  exact Finset.sum_nonneg fun k _ => sq_nonneg _

/-- C109: if the covariance sent is not positive semidefinite, every component of every generated state
is NaN, whatever the mean and the draws. -/
theorem C109_not_psd_nan {n : ℕ} (mean : Fin n → XR) (cov : ℕ → ℝ) {vals : Fin n → ℝ} {vecs : Fin n → Fin n → ℝ}
    (h : Solved (covMatrix cov) vals vecs) {u : Fin n → ℝ} (hu : ∑ i, ∑ j, u i * mirrored n cov i j * u j < 0)
    (z : Fin n → XR) (i : Fin n) :
    noise mean (normTransform (fun j => .fin (vals j)) fun i j => .fin (vecs i j)) z i = XR.nan := by
  have : ∃ j, vals j < 0 := by
    by_contra hn
    push Not at hn
    have := psd_of_vals h hn u
    simp only [lowerSym_mirrored] at this
    exact absurd hu (not_lt.2 this)
  obtain ⟨j, hj⟩ := this
  exact noise_nan mean _ _ z j (vals j) hj rfl i

/-- The contract is met for example by the diagonal covariance with entries 4 and 9. -/
example : Solved (n := 2) (covMatrix fun k => if k = 0 then 4 else if k = 3 then 9 else 0) ![4, 9] !![1, 0; 0, 1] := by
  constructor
  · intro i j; fin_cases i <;> fin_cases j <;> simp [lowerSym, covMatrix]
  · intro i j; fin_cases i <;> fin_cases j <;> simp

/-- A random vector with mean 0 and unit covariance exists (here one dimension, a fair sign). -/
example : ∃ (μ : Measure Bool) (_ : IsProbabilityMeasure μ) (Z : Bool → Fin 1 → ℝ),
    (∀ i, Integrable (fun ω => Z ω i) μ) ∧ (∀ i j, Integrable (fun ω => Z ω i * Z ω j) μ) ∧
    (∀ i, ∫ ω, Z ω i ∂μ = 0) ∧ (∀ i j, ∫ ω, Z ω i * Z ω j ∂μ = if i = j then 1 else 0) := by
  refine ⟨(PMF.uniformOfFintype Bool).toMeasure, inferInstance, fun b _ => if b then 1 else -1, ?_, ?_, ?_, ?_⟩
  · intro i; exact Integrable.of_finite
  · intro i j; exact Integrable.of_finite
  · intro i
    rw [integral_fintype Integrable.of_finite]
    simp [Measure.real]
  · intro i j
    rw [integral_fintype Integrable.of_finite]
    simp [Measure.real, Subsingleton.elim i j]
    norm_num

/-- The contract can be met for every matrix. -/
theorem solved_exists {n : ℕ} (A : Fin n → Fin n → ℝ) : ∃ vals vecs, Solved A vals vecs := by
  have hA : (Matrix.of (lowerSym A)).IsHermitian := by
    ext i j
    simp only [Matrix.conjTranspose_apply, Matrix.of_apply, lowerSym, star_trivial]
    split_ifs with h1 h2 h2
    · rw [le_antisymm h1 h2]
    · rfl
    · rfl
    · exact absurd (le_total i j) (by simp [h1, h2])
  refine ⟨hA.eigenvalues, fun i j => hA.eigenvectorBasis j i, ⟨fun i j => ?_, fun i j => ?_⟩⟩
  · have := congrFun (hA.mulVec_eigenvectorBasis j) i
    simpa [Matrix.mulVec, dotProduct] using this
  · have := orthonormal_iff_ite.1 hA.eigenvectorBasis.orthonormal i j
    rw [PiLp.inner_apply] at this
    simpa [mul_comm] using this

/-- Not positive semidefinite: the covariance with rows (1, 2) and (2, 1), along (1, -1). -/
example : ∃ vals vecs, Solved (n := 2) (covMatrix fun k => if k = 0 ∨ k = 3 then 1 else 2) vals vecs ∧
    ∑ i, ∑ j, (![1, -1] : Fin 2 → ℝ) i * mirrored 2 (fun k => if k = 0 ∨ k = 3 then 1 else 2) i j *
      (![1, -1] : Fin 2 → ℝ) j < 0 := by
  obtain ⟨vals, vecs, h⟩ := solved_exists (n := 2) (covMatrix fun k => if k = 0 ∨ k = 3 then (1 : ℝ) else 2)
  refine ⟨vals, vecs, h, ?_⟩
  simp [Fin.sum_univ_two, mirrored]
  norm_num

/-- Not symmetric: the covariance with rows (4, 5) and (0, 9) counts as the one with rows (4, 0), (0, 9). -/
example : mirrored 2 (fun k => if k = 0 then 4 else if k = 1 then 5 else if k = 3 then 9 else 0) 0 1 = 0 ∧
    ∀ u : Fin 2 → ℝ, 0 ≤ ∑ i, ∑ j, u i *
      mirrored 2 (fun k => if k = 0 then 4 else if k = 1 then 5 else if k = 3 then 9 else 0) i j * u j := by
  constructor
  · simp [mirrored]
  · intro u
    simp [Fin.sum_univ_two, mirrored]
    nlinarith [sq_nonneg (u 0), sq_nonneg (u 1)]

end MultiNoise
end Mcl3dl
