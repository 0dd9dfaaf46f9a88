import Verif.Spec.NoiseLaw
import Verif.Proofs.NodeNoise
import Mathlib.Probability.Independence.InfinitePi

/-!
# The law of numbers taken from a stream
-/

set_option linter.unusedSectionVars false

namespace Mcl3dl
namespace Node

open MeasureTheory ProbabilityTheory

instance : IsProbabilityMeasure normalStream := by unfold normalStream; infer_instance

instance (m σ : Fin 6 → ℝ) : IsProbabilityMeasure (normal6 m σ) := by unfold normal6; infer_instance

/-- Numbers at different positions are independent. -/
theorem normalStream_block {N : ℕ} {f : Fin N × Fin 6 → ℕ} (hf : Function.Injective f) :
    normalStream.map (fun ω (k : Fin N) (i : Fin 6) => ω (f (k, i))) =
      Measure.pi fun _ : Fin N => Measure.pi fun _ : Fin 6 => gaussianReal 0 1 := by
  have h1 := Measure.map_infinitePi_infinitePi_of_inj (P := fun _ : ℕ => gaussianReal 0 1) hf
  have h2 := Measure.infinitePi_map_curry (fun (_ : Fin N) (_ : Fin 6) => gaussianReal 0 1)
  rw [← h1, Measure.map_map (by fun_prop) (by fun_prop)] at h2
  simp only [Measure.infinitePi_eq_pi] at h2
  exact h2

theorem gaussian_affine (m s : ℝ) : (gaussianReal 0 1).map (fun z => m + s * z) = gaussianReal m (NNReal.mk (s ^ 2) (sq_nonneg _)) := by
  have h : (fun z => m + s * z) = (m + ·) ∘ (s * ·) := rfl
  rw [h, ← Measure.map_map (by fun_prop) (by fun_prop), gaussianReal_map_const_mul, gaussianReal_map_const_add]
  simp

/-- The law of the components of independent noise. -/
theorem diagonal_law {N : ℕ} {m σ : Fin 6 → ℝ} {idx : ℕ → Fin 6 → ℕ} (hf : Fresh σ idx) :
    normalStream.map (fun ω (k : Fin N) (i : Fin 6) => m i + σ i * ω (idx k i)) = Measure.pi fun _ : Fin N => normal6 m σ := by
  classical
  set M := (Finset.univ : Finset (Fin N × Fin 6)).sup (fun p => idx p.1 p.2) + 1 with hM
  have hlt : ∀ p : Fin N × Fin 6, idx p.1 p.2 < M := fun p =>
    Nat.lt_succ_of_le (Finset.le_sup (f := fun p : Fin N × Fin 6 => idx p.1 p.2) (Finset.mem_univ p))
  set f : Fin N × Fin 6 → ℕ := fun p => if σ p.2 = 0 then M + (6 * p.1 + p.2) else idx p.1 p.2 with hfd
  have hinj : Function.Injective f := by
    rintro ⟨k, i⟩ ⟨k', i'⟩ h
    simp only [hfd] at h
    have h1 := hlt (k, i)
    have h2 := hlt (k', i')
    split_ifs at h with ha hb hb
    · refine Prod.ext (Fin.ext ?_) (Fin.ext ?_) <;> simp only <;> omega
    · simp only at h1 h2; omega
    · simp only at h1 h2; omega
    · obtain ⟨e1, e2⟩ := hf _ _ _ _ ha hb h
      exact Prod.ext (Fin.ext e1) e2
  have e : (fun (ω : ℕ → ℝ) (k : Fin N) (i : Fin 6) => m i + σ i * ω (idx k i)) =
      (fun (x : Fin N → Fin 6 → ℝ) k i => m i + σ i * x k i) ∘ fun ω k i => ω (f (k, i)) := by
    funext ω k i
    simp only [Function.comp, hfd]
    split_ifs with h
    · rw [h]; ring
    · rfl
  rw [e, ← Measure.map_map (by fun_prop) (by fun_prop), normalStream_block hinj]
  rw [Measure.pi_map_pi (f := fun _ (x : Fin 6 → ℝ) i => m i + σ i * x i) (fun _ => (measurable_pi_lambda _ fun i => by fun_prop).aemeasurable)]
  congr 1
  funext k
  rw [Measure.pi_map_pi (f := fun i z => m i + σ i * z) (fun _ => by fun_prop), normal6]
  congr 1
  funext i
  exact gaussian_affine _ _

/-- The probability that every block lies in the set given for it. -/
theorem prob_blocks {N : ℕ} {X : (ℕ → ℝ) → Fin N → Fin 6 → ℝ} (hX : Measurable X) {ν : Measure (Fin 6 → ℝ)} [IsProbabilityMeasure ν]
    (h : normalStream.map X = Measure.pi fun _ : Fin N => ν) {A : ℕ → Set (Fin 6 → ℝ)} (hA : ∀ k, MeasurableSet (A k)) :
    normalStream.real {ω | ∀ k : Fin N, X ω k ∈ A k} = ∏ k ∈ Finset.range N, ν.real (A k) := by
  have e : {ω | ∀ k : Fin N, X ω k ∈ A k} = X ⁻¹' Set.pi Set.univ fun k : Fin N => A k := by
    ext ω; simp
  rw [e, ← map_measureReal_apply hX (MeasurableSet.univ_pi fun k => hA k), h, Measure.real, Measure.pi_pi, ENNReal.toReal_prod,
    Finset.prod_range]
  rfl

/-- A linear image of independent standard normal numbers is a multivariate normal vector. -/
theorem multi_law (m : Fin 6 → ℝ) (T S : Matrix (Fin 6) (Fin 6) ℝ) (hTS : T * T.transpose = S) :
    (Measure.pi fun _ : Fin 6 => gaussianReal 0 1).map (fun z => WithLp.toLp 2 fun i => m i + ∑ j, T i j * z j) =
      multivariateGaussian (WithLp.toLp 2 m) S := by
  have hS : S.PosSemidef := by
    rw [← hTS]
    simpa using Matrix.posSemidef_self_mul_conjTranspose T
  have e : (fun z : Fin 6 → ℝ => WithLp.toLp 2 fun i => m i + ∑ j, T i j * z j) =
      (fun x => WithLp.toLp 2 m + Matrix.toEuclideanCLM (𝕜 := ℝ) T x) ∘ WithLp.toLp 2 := by
    funext z
    ext i
    simp [Matrix.mulVec, dotProduct]
  rw [e, ← Measure.map_map (by fun_prop) (by fun_prop), map_pi_eq_stdGaussian]
  have e2 : (fun x => WithLp.toLp 2 m + Matrix.toEuclideanCLM (𝕜 := ℝ) T x) =
    (fun x => WithLp.toLp 2 m + x) ∘ (Matrix.toEuclideanCLM (𝕜 := ℝ) T) := rfl
  rw [e2, ← Measure.map_map (measurable_const_add _) (by fun_prop)]
  apply Measure.ext_of_charFun
  ext t
  rw [charFun_multivariateGaussian hS, charFun_map_const_add]
  set A := Matrix.toEuclideanCLM (𝕜 := ℝ) (n := Fin 6) T with hA
  have h1 : charFun ((stdGaussian (EuclideanSpace ℝ (Fin 6))).map A) t =
      charFun (stdGaussian (EuclideanSpace ℝ (Fin 6))) (ContinuousLinearMap.adjoint A t) := by
    rw [charFun_apply, charFun_apply, integral_map (by fun_prop) (by fun_prop)]
    simp only [ContinuousLinearMap.adjoint_inner_right]
  have h2 : ‖ContinuousLinearMap.adjoint A t‖ ^ 2 = t.ofLp ⬝ᵥ S.mulVec t.ofLp := by
    rw [← real_inner_self_eq_norm_sq, ContinuousLinearMap.adjoint_inner_left, ← ContinuousLinearMap.comp_apply,
      ← ContinuousLinearMap.mul_def, ← ContinuousLinearMap.star_eq_adjoint, hA, ← map_star, ← map_mul, Matrix.star_eq_conjTranspose,
      Matrix.conjTranspose_eq_transpose_of_trivial, hTS, Matrix.inner_toEuclideanCLM]
  rw [h1, charFun_stdGaussian, ← Complex.exp_add, real_inner_comm]
  congr 1
  rw [← Complex.ofReal_pow, h2]
  ring

end Node
end Mcl3dl
