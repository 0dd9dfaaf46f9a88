import Verif.Proofs.NoiseLaw

/-! # The law of a linear combination of independent normal numbers -/

namespace Mcl3dl
namespace Node

open MeasureTheory ProbabilityTheory

/-- A linear combination of numbers of the stream is normally distributed. -/
theorem linear_law {ι : Type} [Fintype ι] {f : ι → ℕ} (hf : Function.Injective f) (m : ℝ) (c : ι → ℝ) {v : ℝ}
    (hv : v = ∑ i, c i ^ 2) :
    normalStream.map (fun ω => m + ∑ i, c i * ω (f i)) =
      gaussianReal m (NNReal.mk v (hv ▸ Finset.sum_nonneg fun _ _ => sq_nonneg _)) := by
  classical
  subst hv
  have h1 := Measure.map_infinitePi_infinitePi_of_inj (P := fun _ : ℕ => gaussianReal 0 1) hf
  simp only [Measure.infinitePi_eq_pi] at h1
  have key : ∀ s : Finset ι, (Measure.pi fun _ : ι => gaussianReal 0 1).map (∑ i ∈ s, fun x : ι → ℝ => c i * x i) =
      gaussianReal 0 (NNReal.mk (∑ i ∈ s, c i ^ 2) (Finset.sum_nonneg fun _ _ => sq_nonneg _)) := by
    intro s
    have hind : iIndepFun (fun i (x : ι → ℝ) => c i * x i) (Measure.pi fun _ : ι => gaussianReal 0 1) :=
      iIndepFun_pi (X := fun i z => c i * z) fun i => by fun_prop
    induction s using Finset.induction_on with
    | empty =>
      simp only [Finset.sum_empty]
      have : (0 : (ι → ℝ) → ℝ) = fun _ => 0 := rfl
      rw [this, Measure.map_const, measure_univ, one_smul]
      exact (gaussianReal_zero_var 0).symm
    | insert i s hi ih =>
      rw [Finset.sum_insert hi]
      have hi1 : IndepFun (fun x : ι → ℝ => c i * x i) (∑ j ∈ s, fun x : ι → ℝ => c j * x j) (Measure.pi fun _ : ι => gaussianReal 0 1) :=
        (hind.indepFun_finsetSum_of_notMem (fun j => by fun_prop) hi).symm
      have hm : (Measure.pi fun _ : ι => gaussianReal 0 1).map (fun x : ι → ℝ => c i * x i) =
          gaussianReal 0 (NNReal.mk (c i ^ 2) (sq_nonneg _)) := by
        have e : (fun x : ι → ℝ => c i * x i) = (c i * ·) ∘ fun x => x i := rfl
        rw [e, ← Measure.map_map (by fun_prop) (by fun_prop), (measurePreserving_eval (fun _ : ι => gaussianReal 0 1) i).map_eq,
          gaussianReal_map_const_mul]
        simp
      rw [gaussianReal_add_gaussianReal_of_indepFun hi1 hm ih, add_zero]
      congr 1
      ext
      simp [Finset.sum_insert hi]
  have e : (fun ω : ℕ → ℝ => m + ∑ i, c i * ω (f i)) = (m + ·) ∘ ((∑ i ∈ Finset.univ, fun x : ι → ℝ => c i * x i) ∘ fun ω i => ω (f i)) := by
    funext ω
    simp [Finset.sum_apply]
  have hmeas : Measurable (∑ i ∈ (Finset.univ : Finset ι), fun x : ι → ℝ => c i * x i) := by fun_prop
  rw [e, ← Measure.map_map (by fun_prop) (by fun_prop), ← Measure.map_map hmeas (by fun_prop)]
  have h2 : normalStream.map (fun ω (i : ι) => ω (f i)) = Measure.pi fun _ : ι => gaussianReal 0 1 := h1
  rw [h2, key, gaussianReal_map_const_add, zero_add]

end Node
end Mcl3dl
