import Verif.Spec.DriveLaw
import Verif.Proofs.NoiseLaw

/-! # Laws of sums of normally distributed numbers -/

namespace Mcl3dl
namespace Node

open MeasureTheory ProbabilityTheory

theorem gaussian_scale (c : ℝ) : (gaussianReal 0 1).map (fun z => c * z) = gaussianReal 0 (NNReal.mk (c ^ 2) (sq_nonneg _)) := by
  have := gaussian_affine 0 c
  simpa using this

theorem gaussian_pair (m c0 c1 : ℝ) :
    (Measure.pi fun _ : Fin 2 => gaussianReal 0 1).map (fun z => m + (c0 * z 0 + c1 * z 1)) =
      gaussianReal m (NNReal.mk (c0 ^ 2 + c1 ^ 2) (by positivity)) := by
  have h1 := (measurePreserving_finTwoArrow (gaussianReal 0 1)).map_eq
  have h2 : ((gaussianReal 0 1).prod (gaussianReal 0 1)).map (Prod.map (fun z => c0 * z) (fun z => c1 * z)) =
      (gaussianReal 0 (NNReal.mk (c0 ^ 2) (sq_nonneg _))).prod (gaussianReal 0 (NNReal.mk (c1 ^ 2) (sq_nonneg _))) := by
    rw [← gaussian_scale, ← gaussian_scale, Measure.map_prod_map _ _ (by fun_prop) (by fun_prop)]
  have h3 := gaussianReal_conv_gaussianReal (m₁ := 0) (m₂ := 0) (v₁ := NNReal.mk (c0 ^ 2) (sq_nonneg _)) (v₂ := NNReal.mk (c1 ^ 2) (sq_nonneg _))
  rw [Measure.conv, ← h2, ← h1, Measure.map_map (by fun_prop) (by fun_prop), Measure.map_map (by fun_prop) (by fun_prop)] at h3
  have h4 := gaussianReal_map_const_add (μ := 0) (v := NNReal.mk (c0 ^ 2 + c1 ^ 2) (by positivity)) m
  have e : (NNReal.mk (c0 ^ 2) (sq_nonneg _) : NNReal) + NNReal.mk (c1 ^ 2) (sq_nonneg _) = NNReal.mk (c0 ^ 2 + c1 ^ 2) (by positivity) := rfl
  rw [e, add_zero] at h3
  rw [zero_add] at h4
  replace h3 : (Measure.pi fun _ : Fin 2 => gaussianReal 0 1).map (fun z => c0 * z 0 + c1 * z 1) = _ := h3
  rw [← h3, Measure.map_map (by fun_prop) (by fun_prop)] at h4
  exact h4

theorem stream_blocks {N : ℕ} {f : Fin N × (Fin 2 × Fin 2) → ℕ} (hf : Function.Injective f) :
    normalStream.map (fun ω (k : Fin N) (a b : Fin 2) => ω (f (k, (a, b)))) =
      Measure.pi fun _ : Fin N => Measure.pi fun _ : Fin 2 => Measure.pi fun _ : Fin 2 => gaussianReal 0 1 := by
  have h1 := Measure.map_infinitePi_infinitePi_of_inj (P := fun _ : ℕ => gaussianReal 0 1) hf
  have h2 := Measure.infinitePi_map_curry (fun (_ : Fin N) (_ : Fin 2 × Fin 2) => gaussianReal 0 1)
  have h3 := Measure.infinitePi_map_curry (fun (_ : Fin 2) (_ : Fin 2) => gaussianReal 0 1)
  rw [← h1, Measure.map_map (by fun_prop) (by fun_prop)] at h2
  simp only [Measure.infinitePi_eq_pi] at h2 h3
  rw [← h3, ← Measure.pi_map_pi (f := fun _ : Fin N => _) (fun _ => by fun_prop), ← h2, Measure.map_map (by fun_prop) (by fun_prop)]
  rfl

theorem drive_blocks {N : ℕ} (m c : Fin 2 → ℝ) (c' : Fin 2 → ℝ) {f : Fin N × (Fin 2 × Fin 2) → ℕ} (hf : Function.Injective f) :
    normalStream.map (fun ω (k : Fin N) (a : Fin 2) => m a + (c a * ω (f (k, (a, 0))) + c' a * ω (f (k, (a, 1))))) =
      Measure.pi fun _ : Fin N => Measure.pi fun a : Fin 2 => gaussianReal (m a) (NNReal.mk (c a ^ 2 + c' a ^ 2) (by positivity)) := by
  have e : (fun (ω : ℕ → ℝ) (k : Fin N) (a : Fin 2) => m a + (c a * ω (f (k, (a, 0))) + c' a * ω (f (k, (a, 1))))) =
      (fun (x : Fin N → Fin 2 → Fin 2 → ℝ) k a => m a + (c a * x k a 0 + c' a * x k a 1)) ∘ fun ω k a b => ω (f (k, (a, b))) := rfl
  rw [e, ← Measure.map_map (by fun_prop) (by fun_prop), stream_blocks hf]
  have h1 : ∀ a, (Measure.pi fun _ : Fin 2 => gaussianReal 0 1).map (fun z => m a + (c a * z 0 + c' a * z 1)) =
      gaussianReal (m a) (NNReal.mk (c a ^ 2 + c' a ^ 2) (by positivity)) := fun a => gaussian_pair _ _ _
  have h2 := Measure.pi_map_pi (μ := fun _ : Fin 2 => Measure.pi fun _ : Fin 2 => gaussianReal 0 1)
    (f := fun a (z : Fin 2 → ℝ) => m a + (c a * z 0 + c' a * z 1)) (fun a => by fun_prop)
  simp only [h1] at h2
  have h3 := Measure.pi_map_pi (μ := fun _ : Fin N => Measure.pi fun _ : Fin 2 => Measure.pi fun _ : Fin 2 => gaussianReal 0 1)
    (f := fun _ (x : Fin 2 → Fin 2 → ℝ) a => m a + (c a * x a 0 + c' a * x a 1)) (fun _ => by fun_prop)
  rw [h2] at h3
  exact h3

theorem prob_drives {N : ℕ} {P : Params} {d a c1 c2 c3 c4 : ℝ} {X : (ℕ → ℝ) → Fin N → ℝ × ℝ}
    (hX : ∀ ω k, X ω k = (d + (c1 * ω (4 * k) + c2 * ω (4 * k + 3)), 0 + (c3 * ω (4 * k + 1) + c4 * ω (4 * k + 2))))
    (h1 : c1 ^ 2 = (P.errLinLin * d) ^ 2) (h2 : c2 ^ 2 = (P.errAngLin * a) ^ 2) (h3 : c3 ^ 2 = (P.errLinAng * d) ^ 2)
    (h4 : c4 ^ 2 = (P.errAngAng * a) ^ 2)
    {A : ℕ → Set (ℝ × ℝ)} (hA : ∀ k, MeasurableSet (A k)) :
    normalStream.real {ω | ∀ k : Fin N, X ω k ∈ A k} = ∏ k ∈ Finset.range N, (driveLaw P d a).real (A k) := by
  let f : Fin N × (Fin 2 × Fin 2) → ℕ := fun p => 4 * p.1 + ![![0, 3], ![1, 2]] p.2.1 p.2.2
  have hf : Function.Injective f := by
    rintro ⟨k, a, b⟩ ⟨k', a', b'⟩ h
    simp only [f] at h
    fin_cases a <;> fin_cases b <;> fin_cases a' <;> fin_cases b' <;> simp at h ⊢ <;> omega
  have hlaw := drive_blocks (m := ![d, 0]) (c := ![c1, c3]) (c' := ![c2, c4]) hf
  set Y : (ℕ → ℝ) → Fin N → Fin 2 → ℝ := fun ω k i => ![d, 0] i + (![c1, c3] i * ω (f (k, (i, 0))) +
    ![c2, c4] i * ω (f (k, (i, 1)))) with hY
  have hm : Measurable Y := by fun_prop
  have hXY : ∀ ω k, X ω k = (Y ω k 0, Y ω k 1) := by
    intro ω k
    rw [hX]
    simp [hY, f]
  have hpm : ∀ k, (Measure.pi fun i : Fin 2 => gaussianReal (![d, 0] i) (NNReal.mk (![c1, c3] i ^ 2 +
      ![c2, c4] i ^ 2) (by positivity))).real {z | (z 0, z 1) ∈ A k} = (driveLaw P d a).real (A k) := by
    intro k
    have hd : driveLaw P d a = (gaussianReal d (NNReal.mk (c1 ^ 2 + c2 ^ 2) (by positivity))).prod
        (gaussianReal 0 (NNReal.mk (c3 ^ 2 + c4 ^ 2) (by positivity))) := by
      simp only [driveLaw, h1, h2, h3, h4]
    rw [hd]
    exact (measurePreserving_piFinTwo fun i : Fin 2 => gaussianReal (![d, 0] i) (NNReal.mk (![c1, c3] i ^ 2 +
      ![c2, c4] i ^ 2) (by positivity))).measureReal_preimage (hA k).nullMeasurableSet
  have e : {ω | ∀ k : Fin N, X ω k ∈ A k} = Y ⁻¹' Set.pi Set.univ fun k : Fin N => {z : Fin 2 → ℝ | (z 0, z 1) ∈ A k} := by
    ext ω; simp [hXY]
  have hA' : ∀ k, MeasurableSet {z : Fin 2 → ℝ | (z 0, z 1) ∈ A k} := fun k =>
    (show Measurable fun z : Fin 2 → ℝ => (z 0, z 1) by fun_prop) (hA k)
  rw [e, ← map_measureReal_apply hm (MeasurableSet.univ_pi fun k => hA' k), hlaw, Measure.real, Measure.pi_pi, ENNReal.toReal_prod,
    Finset.prod_range]
  exact Finset.prod_congr rfl fun k _ => hpm k

end Node
end Mcl3dl
