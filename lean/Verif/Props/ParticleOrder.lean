import Verif.Props.PFSelect
import Verif.Props.Estimate

/-! # C153: the order of the particles does not matter -/

set_option linter.unusedSectionVars false

namespace Mcl3dl
namespace PF

variable {S K ι : Type} [Field K] [LinearOrder K] [IsStrictOrderedRing K]

theorem entropyOf_perm (log : K → K) {ps ps' : List (Particle S K)} (h : ps.Perm ps') :
    entropyOf log ps = entropyOf log ps' := by
  unfold entropyOf
  congr 1
  refine h.foldl_eq' (fun p _ q _ e => ?_) 0
  split_ifs <;> ring

theorem weightSum_perm {ps ps' : List (Particle S K)} (h : ps.Perm ps') : weightSum ps = weightSum ps' := by
  unfold weightSum
  exact (h.map _).sum_eq

/-- C153: two filters with the same particles in different order: after a measurement they again have the same particles in
different order, with the same entropy. -/
theorem C153_measure (log : K → K) {f f' : Filter S K} (h : f.particles.Perm f'.particles) (he : f.entropy = f'.entropy)
    (lik : S → K) :
    (f.measure log lik).particles.Perm (f'.measure log lik).particles ∧
    (f.measure log lik).entropy = (f'.measure log lik).entropy := by
  have hw : (weigh lik f.particles).Perm (weigh lik f'.particles) := h.map _
  have ht : total (weigh lik f.particles) = total (weigh lik f'.particles) := by
    rw [total_eq, total_eq, weightSum_perm hw]
  unfold Filter.measure
  simp only
  rw [← ht]
  split_ifs
  · have hp : ((weigh lik f.particles).map fun p => { p with prob := p.prob / total (weigh lik f.particles) }).Perm
        ((weigh lik f'.particles).map fun p => { p with prob := p.prob / total (weigh lik f.particles) }) := hw.map _
    exact ⟨hp, congrArg some (entropyOf_perm log hp)⟩
  · exact ⟨h, he⟩

/-- C153: motion and bias act on each particle by itself. -/
theorem C153_predict_bias {f f' : Filter S K} (h : f.particles.Perm f'.particles) (model : S → S) (b : S → K → K) :
    (f.predict model).particles.Perm (f'.predict model).particles ∧ (f.bias b).particles.Perm (f'.bias b).particles :=
  ⟨h.map _, h.map _⟩

/-- C153: the mean of weights times biases does not depend on the order; nor does the mean at the default pass ratio, if
the weights are non-negative with sum at most 1.  (With a larger sum it does: `C153_large_weights`.) -/
theorem C153_mean {f f' : Filter (ι → K) K} (h : f.particles.Perm f'.particles) :
    f.expectationBiased componentMean = f'.expectationBiased componentMean ∧
    ∀ sorted sorted', (∀ p ∈ f.particles, 0 ≤ p.prob) → (f.particles.map Particle.prob).sum ≤ 1 →
      (f.expectation componentMean 1 sorted).1 = (f'.expectation componentMean 1 sorted').1 := by
  constructor
  · unfold Filter.expectationBiased
    congr 1
    refine h.foldl_eq' (fun p _ q _ m => ?_) _
    simp only [componentMean]
    refine Prod.ext (funext fun i => ?_) ?_ <;> simp only <;> ring
  · intro sorted sorted' hnn hsum
    funext i
    rw [C26_expectation_uses_all f sorted hnn hsum i, C26_expectation_uses_all f' sorted'
      (fun p hp => hnn p (h.mem_iff.2 hp)) (by rw [← (h.map Particle.prob).sum_eq]; exact hsum) i,
      (h.map Particle.prob).sum_eq, (h.map fun p => p.prob * p.state i).sum_eq]

/-- C153: the covariance at the default pass ratio and without random sampling, for weights that form a distribution. -/
theorem C153_covariance {f f' : Filter (ι → K) K} (h : f.particles.Perm f'.particles) (dev : (ι → K) → (ι → K) → Nat → K)
    (hnn : ∀ p ∈ f.particles, 0 ≤ p.prob) (hsum : (f.particles.map Particle.prob).sum = 1)
    (sorted sorted' : List (Particle (ι → K) K)) {cov cov' : Nat → Nat → K} {g g' : Filter (ι → K) K} {indices indices' : List Nat}
    (hidx : CovIndices (passCount 1 0 f.particles) false 0 indices) (hidx' : CovIndices (passCount 1 0 f'.particles) false 0 indices')
    (hc : f.covariance componentMean (fun s e j k => dev s e j * dev s e k) 1 sorted indices = .ok (cov, g))
    (hc' : f'.covariance componentMean (fun s e j k => dev s e j * dev s e k) 1 sorted' indices' = .ok (cov', g')) :
    ∀ j k, cov j k = cov' j k := by
  intro j k
  have hnn' : ∀ p ∈ f'.particles, 0 ≤ p.prob := fun p hp => hnn p (h.mem_iff.2 hp)
  have hsum' : (f'.particles.map Particle.prob).sum = 1 := by rw [← (h.map Particle.prob).sum_eq]; exact hsum
  rw [(C25_uses_all componentMean dev f hnn hsum sorted hidx hc).2 j k,
    (C25_uses_all componentMean dev f' hnn' hsum' sorted' hidx' hc').2 j k,
    (C153_mean h).2 sorted sorted' hnn hsum.le, (h.map _).sum_eq]

/-- C153: the particle of maximal weight, if all particles of that weight have the same state.  (Otherwise the first in the
order of the filter is returned: `C22_max_is_first_maximum`.) -/
theorem C153_max {f f' : Filter S K} (h : f.particles.Perm f'.particles)
    (hu : ∀ p ∈ f.particles, ∀ q ∈ f.particles, (∀ r ∈ f.particles, r.prob ≤ p.prob) → (∀ r ∈ f.particles, r.prob ≤ q.prob) →
      p.state = q.state) : f.max = f'.max := by
  cases hf : f.max with
  | throws m => unfold Filter.max at hf; split at hf <;> cases hf
  | ub w =>
    have h0 : f.particles = [] := by
      unfold Filter.max at hf
      split at hf
      · assumption
      · cases hf
    have h1 : f'.particles = [] := List.nil_perm.1 (h0 ▸ h)
    rw [← hf]
    unfold Filter.max
    rw [h0, h1]
  | ok s =>
    cases hf' : f'.max with
    | throws m => unfold Filter.max at hf'; split at hf' <;> cases hf'
    | ub w =>
      have h1 : f'.particles = [] := by
        unfold Filter.max at hf'
        split at hf'
        · assumption
        · cases hf'
      have h0 : f.particles = [] := List.perm_nil.1 (h1 ▸ h)
      unfold Filter.max at hf
      rw [h0] at hf
      cases hf
    | ok s' =>
      obtain ⟨i, hi, rfl, h1, -⟩ := C22_max_is_first_maximum f s hf
      obtain ⟨j, hj, rfl, h2, -⟩ := C22_max_is_first_maximum f' s' hf'
      rw [hu _ (List.getElem_mem hi) _ (h.mem_iff.2 (List.getElem_mem hj)) h1 fun r hr => h2 r (h.mem_iff.1 hr)]

/-- C153, limit: with weights above 1 the expectation depends on the order. -/
theorem C153_large_weights : ∃ f f' : Filter (Unit → ℚ) ℚ, f.particles.Perm f'.particles ∧ (∀ p ∈ f.particles, 0 ≤ p.prob) ∧
    (f.expectation componentMean 1 []).1 () = 0 ∧ (f'.expectation componentMean 1 []).1 () = 1 := by
  refine ⟨⟨[⟨fun _ => 0, 2, 0, 0⟩, ⟨fun _ => 1, 2, 0, 0⟩], none⟩, ⟨[⟨fun _ => 1, 2, 0, 0⟩, ⟨fun _ => 0, 2, 0, 0⟩], none⟩,
    List.Perm.swap _ _ _, ?_, ?_, ?_⟩
  · intro p hp
    simp only [List.mem_cons, List.not_mem_nil, or_false] at hp
    rcases hp with rfl | rfl <;> norm_num
  · rw [C26_stops_early _ _ _ _ (by norm_num)]
  · rw [C26_stops_early _ _ _ _ (by norm_num)]

/-- C153 applied to two orders of two particles: the mean is 3/4, the covariance 3/16. -/
example : (Filter.expectation (componentMean (ι := Unit)) ⟨[⟨fun _ => (0 : ℚ), 1/4, 1, 0⟩, ⟨fun _ => 1, 3/4, 1, 0⟩], none⟩ 1 []).1 () = 3/4 ∧
    (Filter.expectation (componentMean (ι := Unit)) ⟨[⟨fun _ => (1 : ℚ), 3/4, 1, 0⟩, ⟨fun _ => 0, 1/4, 1, 0⟩], none⟩ 1 []).1 () = 3/4 := by
  have hp : (Filter.particles ⟨[⟨fun _ => (0 : ℚ), 1/4, 1, 0⟩, (⟨fun _ => 1, 3/4, 1, 0⟩ : Particle (Unit → ℚ) ℚ)], none⟩).Perm
      (Filter.particles ⟨[⟨fun _ => (1 : ℚ), 3/4, 1, 0⟩, (⟨fun _ => 0, 1/4, 1, 0⟩ : Particle (Unit → ℚ) ℚ)], none⟩) :=
    List.Perm.swap _ _ _
  have h1 : (Filter.expectation (componentMean (ι := Unit)) ⟨[⟨fun _ => (0 : ℚ), 1/4, 1, 0⟩, ⟨fun _ => 1, 3/4, 1, 0⟩], none⟩ 1 []).1 () = 3/4 := by
    rw [C26_expectation_uses_all _ _ (by
      intro p hp
      simp only [List.mem_cons, List.not_mem_nil, or_false] at hp
      rcases hp with rfl | rfl <;> norm_num) (by norm_num)]
    norm_num
  refine ⟨h1, ?_⟩
  rw [← (C153_mean hp).2 [] [] (by
      intro p hp
      simp only [List.mem_cons, List.not_mem_nil, or_false] at hp
      rcases hp with rfl | rfl <;> norm_num) (by norm_num)]
  exact h1

/-- The hypothesis of `C153_max` holds for these particles. -/
example : (⟨[⟨fun _ => (0 : ℚ), 1/4, 1, 0⟩, ⟨fun _ => 1, 3/4, 1, 0⟩], none⟩ : Filter (Unit → ℚ) ℚ).max =
    (⟨[⟨fun _ => (1 : ℚ), 3/4, 1, 0⟩, ⟨fun _ => 0, 1/4, 1, 0⟩], none⟩ : Filter (Unit → ℚ) ℚ).max := by
  refine C153_max (List.Perm.swap _ _ _) ?_
  intro p hp q hq h1 h2
  simp only [List.mem_cons, List.not_mem_nil, or_false] at hp hq
  rcases hp with rfl | rfl <;> rcases hq with rfl | rfl <;> first | rfl | skip
  · have := h1 _ (List.mem_cons_of_mem _ List.mem_cons_self); norm_num at this
  · have := h2 _ (List.mem_cons_of_mem _ List.mem_cons_self); norm_num at this

end PF

namespace Node

theorem voteSum_perm {ps ps' : List Particle} (h : ps.Perm ps') (k : State6 ℝ → ℝ) : voteSum ps k = voteSum ps' k := by
  unfold voteSum
  exact (h.map _).sum_eq

/-- C153: the pose the node estimates does not depend on the order of the particles. -/
theorem C153_estimate {f f' : Filter} (h : f.particles.Perm f'.particles) : estimate f = estimate f' := by
  unfold estimate PF.Filter.expectationBiased
  rw [fold_meanQuat, fold_meanQuat]
  simp only [voteSum_perm h]

end Node
end Mcl3dl
