import Verif.Props.PFResample

/-!
# C144: resampling particles of equal weight
-/

set_option linter.unusedSectionVars false

namespace Mcl3dl
namespace PF

variable {S K : Type} [StateOps S] [Field K] [LinearOrder K] [IsStrictOrderedRing K] [FloorRing K]

/-- C144: if all weights are equal and the random offset is positive, resampling keeps every particle in its place;
only the first one gets noise.  All weights become `1/N`. -/
theorem C144_equal_weights (f : Filter S K) (dup : List (Particle S K)) (u w : K) (noise : Nat → S) (hw : 0 < w)
    (heq : ∀ p ∈ f.particles, p.prob = w) (hsort : IsSorted (accumulate 0 f.particles) dup)
    (hu0 : 0 < u) (hu1 : u < (f.particles.map Particle.prob).sum / (f.particles.length : K)) :
    ∃ f', f.resample dup u noise = .ok f' ∧ f'.particles.length = f.particles.length ∧
      ∀ i (hi : i < f.particles.length) (hi' : i < f'.particles.length),
        f'.particles[i].prob = 1 / (f.particles.length : K) ∧
        f'.particles[i].state =
          if i = 0 then StateOps.normalize (StateOps.add f.particles[i].state (noise 0))
          else f.particles[i].state := by
  have hne : f.particles ≠ [] := by
    intro h
    rw [h] at hu1
    simp at hu1
    exact absurd hu0 (not_lt.2 hu1.le)
  have hn := List.length_pos_iff.mpr hne
  have hN : (0 : K) < (f.particles.length : K) := by exact_mod_cast hn
  have hpos : ∀ p ∈ f.particles, 0 < p.prob := fun p hp => by rw [heq p hp]; exact hw
  have hdup := sort_unique f.particles dup hpos hsort
  subst hdup
  have hnn : ∀ p ∈ f.particles, 0 ≤ p.prob := fun p hp => (hpos p hp).le
  have hW1 : weightSum f.particles = f.particles.length * w := by
    unfold weightSum
    rw [sum_const _ _ heq]
  have huw : u < w := by
    have : (f.particles.map Particle.prob).sum / (f.particles.length : K) = w := by
      have h : (f.particles.map Particle.prob).sum = f.particles.length * w := hW1
      rw [h]; field_simp
    rwa [this] at hu1
  have hpre : ∀ j, j ≤ f.particles.length → pre f.particles j = j * w := by
    intro j
    induction j with
    | zero => intro _; simp
    | succ j ih =>
      intro hj
      rw [pre_succ _ _ (by omega), ih (by omega), heq _ (List.getElem_mem _)]
      push_cast; ring
  have hcut : ∀ i, i < f.particles.length → cut (accumulate 0 f.particles) (scanPos f.particles u i) = i := by
    intro i hi
    have hs : scanPos f.particles u i = i * w + u := by
      unfold scanPos
      rw [hW1]
      field_simp
    rw [cut_accumulate f.particles hnn _ i hi, hpre i (by omega), hpre (i + 1) (by omega), hs]
    constructor
    · intro _; linarith
    · push_cast; nlinarith
  obtain ⟨f', e, hl, hsp⟩ := C16_resample_invents_nothing f (accumulate 0 f.particles) u noise hsort
  obtain ⟨p0, -⟩ := List.exists_mem_of_ne_nil _ hne
  obtain ⟨hlt, f2, e2, hst⟩ := resample_closed f (accumulate 0 f.particles) u noise p0.state hne
    (by rw [hW1]; positivity) hu1 hsort
  rw [e] at e2
  simp only [Outcome.ok.injEq] at e2
  subst e2
  refine ⟨f', e, hl, fun i hi hi' => ⟨(hsp _ (List.getElem_mem _)).1, ?_⟩⟩
  have hget : f'.particles[i].state = (f'.particles.map Particle.state)[i]'(by simpa using hi') := by simp
  rw [hget]
  simp only [hst, List.getElem_map, List.getElem_range]
  unfold resampledState
  rw [hcut i hi]
  dsimp only
  rw [List.getElem?_eq_getElem (by rw [accumulate_length]; exact hi)]
  simp only [Option.map_some, Option.getD_some, accumulate_getElem_state _ _ hi]
  by_cases h0 : i = 0
  · subst h0; simp
  · rw [if_neg h0, if_neg h0, hcut (i - 1) (by omega), if_neg (by omega)]

/-- C144: if all weights are equal and the random offset is exactly zero, the particles move by one place: the first
is kept twice, with noise on both copies, and the last one is lost. -/
theorem C144_zero_offset (f : Filter S K) (dup : List (Particle S K)) (w : K) (noise : Nat → S) (hw : 0 < w)
    (heq : ∀ p ∈ f.particles, p.prob = w) (hsort : IsSorted (accumulate 0 f.particles) dup)
    (hne : f.particles ≠ []) :
    ∃ f', f.resample dup 0 noise = .ok f' ∧ f'.particles.length = f.particles.length ∧
      ∀ i (hi : i < f.particles.length) (hi' : i < f'.particles.length),
        f'.particles[i].prob = 1 / (f.particles.length : K) ∧
        f'.particles[i].state =
          if i ≤ 1 then StateOps.normalize (StateOps.add f.particles[0].state (noise i))
          else f.particles[i - 1].state := by
  have hn := List.length_pos_iff.mpr hne
  have hN : (0 : K) < (f.particles.length : K) := by exact_mod_cast hn
  have hpos : ∀ p ∈ f.particles, 0 < p.prob := fun p hp => by rw [heq p hp]; exact hw
  have hdup := sort_unique f.particles dup hpos hsort
  subst hdup
  have hnn : ∀ p ∈ f.particles, 0 ≤ p.prob := fun p hp => (hpos p hp).le
  have hW1 : weightSum f.particles = f.particles.length * w := by
    unfold weightSum
    rw [sum_const _ _ heq]
  have hpre : ∀ j, j ≤ f.particles.length → pre f.particles j = j * w := by
    intro j
    induction j with
    | zero => intro _; simp
    | succ j ih =>
      intro hj
      rw [pre_succ _ _ (by omega), ih (by omega), heq _ (List.getElem_mem _)]
      push_cast; ring
  have hcut : ∀ i, i < f.particles.length →
      cut (accumulate 0 f.particles) (scanPos f.particles 0 i) = i - 1 := by
    intro i hi
    have hs : scanPos f.particles 0 i = i * w := by
      unfold scanPos
      rw [hW1]
      field_simp
      ring
    rw [cut_accumulate f.particles hnn _ (i - 1) (by omega), hpre (i - 1) (by omega), hpre (i - 1 + 1) (by omega), hs]
    constructor
    · intro h
      have : ((i - 1 : ℕ) : K) < (i : K) := by exact_mod_cast (by omega : i - 1 < i)
      exact mul_lt_mul_of_pos_right this hw
    · have : (i : K) ≤ ((i - 1 + 1 : ℕ) : K) := by exact_mod_cast (by omega : i ≤ i - 1 + 1)
      exact mul_le_mul_of_nonneg_right this hw.le
  obtain ⟨f', e, hl, hsp⟩ := C16_resample_invents_nothing f (accumulate 0 f.particles) 0 noise hsort
  obtain ⟨p0, -⟩ := List.exists_mem_of_ne_nil _ hne
  have hu1 : (0 : K) < (f.particles.map Particle.prob).sum / (f.particles.length : K) := by
    have h : (f.particles.map Particle.prob).sum = f.particles.length * w := hW1
    rw [h]; positivity
  obtain ⟨hlt, f2, e2, hst⟩ := resample_closed f (accumulate 0 f.particles) 0 noise p0.state hne
    (by rw [hW1]; positivity) hu1 hsort
  rw [e] at e2
  simp only [Outcome.ok.injEq] at e2
  subst e2
  refine ⟨f', e, hl, fun i hi hi' => ⟨(hsp _ (List.getElem_mem _)).1, ?_⟩⟩
  have hget : f'.particles[i].state = (f'.particles.map Particle.state)[i]'(by simpa using hi') := by simp
  rw [hget]
  simp only [hst, List.getElem_map, List.getElem_range]
  unfold resampledState
  rw [hcut i hi]
  dsimp only
  rw [List.getElem?_eq_getElem (by rw [accumulate_length]; omega)]
  simp only [Option.map_some, Option.getD_some, accumulate_getElem_state _ _ (show i - 1 < f.particles.length by omega)]
  by_cases h0 : i = 0
  · subst h0; simp
  · rw [if_neg h0, hcut (i - 1) (by omega)]
    by_cases h1 : i = 1
    · subst h1; simp
    · rw [if_neg (by omega), if_neg (by omega)]

/-- Three particles of weight 1/3 meet the hypotheses, with the offset 1/4 and with the offset 0. -/
example : let f : Filter Nat ℚ := ⟨[⟨10, 1/3, 1, 0⟩, ⟨20, 1/3, 1, 0⟩, ⟨30, 1/3, 1, 0⟩], none⟩
    (∀ p ∈ f.particles, p.prob = 1/3) ∧ IsSorted (accumulate 0 f.particles) (accumulate 0 f.particles) ∧
    (0 : ℚ) < 1/4 ∧ (1/4 : ℚ) < (f.particles.map Particle.prob).sum / (f.particles.length : ℚ) ∧
    f.particles ≠ [] := by
  intro f
  refine ⟨by simp [f], accumulate_sorted _ (by simp [f]), by norm_num, by norm_num [f], by simp [f]⟩

end PF
end Mcl3dl
