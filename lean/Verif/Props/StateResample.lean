import Verif.Props.State6DOF
import Verif.Props.PFResample

/-! # C44: the odometry error coefficients of resampled 6-DOF particles -/

set_option linter.unusedSectionVars false

namespace Mcl3dl
namespace State6

/-- The four odometry error coefficients. -/
def coefficients (s : State6 ℝ) : ℝ × ℝ × ℝ × ℝ := (s.noiseLL, s.noiseLA, s.noiseAL, s.noiseAA)

/-- C44: in resampling there is a non-decreasing choice `anc` of the sources; a copy of a source that differs from
the source of the copy before it (for the first copy: from the first particle) keeps the coefficients of the
source, every other copy has lost them, they are all zero. -/
theorem C44_resample_resets (f : PF.Filter (State6 ℝ) ℝ) (dup : List (PF.Particle (State6 ℝ) ℝ)) (u : ℝ)
    (noise : ℕ → State6 ℝ) (hne : f.particles ≠ []) (hnn : ∀ p ∈ f.particles, 0 ≤ p.prob)
    (hu1 : u < (f.particles.map PF.Particle.prob).sum / (f.particles.length : ℝ))
    (hs : PF.IsSorted (PF.accumulate 0 f.particles) dup) :
    ∃ (f' : PF.Filter (State6 ℝ) ℝ) (anc : ℕ → ℕ), f.resample dup u noise = .ok f' ∧
      (∀ i j, i ≤ j → anc i ≤ anc j) ∧
      ∀ i (hi : i < f'.particles.length), ∃ h : anc i < dup.length,
        coefficients f'.particles[i].state =
          if anc i = (if i = 0 then 0 else anc (i - 1)) then (0, 0, 0, 0) else coefficients dup[anc i].state := by
  obtain ⟨f', anc, h1, h2, h3⟩ := PF.C19_noise_on_repeats f dup u noise hne hnn hu1 hs
  refine ⟨f', anc, h1, h2, fun i hi => ?_⟩
  obtain ⟨h, h4⟩ := h3 i hi
  refine ⟨h, ?_⟩
  by_cases hc : anc i = (if i = 0 then 0 else anc (i - 1))
  · rw [if_pos hc] at h4 ⊢
    rw [h4]
    rfl
  · rw [if_neg hc] at h4 ⊢
    rw [h4]

/-- Two particles of equal weight qualify. -/
example : ∃ (f : PF.Filter (State6 ℝ) ℝ) (u : ℝ), f.particles ≠ [] ∧ (∀ p ∈ f.particles, 0 ≤ p.prob) ∧
    u < (f.particles.map PF.Particle.prob).sum / (f.particles.length : ℝ) ∧
    PF.IsSorted (PF.accumulate 0 f.particles) (PF.accumulate 0 f.particles) := by
  refine ⟨⟨[⟨{ (default : State6 ℝ) with noiseLL := 1 }, 1 / 2, 1, 0⟩, ⟨default, 1 / 2, 1, 0⟩], none⟩, 1 / 4,
    by simp, ?_, ?_, ?_⟩
  · intro p hp
    simp only [List.mem_cons, List.not_mem_nil, or_false] at hp
    rcases hp with rfl | rfl <;> norm_num
  · norm_num
  · simp [PF.accumulate, PF.IsSorted]

end State6
end Mcl3dl
