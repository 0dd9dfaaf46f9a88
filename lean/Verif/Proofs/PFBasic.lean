import Verif.Model.PF

/-! # Arithmetic-free lemmas about the particle filter -/

namespace Mcl3dl
namespace PF

variable {S F : Type}

theorem accumulate_length [Add F] (a : F) (ps : List (Particle S F)) :
    (accumulate a ps).length = ps.length := by
  induction ps generalizing a with
  | nil => rfl
  | cons p ps ih => simp [accumulate, ih]

theorem accumulate_state [Add F] (a : F) (ps : List (Particle S F)) :
    (accumulate a ps).map Particle.state = ps.map Particle.state := by
  induction ps generalizing a with
  | nil => rfl
  | cons p ps ih => simp [accumulate, ih]

theorem accumulate_prob [Add F] (a : F) (ps : List (Particle S F)) :
    (accumulate a ps).map Particle.prob = ps.map Particle.prob := by
  induction ps generalizing a with
  | nil => rfl
  | cons p ps ih => simp [accumulate, ih]

theorem accumulate_bias [Add F] (a : F) (ps : List (Particle S F)) :
    (accumulate a ps).map Particle.bias = ps.map Particle.bias := by
  induction ps generalizing a with
  | nil => rfl
  | cons p ps ih => simp [accumulate, ih]

theorem lowerBound_le [LT F] [DecidableLT F] (dup : List (Particle S F)) (it : Nat) (v : F)
    (h : it ≤ dup.length) : lowerBound dup it v ≤ dup.length := by
  unfold lowerBound
  have : ((dup.drop it).takeWhile fun p => decide (p.accum < v)).length ≤ (dup.drop it).length :=
    (List.takeWhile_sublist _).length_le
  rw [List.length_drop] at this
  omega

theorem deref_ok (dup : List (Particle S F)) (it : Nat) (h : it < dup.length) :
    deref dup it = .ok (dup[it].state) := by
  simp [deref, h]

/-- What every particle produced by the resampling loop looks like, for any arithmetic. -/
theorem resampleLoop_spec [StateOps S] [Add F] [Mul F] [NatCast F] [LT F] [DecidableLT F]
    (dup : List (Particle S F)) (pstep initialP prob : F) (noise : Nat → S)
    (ps : List (Particle S F)) (i it itPrev : Nat) (hit : it ≤ dup.length)
    (hprev : itPrev < dup.length) :
    ∃ ps', resampleLoop dup pstep initialP prob noise ps i it itPrev = .ok ps' ∧
      ps'.length = ps.length ∧ ps'.map Particle.bias = ps.map Particle.bias ∧
      ∀ p' ∈ ps', p'.prob = prob ∧ ∃ q ∈ dup,
        p'.state = q.state ∨
        ∃ k, p'.state = StateOps.normalize (StateOps.add q.state (noise k)) := by
  induction ps generalizing i it itPrev with
  | nil => exact ⟨[], rfl, rfl, rfl, by simp⟩
  | cons p ps ih =>
    have hle := lowerBound_le dup it (pstep * (i : F) + initialP) hit
    simp only [resampleLoop]
    by_cases h1 : lowerBound dup it (pstep * (i : F) + initialP) = dup.length
    · obtain ⟨ps', e, hl, hb, hs⟩ := ih (i + 1) _ itPrev hle hprev
      refine ⟨_, by rw [if_pos h1, deref_ok dup itPrev hprev]; simp [e]; rfl, by simp [hl],
        by simp [hb], ?_⟩
      intro p' hp'
      rcases List.mem_cons.mp hp' with rfl | hp'
      · exact ⟨rfl, dup[itPrev], List.getElem_mem _, Or.inl rfl⟩
      · exact hs p' hp'
    · have hlt : lowerBound dup it (pstep * (i : F) + initialP) < dup.length := by omega
      obtain ⟨ps', e, hl, hb, hs⟩ := ih (i + 1) _ _ hle hlt
      by_cases h2 : lowerBound dup it (pstep * (i : F) + initialP) = itPrev
      · refine ⟨_, by rw [if_neg h1, if_pos h2, deref_ok dup _ hlt]; simp [e]; rfl, by simp [hl],
          by simp [hb], ?_⟩
        intro p' hp'
        rcases List.mem_cons.mp hp' with rfl | hp'
        · exact ⟨rfl, _, List.getElem_mem hlt, Or.inr ⟨i, rfl⟩⟩
        · exact hs p' hp'
      · refine ⟨_, by rw [if_neg h1, if_neg h2, deref_ok dup _ hlt]; simp [e]; rfl, by simp [hl],
          by simp [hb], ?_⟩
        intro p' hp'
        rcases List.mem_cons.mp hp' with rfl | hp'
        · exact ⟨rfl, _, List.getElem_mem hlt, Or.inl rfl⟩
        · exact hs p' hp'

/-- The same for the loop of `resizeParticle`. -/
theorem resizeLoop_spec [Add F] [LT F] [DecidableLT F]
    (dup : List (Particle S F)) (pstep prob : F)
    (ps : List (Particle S F)) (pscan : F) (it itPrev : Nat) (hit : it ≤ dup.length)
    (hprev : itPrev < dup.length) :
    ∃ ps', resizeLoop dup pstep prob ps pscan it itPrev = .ok ps' ∧
      ps'.length = ps.length ∧ ps'.map Particle.bias = ps.map Particle.bias ∧
      ∀ p' ∈ ps', p'.prob = prob ∧ ∃ q ∈ dup, p'.state = q.state := by
  induction ps generalizing pscan it itPrev with
  | nil => exact ⟨[], rfl, rfl, rfl, by simp⟩
  | cons p ps ih =>
    have hle := lowerBound_le dup it (pscan + pstep) hit
    simp only [resizeLoop]
    by_cases h1 : lowerBound dup it (pscan + pstep) = dup.length
    · obtain ⟨ps', e, hl, hb, hs⟩ := ih (pscan + pstep) _ itPrev hle hprev
      refine ⟨_, by rw [if_pos h1, deref_ok dup itPrev hprev]; simp [e]; rfl, by simp [hl],
        by simp [hb], ?_⟩
      intro p' hp'
      rcases List.mem_cons.mp hp' with rfl | hp'
      · exact ⟨rfl, dup[itPrev], List.getElem_mem _, rfl⟩
      · exact hs p' hp'
    · have hlt : lowerBound dup it (pscan + pstep) < dup.length := by omega
      obtain ⟨ps', e, hl, hb, hs⟩ := ih (pscan + pstep) _ _ hle hlt
      refine ⟨_, by rw [if_neg h1, deref_ok dup _ hlt]; simp [e]; rfl, by simp [hl],
        by simp [hb], ?_⟩
      intro p' hp'
      rcases List.mem_cons.mp hp' with rfl | hp'
      · exact ⟨rfl, _, List.getElem_mem hlt, rfl⟩
      · exact hs p' hp'

theorem vectorResize_length [Zero F] (s0 : S) (junk : Nat → F) (n : Nat)
    (ps : List (Particle S F)) : (vectorResize s0 junk n ps).length = n := by
  simp [vectorResize]; omega

theorem IsSorted.length_eq [LT F] {ps dup : List (Particle S F)} (h : IsSorted ps dup) :
    dup.length = ps.length := h.1.length_eq

theorem resample_spec [StateOps S] [Zero F] [One F] [Add F] [Mul F] [Div F] [NatCast F] [LT F]
    [DecidableLT F] (f : Filter S F) (dup : List (Particle S F)) (u : F) (noise : Nat → S)
    (hs : IsSorted (accumulate 0 f.particles) dup) :
    ∃ f', f.resample dup u noise = .ok f' ∧ f'.entropy = f.entropy ∧
      f'.particles.length = f.particles.length ∧
      f'.particles.map Particle.bias = f.particles.map Particle.bias ∧
      ∀ p' ∈ f'.particles, p'.prob = 1 / (f.particles.length : F) ∧ ∃ q ∈ f.particles,
        p'.state = q.state ∨
        ∃ k, p'.state = StateOps.normalize (StateOps.add q.state (noise k)) := by
  have hlen := hs.length_eq
  rw [accumulate_length] at hlen
  have hmem : ∀ q ∈ dup, ∃ q' ∈ f.particles, q'.state = q.state := by
    intro q hq
    have h1 := hs.1.mem_iff.mp hq
    have h2 : q.state ∈ (accumulate 0 f.particles).map Particle.state := List.mem_map_of_mem h1
    rw [accumulate_state] at h2
    simpa using h2
  by_cases he : f.particles = []
  · refine ⟨f, ?_, rfl, rfl, rfl, ?_⟩
    · simp [Filter.resample, he, accumulate, resampleLoop]
      cases f; simp_all
    · simp [he]
  · have hpos : 0 < dup.length := by
      rw [hlen]; exact List.length_pos_iff.mpr he
    obtain ⟨ps', e, hl, hb, hsp⟩ := resampleLoop_spec dup
      (total f.particles / ((accumulate 0 f.particles).length : F)) u
      (1 / ((accumulate 0 f.particles).length : F)) noise (accumulate 0 f.particles) 0 0 0
      (by omega) hpos
    refine ⟨{ f with particles := ps' }, ?_, rfl, by simp [hl, accumulate_length],
      by simp [hb, accumulate_bias], ?_⟩
    · simp only [Filter.resample, e, Outcome.bind_ok]
    · intro p' hp'
      obtain ⟨h1, q, hq, h2⟩ := hsp p' hp'
      rw [accumulate_length] at h1
      obtain ⟨q', hq', heq⟩ := hmem q hq
      exact ⟨h1, q', hq', by rw [heq]; exact h2⟩

theorem resize_spec [Zero F] [One F] [Add F] [Div F] [NatCast F] [LT F]
    [DecidableLT F] (s0 : S) (junk : Nat → F) (f : Filter S F) (n : Nat)
    (dup : List (Particle S F))
    (hs : IsSorted (accumulate 0 f.particles) dup) (hne : f.particles ≠ [] ∨ n = 0) :
    ∃ f', f.resize s0 junk n dup = .ok f' ∧ f'.entropy = f.entropy ∧
      f'.particles.length = n ∧
      ∀ p' ∈ f'.particles, p'.prob = 1 / (n : F) ∧ ∃ q ∈ f.particles, p'.state = q.state := by
  have hlen := hs.length_eq
  rw [accumulate_length] at hlen
  have hmem : ∀ q ∈ dup, ∃ q' ∈ f.particles, q'.state = q.state := by
    intro q hq
    have h1 := hs.1.mem_iff.mp hq
    have h2 : q.state ∈ (accumulate 0 f.particles).map Particle.state := List.mem_map_of_mem h1
    rw [accumulate_state] at h2
    simpa using h2
  rcases Nat.eq_zero_or_pos n with h0 | hn
  · subst h0
    refine ⟨{ f with particles := [] }, ?_, rfl, rfl, by simp⟩
    simp [Filter.resize, vectorResize, resizeLoop]
  · have hpos : 0 < dup.length := by
      rcases hne with he | he
      · rw [hlen]; exact List.length_pos_iff.mpr he
      · omega
    obtain ⟨ps', e, hl, hb, hsp⟩ := resizeLoop_spec dup
      (total f.particles / (n : F)) (1 / (n : F))
      (vectorResize s0 junk n (accumulate 0 f.particles)) 0 0 0 (by omega) hpos
    refine ⟨{ f with particles := ps' }, ?_, rfl, by simp [hl, vectorResize_length], ?_⟩
    · simp only [Filter.resize, e, Outcome.bind_ok]
    · intro p' hp'
      obtain ⟨h1, q, hq, h2⟩ := hsp p' hp'
      obtain ⟨q', hq', heq⟩ := hmem q hq
      exact ⟨h1, q', hq', by rw [heq]; exact h2⟩

/-- Resizing an empty filter to a positive size dereferences `end()`. -/
theorem resize_empty_ub [Zero F] [One F] [Add F] [Div F] [NatCast F] [LT F]
    [DecidableLT F] (s0 : S) (junk : Nat → F) (f : Filter S F) (n : Nat)
    (he : f.particles = []) (hn : 0 < n) : (f.resize s0 junk n []).isUb = true := by
  obtain ⟨n, rfl⟩ : ∃ m, n = m + 1 := ⟨n - 1, by omega⟩
  simp only [Filter.resize, he, accumulate, vectorResize, List.take_nil, List.nil_append,
    List.length_nil, Nat.sub_zero, List.range_succ_eq_map, List.map_cons]
  rw [resizeLoop]
  rw [if_pos (by simp [lowerBound])]
  simp [deref, Outcome.isUb]

end PF
end Mcl3dl
