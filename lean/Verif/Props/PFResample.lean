import Verif.Props.PFWeights

/-!
# Resampling and resizing (C17–C20), exact arithmetic

`tag` identifies a particle's ancestry in a way an observer can read from a state: any function of
the state that noise does not change.  A particle with a unique tag can then be recognised among
the copies.
-/

set_option linter.unusedSectionVars false

namespace Mcl3dl
namespace PF

variable {S K T : Type} [Field K] [LinearOrder K] [IsStrictOrderedRing K] [FloorRing K]
  [StateOps S] [DecidableEq T]

/-- Number of particles of a filter whose state carries tag `t`. -/
def copies (tag : S → T) (t : T) (f : Filter S K) : Nat :=
  (f.particles.map Particle.state).countP fun s => decide (tag s = t)

theorem countP_map_range {α : Type} (g : Nat → α) (p : α → Bool) (n : Nat) :
    ((List.range n).map g).countP p = (List.range n).countP fun i => p (g i) := by
  rw [List.countP_map]; rfl

theorem tag_resampledState (tag : S → T)
    (htag : ∀ s n, tag (StateOps.normalize (StateOps.add s n)) = tag s)
    (dup : List (Particle S K)) (noise : Nat → S) (s0 : S) (i a prev : Nat) (ha : a < dup.length) :
    tag (resampledState dup noise s0 i a prev) = tag dup[a].state := by
  unfold resampledState
  simp only [List.getElem?_eq_getElem ha, Option.map_some, Option.getD_some]
  split
  · rw [htag]
  · rfl

theorem accumulate_getElem_state (ps : List (Particle S K)) (j : Nat) (h : j < ps.length) :
    ((accumulate 0 ps)[j]'(by rw [accumulate_length]; exact h)).state = ps[j].state := by
  rw [accumulate_getElem 0 ps j h]

/-- Copies of particle `j` made by `resample` with the identity sort and a positive draw. -/
theorem resample_copies (f f' : Filter S K) (u : K) (noise : Nat → S) (tag : S → T)
    (htag : ∀ s n, tag (StateOps.normalize (StateOps.add s n)) = tag s)
    (hnn : ∀ p ∈ f.particles, 0 ≤ p.prob) (hW : 0 < weightSum f.particles)
    (hu0 : 0 < u) (hu1 : u < weightSum f.particles / (f.particles.length : K))
    (j : Nat) (hj : j < f.particles.length)
    (huniq : ∀ i (hi : i < f.particles.length),
      tag f.particles[i].state = tag f.particles[j].state → i = j)
    (hf' : f.resample (accumulate 0 f.particles) u noise = .ok f') :
    (copies tag (tag f.particles[j].state) f' : Int) =
      ⌊(pre f.particles (j + 1) - u) / (weightSum f.particles / (f.particles.length : K))⌋ -
      ⌊(pre f.particles j - u) / (weightSum f.particles / (f.particles.length : K))⌋ := by
  have hne : f.particles ≠ [] := by intro h; rw [h] at hj; simp at hj
  have hN : (0 : K) < (f.particles.length : K) := by exact_mod_cast (by omega : 0 < f.particles.length)
  have hs : 0 < weightSum f.particles / (f.particles.length : K) := div_pos hW hN
  obtain ⟨hlt, f2, e, hst⟩ := resample_closed f (accumulate 0 f.particles) u noise
    (f.particles[j].state) hne hW.le hu1 (accumulate_sorted _ hnn)
  rw [hf'] at e
  simp only [Outcome.ok.injEq] at e
  subst e
  unfold copies
  rw [hst, countP_map_range]
  rw [accumulate_length] at hlt
  have hcongr : (List.range f.particles.length).countP (fun i =>
      decide (tag (resampledState (accumulate 0 f.particles) noise f.particles[j].state i
        (cut (accumulate 0 f.particles) (scanPos f.particles u i))
        (if i = 0 then 0 else cut (accumulate 0 f.particles) (scanPos f.particles u (i - 1)))) =
          tag f.particles[j].state)) =
      (List.range f.particles.length).countP (fun i : Nat => decide (
        (pre f.particles j - u) / (weightSum f.particles / (f.particles.length : K)) < (i : K) ∧
        (i : K) ≤ (pre f.particles (j + 1) - u) /
          (weightSum f.particles / (f.particles.length : K)))) := by
    apply List.countP_congr
    intro i hi
    rw [List.mem_range] at hi
    have hc := hlt i hi
    simp only [decide_eq_true_eq]
    rw [tag_resampledState tag htag _ _ _ _ _ _ (by rw [accumulate_length]; exact hc),
      accumulate_getElem_state _ _ hc]
    have h1 : (pre f.particles j - u) / (weightSum f.particles / (f.particles.length : K)) < (i : K) ↔
        pre f.particles j < scanPos f.particles u i := by
      rw [div_lt_iff₀ hs, scanPos, mul_comm]; constructor <;> intro h <;> linarith
    have h2 : (i : K) ≤ (pre f.particles (j + 1) - u) /
        (weightSum f.particles / (f.particles.length : K)) ↔
        scanPos f.particles u i ≤ pre f.particles (j + 1) := by
      rw [le_div_iff₀ hs, scanPos, mul_comm]; constructor <;> intro h <;> linarith
    rw [h1, h2]
    have hiff := cut_accumulate f.particles hnn (scanPos f.particles u i) j hj
    constructor
    · intro h
      have hcj := huniq _ hc h
      obtain ⟨ha, hb⟩ := hiff.mp hcj
      refine ⟨?_, hb⟩
      rcases Nat.eq_zero_or_pos j with h0 | h0
      · subst h0
        rw [pre_zero]
        have : scanPos f.particles u 0 ≤ scanPos f.particles u i :=
          scanPos_mono _ _ hW.le (Nat.zero_le _)
        have h0 : scanPos f.particles u 0 = u := by simp [scanPos]
        linarith
      · exact ha h0
    · rintro ⟨ha, hb⟩
      have := hiff.mpr ⟨fun _ => ha, hb⟩
      simp only [this]
  rw [hcongr, countP_Ioc]
  · have h0 := pre_mono f.particles hnn (Nat.zero_le j)
    rw [pre_zero] at h0
    rw [le_div_iff₀ hs]; linarith
  · have := pre_mono f.particles hnn (Nat.le_succ j)
    apply (div_le_div_iff_of_pos_right hs).mpr
    linarith
  · rw [div_lt_iff₀ hs]
    have h0 := pre_mono f.particles hnn (show j + 1 ≤ f.particles.length by omega)
    rw [pre_length] at h0
    have : (f.particles.length : K) * (weightSum f.particles / (f.particles.length : K)) =
        weightSum f.particles := by field_simp
    rw [this]; linarith

theorem diff_over_step (ps : List (Particle S K)) (hW : 0 < weightSum ps) (u : K) (n : K)
    (hn : 0 < n) (j : Nat) (hj : j < ps.length) :
    (pre ps (j + 1) - u) / (weightSum ps / n) - (pre ps j - u) / (weightSum ps / n) =
      n * ps[j].prob / weightSum ps := by
  rw [pre_succ ps j hj]
  field_simp
  ring

/-- **C17** for positive weights: with positive weights and a *positive* draw `u`, a particle of weight `w`
(total `W`, `N` particles) is copied at least `⌊N w / W⌋` and at most `⌈N w / W⌉` times, whatever
the sort does.  (For the draw `u = 0`, which `uniform_real_distribution` may return, see `C17_zero_draw`;
for the general case `C17_low_variance`.) -/
theorem C17_positive_weights (f : Filter S K) (dup : List (Particle S K)) (u : K)
    (noise : Nat → S) (tag : S → T)
    (htag : ∀ s n, tag (StateOps.normalize (StateOps.add s n)) = tag s)
    (hpos : ∀ p ∈ f.particles, 0 < p.prob)
    (hsort : IsSorted (accumulate 0 f.particles) dup)
    (hu0 : 0 < u) (hu1 : u < (f.particles.map Particle.prob).sum / (f.particles.length : K))
    (j : Nat) (hj : j < f.particles.length)
    (huniq : ∀ i (hi : i < f.particles.length),
      tag f.particles[i].state = tag f.particles[j].state → i = j) :
    ∃ f', f.resample dup u noise = .ok f' ∧
      ⌊(f.particles.length : K) * f.particles[j].prob / (f.particles.map Particle.prob).sum⌋ ≤
        (copies tag (tag f.particles[j].state) f' : Int) ∧
      (copies tag (tag f.particles[j].state) f' : Int) ≤
        ⌈(f.particles.length : K) * f.particles[j].prob / (f.particles.map Particle.prob).sum⌉ := by
  have hdup := sort_unique f.particles dup hpos hsort
  subst hdup
  have hnn : ∀ p ∈ f.particles, 0 ≤ p.prob := fun p hp => (hpos p hp).le
  have hN : (0 : K) < (f.particles.length : K) := by exact_mod_cast (by omega : 0 < f.particles.length)
  have hW : 0 < weightSum f.particles := by
    have : 0 < weightSum f.particles / (f.particles.length : K) := lt_trans hu0 hu1
    exact (div_pos_iff_of_pos_right hN).mp this
  obtain ⟨f', e, -⟩ := resample_spec f _ u noise hsort
  refine ⟨f', e, ?_⟩
  rw [resample_copies f f' u noise tag htag hnn hW hu0 hu1 j hj huniq e]
  have hb := floor_diff_bounds
    ((pre f.particles j - u) / (weightSum f.particles / (f.particles.length : K)))
    ((pre f.particles (j + 1) - u) / (weightSum f.particles / (f.particles.length : K)))
  rw [diff_over_step f.particles hW u _ hN j hj] at hb
  exact hb

/-- **C17, the draw 0**: with the draw `u = 0` and two particles of weight 1/2, the first
is copied twice and the second not at all, although `⌊N w / W⌋ = ⌈N w / W⌉ = 1` for both. -/
theorem C17_zero_draw :
    ∃ f' : Filter Nat ℚ,
      (⟨[⟨10, 1/2, 1, 0⟩, ⟨20, 1/2, 1, 0⟩], none⟩ : Filter Nat ℚ).resample
        (accumulate 0 [⟨10, 1/2, 1, 0⟩, ⟨20, 1/2, 1, 0⟩]) 0 (fun _ => 0) = .ok f' ∧
      copies id 10 f' = 2 ∧ copies id 20 f' = 0 := by
  refine ⟨⟨[⟨10, 1/2, 1, 1/2⟩, ⟨10, 1/2, 1, 1⟩], none⟩, ?_, by decide, by decide⟩
  norm_num [Filter.resample, accumulate, resampleLoop, total, lowerBound, deref,
    StateOps.normalize, StateOps.add, List.takeWhile]

/-- **C18**: if the sort leaves equal keys in order and the draw is positive, a particle
of weight zero is never copied.  (Both conditions are needed: `C18_needs_stable_sort`,
`C18_needs_positive_draw`.) -/
theorem C18_zero_weight_dies (f f' : Filter S K) (u : K) (noise : Nat → S) (tag : S → T)
    (htag : ∀ s n, tag (StateOps.normalize (StateOps.add s n)) = tag s)
    (hnn : ∀ p ∈ f.particles, 0 ≤ p.prob)
    (hu0 : 0 < u) (hu1 : u < (f.particles.map Particle.prob).sum / (f.particles.length : K))
    (j : Nat) (hj : j < f.particles.length) (hzero : f.particles[j].prob = 0)
    (huniq : ∀ i (hi : i < f.particles.length),
      tag f.particles[i].state = tag f.particles[j].state → i = j)
    (hf' : f.resample (accumulate 0 f.particles) u noise = .ok f') :
    copies tag (tag f.particles[j].state) f' = 0 := by
  have hN : (0 : K) < (f.particles.length : K) := by exact_mod_cast (by omega : 0 < f.particles.length)
  have hW : 0 < weightSum f.particles := by
    have : 0 < weightSum f.particles / (f.particles.length : K) := lt_trans hu0 hu1
    exact (div_pos_iff_of_pos_right hN).mp this
  have h := resample_copies f f' u noise tag htag hnn hW hu0 hu1 j hj huniq hf'
  have hp : pre f.particles (j + 1) = pre f.particles j := by
    rw [pre_succ f.particles j hj, hzero, add_zero]
  rw [hp, sub_self] at h
  exact_mod_cast h

/-- **C18** with an unstable sort: `[20, 10]` is an ordered permutation of
the accumulated list because both keys are 1, and the weight-0 particle 20 gets all copies. -/
theorem C18_needs_stable_sort :
    IsSorted (accumulate 0 ([⟨10, 1, 1, 0⟩, ⟨20, 0, 1, 0⟩] : List (Particle Nat ℚ)))
      [⟨20, 0, 1, 1⟩, ⟨10, 1, 1, 1⟩] ∧
    ∃ f' : Filter Nat ℚ,
      (⟨[⟨10, 1, 1, 0⟩, ⟨20, 0, 1, 0⟩], none⟩ : Filter Nat ℚ).resample
        [⟨20, 0, 1, 1⟩, ⟨10, 1, 1, 1⟩] (1/4) (fun _ => 0) = .ok f' ∧
      copies id 20 f' = 2 ∧ copies id 10 f' = 0 := by
  refine ⟨⟨?_, ?_⟩, ⟨[⟨20, 1/2, 1, 1⟩, ⟨20, 1/2, 1, 1⟩], none⟩, ?_, by decide, by decide⟩
  · norm_num [accumulate]; exact List.Perm.swap _ _ _
  · norm_num
  · norm_num [Filter.resample, accumulate, resampleLoop, total, lowerBound, deref,
      StateOps.normalize, StateOps.add, List.takeWhile]

/-- **C18** for the draw 0: a leading weight-0 particle is copied. -/
theorem C18_needs_positive_draw :
    ∃ f' : Filter Nat ℚ,
      (⟨[⟨20, 0, 1, 0⟩, ⟨10, 1, 1, 0⟩], none⟩ : Filter Nat ℚ).resample
        (accumulate 0 [⟨20, 0, 1, 0⟩, ⟨10, 1, 1, 0⟩]) 0 (fun _ => 0) = .ok f' ∧
      copies id 20 f' = 1 := by
  refine ⟨⟨[⟨20, 1/2, 1, 0⟩, ⟨10, 1/2, 1, 1⟩], none⟩, ?_, by decide⟩
  norm_num [Filter.resample, accumulate, resampleLoop, total, lowerBound, deref,
    StateOps.normalize, StateOps.add, List.takeWhile]

/-- **C19**: there is a non-decreasing choice `anc` of source positions in the sorted
list such that the `i`-th new state is the unmodified source state whenever the source differs from
the previous one, and gets noise exactly when it repeats the previous source — where for `i = 0`
the "previous source" is position 0.  So the first copy of the particle at position 0 also
gets noise (`C19_first_copy_disturbed`). -/
theorem C19_noise_on_repeats (f : Filter S K) (dup : List (Particle S K)) (u : K)
    (noise : Nat → S) (hne : f.particles ≠ []) (hnn : ∀ p ∈ f.particles, 0 ≤ p.prob)
    (hu1 : u < (f.particles.map Particle.prob).sum / (f.particles.length : K))
    (hs : IsSorted (accumulate 0 f.particles) dup) :
    ∃ (f' : Filter S K) (anc : Nat → Nat), f.resample dup u noise = .ok f' ∧
      (∀ i j, i ≤ j → anc i ≤ anc j) ∧
      ∀ i (hi : i < f'.particles.length), ∃ h : anc i < dup.length,
        (if anc i = (if i = 0 then 0 else anc (i - 1)) then
          f'.particles[i].state = StateOps.normalize (StateOps.add dup[anc i].state (noise i))
        else f'.particles[i].state = dup[anc i].state) := by
  have hW : 0 ≤ weightSum f.particles := by
    apply List.sum_nonneg
    intro x hx; obtain ⟨p, hp, rfl⟩ := List.mem_map.mp hx; exact hnn p hp
  obtain ⟨p0, -⟩ := List.exists_mem_of_ne_nil _ hne
  obtain ⟨hlt, f', e, hst⟩ := resample_closed f dup u noise p0.state hne hW hu1 hs
  refine ⟨f', fun i => cut dup (scanPos f.particles u i), e, ?_, ?_⟩
  · intro i j hij; exact cut_mono dup (scanPos_mono _ _ hW hij)
  · intro i hi
    have hlen : f'.particles.length = f.particles.length := by
      have := congrArg List.length hst; simpa using this
    have hi' : i < f.particles.length := by omega
    refine ⟨hlt i hi', ?_⟩
    have hget : f'.particles[i].state = (f'.particles.map Particle.state)[i]'(by simpa using hi) := by
      simp
    rw [hget]
    simp only [hst, List.getElem_map, List.getElem_range]
    unfold resampledState
    simp only [List.getElem?_eq_getElem (hlt i hi'), Option.map_some, Option.getD_some]
    split <;> simp_all

/-- **C19, a first copy that is disturbed**: a filter with a single particle resamples to one copy, and that
first and only copy is perturbed (noise 5 changes state 10 to 15). -/
theorem C19_first_copy_disturbed :
    ∃ f' : Filter Nat ℚ,
      (⟨[⟨10, 1, 1, 0⟩], none⟩ : Filter Nat ℚ).resample
        (accumulate 0 [⟨10, 1, 1, 0⟩]) (1/2) (fun _ => 5) = .ok f' ∧
      f'.particles.map Particle.state = [15] := by
  refine ⟨⟨[⟨15, 1, 1, 1⟩], none⟩, ?_, rfl⟩
  norm_num [Filter.resample, accumulate, resampleLoop, total, lowerBound, deref,
    StateOps.normalize, StateOps.add, List.takeWhile]

/-- Copies of particle `j` made by `resizeParticle(n)` with the identity sort. -/
theorem resize_copies (f f' : Filter S K) (s0 : S) (junk : Nat → K) (n : Nat) (hn : 0 < n)
    (tag : S → T)
    (hnn : ∀ p ∈ f.particles, 0 ≤ p.prob) (hW : 0 < weightSum f.particles)
    (j : Nat) (hj : j < f.particles.length)
    (huniq : ∀ i (hi : i < f.particles.length),
      tag f.particles[i].state = tag f.particles[j].state → i = j)
    (hf' : f.resize s0 junk n (accumulate 0 f.particles) = .ok f') :
    (copies tag (tag f.particles[j].state) f' : Int) =
      ⌊(pre f.particles (j + 1) - weightSum f.particles / (n : K)) /
        (weightSum f.particles / (n : K))⌋ -
      ⌊(pre f.particles j - weightSum f.particles / (n : K)) /
        (weightSum f.particles / (n : K))⌋ := by
  have hne : f.particles ≠ [] := by intro h; rw [h] at hj; simp at hj
  have hN : (0 : K) < (n : K) := by exact_mod_cast hn
  have hs : 0 < weightSum f.particles / (n : K) := div_pos hW hN
  obtain ⟨hlt, f2, e, hst⟩ := resize_closed f (accumulate 0 f.particles) s0 junk n hn hne hW.le hnn
    (accumulate_sorted _ hnn)
  rw [hf'] at e
  simp only [Outcome.ok.injEq] at e
  subst e
  unfold copies
  rw [hst, countP_map_range]
  rw [accumulate_length] at hlt
  have hcongr : (List.range n).countP (fun i =>
      decide (tag (((accumulate 0 f.particles)[cut (accumulate 0 f.particles)
        (weightSum f.particles / (n : K) * ((i + 1 : Nat) : K))]?.map Particle.state).getD s0) =
          tag f.particles[j].state)) =
      (List.range n).countP (fun i : Nat => decide (
        (pre f.particles j - weightSum f.particles / (n : K)) / (weightSum f.particles / (n : K))
          < (i : K) ∧
        (i : K) ≤ (pre f.particles (j + 1) - weightSum f.particles / (n : K)) /
          (weightSum f.particles / (n : K)))) := by
    apply List.countP_congr
    intro i hi
    rw [List.mem_range] at hi
    have hc := hlt i hi
    simp only [decide_eq_true_eq]
    rw [List.getElem?_eq_getElem (by rw [accumulate_length]; exact hc), Option.map_some,
      Option.getD_some, accumulate_getElem_state _ _ hc]
    have h1 : (pre f.particles j - weightSum f.particles / (n : K)) /
        (weightSum f.particles / (n : K)) < (i : K) ↔
        pre f.particles j < weightSum f.particles / (n : K) * ((i + 1 : Nat) : K) := by
      rw [div_lt_iff₀ hs]; push_cast; constructor <;> intro h <;> linarith
    have h2 : (i : K) ≤ (pre f.particles (j + 1) - weightSum f.particles / (n : K)) /
        (weightSum f.particles / (n : K)) ↔
        weightSum f.particles / (n : K) * ((i + 1 : Nat) : K) ≤ pre f.particles (j + 1) := by
      rw [le_div_iff₀ hs]; push_cast; constructor <;> intro h <;> linarith
    rw [h1, h2]
    have hiff := cut_accumulate f.particles hnn
      (weightSum f.particles / (n : K) * ((i + 1 : Nat) : K)) j hj
    constructor
    · intro h
      have hcj := huniq _ hc h
      obtain ⟨ha, hb⟩ := hiff.mp hcj
      refine ⟨?_, hb⟩
      rcases Nat.eq_zero_or_pos j with h0 | h0
      · subst h0
        rw [pre_zero]
        positivity
      · exact ha h0
    · rintro ⟨ha, hb⟩
      have := hiff.mpr ⟨fun _ => ha, hb⟩
      simp only [this]
  rw [hcongr, countP_Ioc]
  · rw [le_div_iff₀ hs]
    have h0 := pre_mono f.particles hnn (Nat.zero_le j)
    rw [pre_zero] at h0
    linarith
  · have := pre_mono f.particles hnn (Nat.le_succ j)
    apply (div_le_div_iff_of_pos_right hs).mpr
    linarith
  · rw [div_lt_iff₀ hs]
    have h0 := pre_mono f.particles hnn (show j + 1 ≤ f.particles.length by omega)
    rw [pre_length] at h0
    have : (n : K) * (weightSum f.particles / (n : K)) = weightSum f.particles := by field_simp
    rw [this]; linarith

/-- **C20**: for positive weights, `resizeParticle(n)` with `n > 0` is defined whatever
the sort does; it yields `n` particles of weight `1/n`; the new states are old states in the same
order; and a particle of weight `w` (total `W`) is copied at least `⌊n w / W⌋` and at most
`⌈n w / W⌉` times.  (For sets that contain weight-0 particles see `C20_resize_keeps_distribution`.) -/
theorem C20_positive_weights (f : Filter S K) (dup : List (Particle S K)) (s0 : S)
    (junk : Nat → K) (n : Nat) (hn : 0 < n) (hne : f.particles ≠ [])
    (hpos : ∀ p ∈ f.particles, 0 < p.prob)
    (hsort : IsSorted (accumulate 0 f.particles) dup) :
    ∃ f', f.resize s0 junk n dup = .ok f' ∧ f'.particles.length = n ∧
      (∀ p ∈ f'.particles, p.prob = 1 / (n : K)) ∧
      (∃ anc : Nat → Nat, (∀ i j, i ≤ j → anc i ≤ anc j) ∧
        ∀ i (hi : i < f'.particles.length), ∃ h : anc i < f.particles.length,
          f'.particles[i].state = f.particles[anc i].state) ∧
      ∀ (tag : S → T) (j : Nat) (hj : j < f.particles.length),
        (∀ i (hi : i < f.particles.length),
          tag f.particles[i].state = tag f.particles[j].state → i = j) →
        ⌊(n : K) * f.particles[j].prob / (f.particles.map Particle.prob).sum⌋ ≤
          (copies tag (tag f.particles[j].state) f' : Int) ∧
        (copies tag (tag f.particles[j].state) f' : Int) ≤
          ⌈(n : K) * f.particles[j].prob / (f.particles.map Particle.prob).sum⌉ := by
  have hdup := sort_unique f.particles dup hpos hsort
  subst hdup
  have hnn : ∀ p ∈ f.particles, 0 ≤ p.prob := fun p hp => (hpos p hp).le
  have hN : (0 : K) < (n : K) := by exact_mod_cast hn
  have hW : 0 < weightSum f.particles := by
    obtain ⟨p, ps, h⟩ := List.exists_cons_of_ne_nil hne
    have h1 := hpos p (by simp [h])
    have h2 : 0 ≤ (ps.map Particle.prob).sum := by
      apply List.sum_nonneg
      intro x hx; obtain ⟨q, hq, rfl⟩ := List.mem_map.mp hx; exact hnn q (by simp [h, hq])
    simp only [weightSum, h, List.map_cons, List.sum_cons]; linarith
  obtain ⟨f', e, -, hl, hsp⟩ := resize_spec s0 junk f n _ hsort (Or.inl hne)
  obtain ⟨hlt, f2, e2, hst⟩ := resize_closed f (accumulate 0 f.particles) s0 junk n hn hne hW.le hnn
    (accumulate_sorted _ hnn)
  rw [e] at e2
  simp only [Outcome.ok.injEq] at e2
  subst e2
  refine ⟨f', e, hl, fun p hp => (hsp p hp).1, ?_, ?_⟩
  · refine ⟨fun i => cut (accumulate 0 f.particles)
      (weightSum f.particles / (n : K) * ((i + 1 : Nat) : K)), ?_, ?_⟩
    · intro i j hij
      apply cut_mono
      have : ((i + 1 : Nat) : K) ≤ ((j + 1 : Nat) : K) := by exact_mod_cast (by omega)
      exact mul_le_mul_of_nonneg_left this (div_pos hW hN).le
    · intro i hi
      have hc := hlt i (by omega)
      rw [accumulate_length] at hc
      refine ⟨hc, ?_⟩
      have hget : f'.particles[i].state =
          (f'.particles.map Particle.state)[i]'(by simpa using hi) := by simp
      rw [hget]
      simp only [hst, List.getElem_map, List.getElem_range]
      rw [List.getElem?_eq_getElem (by rw [accumulate_length]; exact hc), Option.map_some,
        Option.getD_some, accumulate_getElem_state _ _ hc]
  · intro tag j hj huniq
    rw [resize_copies f f' s0 junk n hn tag hnn hW j hj huniq e]
    have hb := floor_diff_bounds
      ((pre f.particles j - weightSum f.particles / (n : K)) / (weightSum f.particles / (n : K)))
      ((pre f.particles (j + 1) - weightSum f.particles / (n : K)) /
        (weightSum f.particles / (n : K)))
    rw [diff_over_step f.particles hW _ _ hN j hj] at hb
    exact hb

/-- **C20, second part**: resizing a uniformly weighted set to its own size changes neither the
states nor the weights. -/
theorem C20_resize_own_size (f : Filter S K) (dup : List (Particle S K)) (s0 : S)
    (junk : Nat → K) (hne : f.particles ≠ [])
    (huni : ∀ p ∈ f.particles, p.prob = 1 / (f.particles.length : K))
    (hsort : IsSorted (accumulate 0 f.particles) dup) :
    ∃ f', f.resize s0 junk f.particles.length dup = .ok f' ∧
      f'.particles.map Particle.state = f.particles.map Particle.state ∧
      f'.particles.map Particle.prob = f.particles.map Particle.prob := by
  have hn := List.length_pos_iff.mpr hne
  have hN : (0 : K) < (f.particles.length : K) := by exact_mod_cast hn
  have hpos : ∀ p ∈ f.particles, 0 < p.prob := by
    intro p hp; rw [huni p hp]; positivity
  have hdup := sort_unique f.particles dup hpos hsort
  subst hdup
  have hnn : ∀ p ∈ f.particles, 0 ≤ p.prob := fun p hp => (hpos p hp).le
  have hW1 : weightSum f.particles = 1 := by
    unfold weightSum
    rw [sum_const _ _ huni]; field_simp
  have hpre : ∀ j, j ≤ f.particles.length → pre f.particles j = j / (f.particles.length : K) := by
    intro j
    induction j with
    | zero => intro _; simp
    | succ j ih =>
      intro hj
      rw [pre_succ _ _ (by omega), ih (by omega), huni _ (List.getElem_mem _)]
      push_cast; field_simp
  obtain ⟨f', e, -, hl, hsp⟩ := resize_spec s0 junk f f.particles.length _ hsort (Or.inl hne)
  obtain ⟨hlt, f2, e2, hst⟩ := resize_closed f (accumulate 0 f.particles) s0 junk
    f.particles.length hn hne (by rw [hW1]; exact zero_le_one) hnn (accumulate_sorted _ hnn)
  rw [e] at e2
  simp only [Outcome.ok.injEq] at e2
  subst e2
  refine ⟨f', e, ?_, ?_⟩
  · rw [hst]
    apply List.ext_getElem
    · simp
    · intro i h1 h2
      have hi : i < f.particles.length := by simpa using h2
      simp only [List.getElem_map, List.getElem_range]
      have hcut : cut (accumulate 0 f.particles)
          (weightSum f.particles / (f.particles.length : K) * ((i + 1 : Nat) : K)) = i := by
        rw [cut_accumulate f.particles hnn _ i hi, hpre i (by omega), hpre (i + 1) (by omega), hW1]
        constructor
        · intro _
          push_cast
          rw [div_mul_eq_mul_div, one_mul]
          exact (div_lt_div_iff_of_pos_right hN).mpr (by linarith)
        · push_cast
          rw [div_mul_eq_mul_div, one_mul]
      rw [hcut, List.getElem?_eq_getElem (by rw [accumulate_length]; exact hi), Option.map_some,
        Option.getD_some, accumulate_getElem_state _ _ hi]
  · apply List.ext_getElem
    · simp [hl]
    · intro i h1 h2
      simp only [List.getElem_map]
      rw [(hsp _ (List.getElem_mem _)).1, huni _ (List.getElem_mem _)]

/-- **C20** with weight-0 particles and an unstable sort: the particle 10 has all the weight, but
an unstable sort may put the weight-0 particle 20 with the same key first, and resizing to 2 yields
only copies of 20. -/
theorem C20_needs_stable_sort :
    IsSorted (accumulate 0 ([⟨10, 1, 1, 0⟩, ⟨20, 0, 1, 0⟩] : List (Particle Nat ℚ)))
      [⟨20, 0, 1, 1⟩, ⟨10, 1, 1, 1⟩] ∧
    ∃ f' : Filter Nat ℚ,
      (⟨[⟨10, 1, 1, 0⟩, ⟨20, 0, 1, 0⟩], none⟩ : Filter Nat ℚ).resize 0 (fun _ => 0) 2
        [⟨20, 0, 1, 1⟩, ⟨10, 1, 1, 1⟩] = .ok f' ∧
      copies id 10 f' = 0 := by
  refine ⟨C18_needs_stable_sort.1, ⟨[⟨20, 1/2, 1, 1⟩, ⟨20, 1/2, 1, 1⟩], none⟩, ?_, by decide⟩
  norm_num [Filter.resize, accumulate, resizeLoop, total, lowerBound, deref, vectorResize,
    List.takeWhile]

/-! ## Non-vacuity: three particles with distinct states and positive weights -/

/-- A filter meeting the hypotheses of C17, C19 and C20. -/
def demoQ : Filter Nat ℚ :=
  ⟨[⟨10, 1/2, 1, 0⟩, ⟨20, 1/3, 1, 0⟩, ⟨30, 1/6, 1, 0⟩], none⟩

example : (∀ p ∈ demoQ.particles, 0 < p.prob) ∧
    IsSorted (accumulate 0 demoQ.particles) (accumulate 0 demoQ.particles) ∧
    (0 : ℚ) < 1/4 ∧ (1/4 : ℚ) < (demoQ.particles.map Particle.prob).sum / (demoQ.particles.length : ℚ) ∧
    (∀ i (hi : i < demoQ.particles.length),
      (demoQ.particles[i].state = (demoQ.particles[1]'(by decide)).state → i = 1)) ∧
    demoQ.particles ≠ [] := by
  refine ⟨by simp [demoQ], ?_, by norm_num, by norm_num [demoQ], ?_, by simp [demoQ]⟩
  · exact accumulate_sorted _ (by simp [demoQ])
  · decide

/-- The tag hypothesis of C17/C18 is met, for instance, by a state made of an identifier that
noise never changes and a value that noise changes. -/
example : let _ : StateOps (Nat × ℚ) := ⟨fun a b => (a.1, a.2 + b.2), id⟩
    ∀ s n : Nat × ℚ, (StateOps.normalize (StateOps.add s n)).1 = s.1 := by
  intro _ s n; rfl

end PF
end Mcl3dl
