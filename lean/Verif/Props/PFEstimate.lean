import Verif.Props.PFResample

/-!
# Estimates: maximum, expectation, covariance (C22–C27), exact arithmetic
-/

set_option linter.unusedSectionVars false

namespace Mcl3dl
namespace PF

variable {S K ι : Type} [Field K] [LinearOrder K] [IsStrictOrderedRing K]

/-! ## C22: maximum -/

theorem maxLoop_spec (key : Particle S K → K) (ps : List (Particle S K)) (m : S) (b : K) :
    (maxLoop key m b ps = m ∧ ∀ p ∈ ps, key p ≤ b) ∨
    ∃ i, ∃ hi : i < ps.length, maxLoop key m b ps = ps[i].state ∧ b < key ps[i] ∧
      (∀ p ∈ ps, key p ≤ key ps[i]) ∧ ∀ j (hj : j < i), key (ps[j]'(by omega)) < key ps[i] := by
  induction ps generalizing m b with
  | nil => left; simp [maxLoop]
  | cons p ps ih =>
    simp only [maxLoop]
    by_cases h : b < key p
    · rw [if_pos h]
      right
      rcases ih p.state (key p) with ⟨h1, h2⟩ | ⟨i, hi, h1, h2, h3, h4⟩
      · refine ⟨0, by simp, by simpa using h1, h, ?_, by simp⟩
        intro q hq
        rcases List.mem_cons.mp hq with rfl | hq
        · exact le_refl _
        · exact h2 q hq
      · refine ⟨i + 1, by simpa using hi, by simpa using h1, lt_trans h h2, ?_, ?_⟩
        · intro q hq
          rcases List.mem_cons.mp hq with rfl | hq
          · exact h2.le
          · exact h3 q hq
        · intro j hj
          cases j with
          | zero => simpa using h2
          | succ j => simpa using h4 j (by omega)
    · rw [if_neg h]
      have hle := not_lt.mp h
      rcases ih m b with ⟨h1, h2⟩ | ⟨i, hi, h1, h2, h3, h4⟩
      · left
        refine ⟨h1, ?_⟩
        intro q hq
        rcases List.mem_cons.mp hq with rfl | hq
        · exact hle
        · exact h2 q hq
      · right
        refine ⟨i + 1, by simpa using hi, by simpa using h1, h2, ?_, ?_⟩
        · intro q hq
          rcases List.mem_cons.mp hq with rfl | hq
          · exact (lt_of_le_of_lt hle h2).le
          · exact h3 q hq
        · intro j hj
          cases j with
          | zero => simpa using lt_of_le_of_lt hle h2
          | succ j => simpa using h4 j (by omega)

theorem maxLoop_first (key : Particle S K → K) (p : Particle S K) (ps : List (Particle S K)) :
    ∃ i, ∃ hi : i < (p :: ps).length, maxLoop key p.state (key p) (p :: ps) = (p :: ps)[i].state ∧
      (∀ q ∈ p :: ps, key q ≤ key (p :: ps)[i]) ∧
      ∀ j (hj : j < i), key ((p :: ps)[j]'(by omega)) < key (p :: ps)[i] := by
  rcases maxLoop_spec key (p :: ps) p.state (key p) with ⟨h1, h2⟩ | ⟨i, hi, h1, -, h3, h4⟩
  · exact ⟨0, by simp, by simpa using h1, by simpa using h2, by simp⟩
  · exact ⟨i, hi, h1, h3, h4⟩

/-- **C22**: `max()` returns the state of the first particle of maximal weight. -/
theorem C22_max_is_first_maximum (f : Filter S K) (s : S) (h : f.max = .ok s) :
    ∃ i, ∃ hi : i < f.particles.length, s = f.particles[i].state ∧
      (∀ q ∈ f.particles, q.prob ≤ f.particles[i].prob) ∧
      ∀ j (hj : j < i), (f.particles[j]'(by omega)).prob < f.particles[i].prob := by
  unfold Filter.max at h
  split at h
  · simp at h
  · rename_i p ps hp
    simp only [Outcome.ok.injEq] at h
    subst h
    obtain ⟨i, hi, h1, h2, h3⟩ := maxLoop_first (fun p => p.prob) p ps
    simp only [hp]
    exact ⟨i, hi, h1, h2, h3⟩

/-- **C22**: `maxBiased()` returns the state of the first particle of maximal weight times
bias. -/
theorem C22_maxBiased_is_first_maximum (f : Filter S K) (s : S) (h : f.maxBiased = .ok s) :
    ∃ i, ∃ hi : i < f.particles.length, s = f.particles[i].state ∧
      (∀ q ∈ f.particles, q.prob * q.bias ≤ f.particles[i].prob * f.particles[i].bias) ∧
      ∀ j (hj : j < i), (f.particles[j]'(by omega)).prob * (f.particles[j]'(by omega)).bias <
        f.particles[i].prob * f.particles[i].bias := by
  unfold Filter.maxBiased at h
  split at h
  · simp at h
  · rename_i p ps hp
    simp only [Outcome.ok.injEq] at h
    subst h
    obtain ⟨i, hi, h1, h2, h3⟩ := maxLoop_first (fun p => p.prob * p.bias) p ps
    simp only [hp]
    exact ⟨i, hi, h1, h2, h3⟩

example : ∃ s, demoQ.max = .ok s := (C21_defined 0 id demoQ .covariance trivial
  (by simp [demoQ])).1

/-! ## C23, C24, C26, C27: expectation -/

/-- Weighted sum of component `i` over a list of particles. -/
def weightedSum (ps : List (Particle (ι → K) K)) (i : ι) : K :=
  (ps.map fun p => p.prob * p.state i).sum

theorem meanLoop_prefix (r : K) (ps : List (Particle (ι → K) K)) (m : (ι → K) × K) :
    ∃ n, n ≤ ps.length ∧ (ps ≠ [] → 0 < n) ∧
      (∀ i, (meanLoop componentMean r m ps).1 i = m.1 i + weightedSum (ps.take n) i) ∧
      (meanLoop componentMean r m ps).2 = m.2 + weightSum (ps.take n) ∧
      (n = ps.length ∨ r < m.2 + weightSum (ps.take n)) ∧
      ∀ k, 0 < k → k < n → ¬ r < m.2 + weightSum (ps.take k) := by
  induction ps generalizing m with
  | nil => exact ⟨0, le_refl _, by simp, by simp [meanLoop, weightedSum], by simp [meanLoop, weightSum],
      Or.inl rfl, by omega⟩
  | cons p ps ih =>
    simp only [meanLoop]
    by_cases h : r < componentMean.total (componentMean.add m p.state p.prob)
    · rw [if_pos h]
      refine ⟨1, by simp, by simp, ?_, ?_, Or.inr ?_, by omega⟩
      · intro i; simp [componentMean, weightedSum]; ring
      · simp [componentMean, weightSum]
      · simpa [componentMean, weightSum] using h
    · rw [if_neg h]
      obtain ⟨n, hn, -, h1, h2, h3, h4⟩ := ih (componentMean.add m p.state p.prob)
      refine ⟨n + 1, by simpa using hn, by simp, ?_, ?_, ?_, ?_⟩
      · intro i; rw [h1 i]; simp [componentMean, weightedSum]; ring
      · rw [h2]; simp [componentMean, weightSum]; ring
      · rcases h3 with h3 | h3
        · left; simp [h3]
        · right
          simp only [List.take_succ_cons, weightSum, List.map_cons, List.sum_cons]
          simp only [componentMean, weightSum] at h3
          rw [← add_assoc]; exact h3
      · intro k hk hkn
        cases k with
        | zero => omega
        | succ k =>
          rcases Nat.eq_zero_or_pos k with h0 | h0
          · subst h0
            simpa [componentMean, weightSum] using h
          · have := h4 k h0 (by omega)
            simp only [List.take_succ_cons, weightSum, List.map_cons, List.sum_cons]
            simp only [componentMean, weightSum] at this
            rw [← add_assoc]; exact this

theorem weightSum_take_le (ps : List (Particle S K)) (hnn : ∀ p ∈ ps, 0 ≤ p.prob) (n : Nat) :
    weightSum (ps.take n) ≤ weightSum ps := by
  have h := pre_mono ps hnn (show n ≤ max n ps.length by omega)
  rw [pre_ge_length ps (max n ps.length) (by omega)] at h
  exact h

/-- With total weight at most the pass ratio the loop never stops early. -/
theorem meanLoop_all (r : K) (ps : List (Particle (ι → K) K)) (hnn : ∀ p ∈ ps, 0 ≤ p.prob)
    (hs : weightSum ps ≤ r) :
    (∀ i, (meanLoop componentMean r componentMean.empty ps).1 i = weightedSum ps i) ∧
    (meanLoop componentMean r componentMean.empty ps).2 = weightSum ps := by
  obtain ⟨n, hn, -, h1, h2, h3, -⟩ := meanLoop_prefix r ps componentMean.empty
  have hn' : n = ps.length := by
    rcases h3 with h3 | h3
    · exact h3
    · exfalso
      have := weightSum_take_le ps hnn n
      simp only [componentMean, zero_add] at h3
      exact absurd (lt_of_lt_of_le h3 this) (not_lt.mpr hs)
  subst hn'
  rw [List.take_length] at h1 h2
  exact ⟨fun i => by rw [h1 i]; simp [componentMean], by rw [h2]; simp [componentMean]⟩

theorem weightedSum_bounds (ps : List (Particle (ι → K) K)) (hnn : ∀ p ∈ ps, 0 ≤ p.prob) (i : ι)
    (lo hi : K) (hlo : ∀ p ∈ ps, lo ≤ p.state i) (hhi : ∀ p ∈ ps, p.state i ≤ hi) :
    lo * weightSum ps ≤ weightedSum ps i ∧ weightedSum ps i ≤ hi * weightSum ps := by
  unfold weightedSum weightSum
  induction ps with
  | nil => simp
  | cons p ps ih =>
    obtain ⟨h1, h2⟩ := ih (fun q hq => hnn q (by simp [hq])) (fun q hq => hlo q (by simp [hq]))
      (fun q hq => hhi q (by simp [hq]))
    simp only [List.map_cons, List.sum_cons]
    have a1 := mul_le_mul_of_nonneg_left (hlo p (by simp)) (hnn p (by simp))
    have a2 := mul_le_mul_of_nonneg_left (hhi p (by simp)) (hnn p (by simp))
    constructor <;> nlinarith

/-- **C23**: for weights forming a distribution, `expectation()` with the default pass ratio 1 is
the weighted mean in every component, lies between any bounds of the particle values, and does not
change the filter. -/
theorem C23_expectation_is_weighted_mean (f : Filter (ι → K) K)
    (sorted : List (Particle (ι → K) K)) (hnn : ∀ p ∈ f.particles, 0 ≤ p.prob)
    (hsum : (f.particles.map Particle.prob).sum = 1) (i : ι) :
    (f.expectation componentMean 1 sorted).1 i =
      (f.particles.map fun p => p.prob * p.state i).sum ∧
    (∀ lo hi, (∀ p ∈ f.particles, lo ≤ p.state i ∧ p.state i ≤ hi) →
      lo ≤ (f.expectation componentMean 1 sorted).1 i ∧
      (f.expectation componentMean 1 sorted).1 i ≤ hi) ∧
    (f.expectation componentMean 1 sorted).2 = f := by
  have hW : weightSum f.particles = 1 := hsum
  obtain ⟨h1, h2⟩ := meanLoop_all 1 f.particles hnn (by rw [hW])
  have he : (f.expectation componentMean 1 sorted).1 i = weightedSum f.particles i := by
    simp only [Filter.expectation, lt_irrefl, if_false]
    change (meanLoop componentMean 1 componentMean.empty f.particles).1 i /
      (meanLoop componentMean 1 componentMean.empty f.particles).2 = _
    rw [h1 i, h2, hW, div_one]
  refine ⟨he, ?_, ?_⟩
  · intro lo hi hb
    rw [he]
    obtain ⟨b1, b2⟩ := weightedSum_bounds f.particles hnn i lo hi (fun p hp => (hb p hp).1)
      (fun p hp => (hb p hp).2)
    rw [hW, mul_one] at b1 b2
    exact ⟨b1, b2⟩
  · simp [Filter.expectation]

example : ∃ f : Filter (Fin 2 → ℚ) ℚ, (∀ p ∈ f.particles, 0 ≤ p.prob) ∧
    (f.particles.map Particle.prob).sum = 1 ∧ f.particles.length = 2 :=
  ⟨⟨[⟨![1, 2], 1/4, 1, 0⟩, ⟨![3, 4], 3/4, 1, 0⟩], none⟩, by
    intro p hp; simp at hp; rcases hp with rfl | rfl <;> norm_num, by norm_num, rfl⟩

/-- **C24**: `expectation(r)` is the weighted mean of the shortest non-empty prefix of
the particle list as sorted by descending `accum_probability_` whose weight exceeds `r` (or of the
whole list).  That order is *not* "most probable first" — the sort key is the cumulative
weight left behind by the last resampling, see `C24_not_most_probable`. -/
theorem C24_expectation_prefix (f : Filter (ι → K) K)
    (sorted : List (Particle (ι → K) K)) (r : K) (hr : r < 1)
    (_hsort : IsSortedDesc f.particles sorted) :
    ∃ n, n ≤ sorted.length ∧ (sorted ≠ [] → 0 < n) ∧
      (∀ i, (f.expectation componentMean r sorted).1 i =
        ((sorted.take n).map fun p => p.prob * p.state i).sum /
          ((sorted.take n).map Particle.prob).sum) ∧
      (n = sorted.length ∨ r < ((sorted.take n).map Particle.prob).sum) ∧
      ∀ k, 0 < k → k < n → ¬ r < ((sorted.take k).map Particle.prob).sum := by
  obtain ⟨n, hn, h0, h1, h2, h3, h4⟩ := meanLoop_prefix r sorted componentMean.empty
  refine ⟨n, hn, h0, ?_, ?_, ?_⟩
  · intro i
    simp only [Filter.expectation, hr, if_true]
    change (meanLoop componentMean r componentMean.empty sorted).1 i /
      (meanLoop componentMean r componentMean.empty sorted).2 = _
    rw [h1 i, h2]
    simp [componentMean, weightedSum, weightSum]
  · simpa [componentMean, weightSum] using h3
  · intro k hk hkn
    simpa [componentMean, weightSum] using h4 k hk hkn

/-- What C24 promises: the mean of the shortest prefix of weight above `r` of the particles in
descending order of *weight*. -/
def MeanOfMostProbable (f : Filter (ι → K) K) (r : K) (e : ι → K) : Prop :=
  ∃ (byWeight : List (Particle (ι → K) K)) (n : Nat), byWeight.Perm f.particles ∧
    (byWeight.Pairwise fun a b => b.prob ≤ a.prob) ∧
    (n = byWeight.length ∨ r < ((byWeight.take n).map Particle.prob).sum) ∧
    (∀ k, 0 < k → k < n → ¬ r < ((byWeight.take k).map Particle.prob).sum) ∧ 0 < n ∧
    ∀ i, e i = ((byWeight.take n).map fun p => p.prob * p.state i).sum /
      ((byWeight.take n).map Particle.prob).sum

/-- **C24**: what a call of `expectation(r)` leaves behind: from `r = 1` on nothing is changed; below, the particles are the
same ones, sorted. -/
theorem C24_effect (s0 : ι → K) (log : K → K) [StateOps (ι → K)] (f : Filter (ι → K) K)
    (sorted : List (Particle (ι → K) K)) (r : K) :
    step s0 log f (.expectation r sorted) = .ok (f.expectation componentMean r sorted).2 ∧
    (1 ≤ r → step s0 log f (.expectation r sorted) = .ok f) ∧
    (r < 1 → IsSortedDesc f.particles sorted → ∃ f', step s0 log f (.expectation r sorted) = .ok f' ∧
      f'.particles.Perm f.particles ∧ (f'.particles.Pairwise fun a b => b.accum ≤ a.accum) ∧ f'.entropy = f.entropy) := by
  refine ⟨rfl, fun h => ?_, fun h hs => ⟨_, rfl, ?_, ?_, rfl⟩⟩
  · show Outcome.ok _ = _
    rw [if_neg (not_lt.2 h)]
  · show (if r < 1 then sorted else f.particles).Perm f.particles
    rw [if_pos h]
    exact hs.1
  · show (if r < 1 then sorted else f.particles).Pairwise _
    rw [if_pos h]
    exact hs.2.imp fun hab => not_lt.1 hab

/-- **C24, not the most probable ones**: particles at 0 (weight 3/4) and 1 (weight 1/4), with cumulative
keys 1/2 and 1 from a preceding resampling; `expectation(1/2)` returns 1/4, although the most
probable particle alone exceeds the ratio and its mean is 0. -/
theorem C24_not_most_probable :
    ∃ (f : Filter (Fin 1 → ℚ) ℚ) (sorted : List (Particle (Fin 1 → ℚ) ℚ)),
      IsSortedDesc f.particles sorted ∧ (f.particles.map Particle.prob).sum = 1 ∧
      (f.expectation componentMean (1/2) sorted).1 0 = 1/4 ∧
      ¬ MeanOfMostProbable f (1/2) (f.expectation componentMean (1/2) sorted).1 := by
  have hval : ((⟨[⟨fun _ => 0, 3/4, 1, 1/2⟩, ⟨fun _ => 1, 1/4, 1, 1⟩], none⟩ :
      Filter (Fin 1 → ℚ) ℚ).expectation componentMean (1/2)
        [⟨fun _ => 1, 1/4, 1, 1⟩, ⟨fun _ => 0, 3/4, 1, 1/2⟩]).1 0 = 1/4 := by
    norm_num [Filter.expectation, meanLoop, componentMean]
  refine ⟨⟨[⟨fun _ => 0, 3/4, 1, 1/2⟩, ⟨fun _ => 1, 1/4, 1, 1⟩], none⟩,
    [⟨fun _ => 1, 1/4, 1, 1⟩, ⟨fun _ => 0, 3/4, 1, 1/2⟩], ⟨List.Perm.swap _ _ _, ?_⟩, ?_, hval, ?_⟩
  · norm_num
  · norm_num
  · rintro ⟨bw, n, hperm, hpw, -, hmin, hpos, hmean⟩
    have hm := hmean 0
    rw [hval] at hm
    have hlen := hperm.length_eq
    obtain ⟨a, b, rfl⟩ : ∃ a b, bw = [a, b] := by
      match bw, hlen with
      | [a, b], _ => exact ⟨a, b, rfl⟩
    have ha : a = ⟨fun _ => 0, 3/4, 1, 1/2⟩ := by
      have ham := hperm.mem_iff.mp (show a ∈ [a, b] by simp)
      simp only [List.mem_cons, List.not_mem_nil, or_false] at ham
      rcases ham with h | h
      · exact h
      · exfalso
        have hmem := hperm.mem_iff.mpr
          (show (⟨fun _ => 0, 3/4, 1, 1/2⟩ : Particle (Fin 1 → ℚ) ℚ) ∈
            [⟨fun _ => 0, 3/4, 1, 1/2⟩, ⟨fun _ => 1, 1/4, 1, 1⟩] by simp)
        simp only [List.mem_cons, List.not_mem_nil, or_false] at hmem
        rcases hmem with h' | h'
        · rw [h] at h'
          have := congrArg Particle.prob h'
          norm_num at this
        · simp only [List.pairwise_cons] at hpw
          have := hpw.1 b (by simp)
          rw [h, ← h'] at this
          norm_num at this
    subst ha
    have hn : n = 1 := by
      rcases Nat.lt_or_ge 1 n with h | h
      · exact absurd (show (1/2 : ℚ) < _ by norm_num) (hmin 1 (by omega) h)
      · omega
    subst hn
    norm_num at hm

/-- **C26**, for every weight distribution: `expectation()` is the weighted mean of the particles from the first up
to and including the one with which the weight exceeds 1 — of all, if it never does. -/
theorem C26_expectation_prefix (f : Filter (ι → K) K) (sorted : List (Particle (ι → K) K)) :
    ∃ n, n ≤ f.particles.length ∧
      (∀ i, (f.expectation componentMean 1 sorted).1 i =
        ((f.particles.take n).map fun p => p.prob * p.state i).sum /
          ((f.particles.take n).map Particle.prob).sum) ∧
      (n = f.particles.length ∨ 1 < ((f.particles.take n).map Particle.prob).sum) ∧
      ∀ k, 0 < k → k < n → ¬ 1 < ((f.particles.take k).map Particle.prob).sum := by
  obtain ⟨n, hn, -, h1, h2, h3, h4⟩ := meanLoop_prefix 1 f.particles componentMean.empty
  refine ⟨n, hn, ?_, ?_, ?_⟩
  · intro i
    simp only [Filter.expectation, lt_irrefl, if_false]
    change (meanLoop componentMean 1 componentMean.empty f.particles).1 i /
      (meanLoop componentMean 1 componentMean.empty f.particles).2 = _
    rw [h1 i, h2]
    simp [componentMean, weightedSum, weightSum]
  · simpa [componentMean, weightSum] using h3
  · intro k hk hkn
    simpa [componentMean, weightSum] using h4 k hk hkn

/-- **C26**: `expectation()` takes every particle into account when the weights are
non-negative with positive sum at most 1.  (With larger sums it stops early:
`C26_stops_early`.) -/
theorem C26_expectation_uses_all (f : Filter (ι → K) K)
    (sorted : List (Particle (ι → K) K)) (hnn : ∀ p ∈ f.particles, 0 ≤ p.prob)
    (hsum : (f.particles.map Particle.prob).sum ≤ 1) (i : ι) :
    (f.expectation componentMean 1 sorted).1 i =
      (f.particles.map fun p => p.prob * p.state i).sum / (f.particles.map Particle.prob).sum := by
  obtain ⟨h1, h2⟩ := meanLoop_all 1 f.particles hnn hsum
  simp only [Filter.expectation, lt_irrefl, if_false]
  change (meanLoop componentMean 1 componentMean.empty f.particles).1 i /
      (meanLoop componentMean 1 componentMean.empty f.particles).2 = _
  rw [h1 i, h2]; rfl

/-- **C26, large weights**: as soon as the weights of the first particles exceed 1 in total,
`expectation()` ignores all following particles — here every particle after the first.  Weights of
this scale are what global localization assigns (mcl_3dl.cpp:1084-1094, see C96). -/
theorem C26_stops_early (p : Particle (ι → K) K) (ps sorted : List (Particle (ι → K) K))
    (e : Option K) (hp : 1 < p.prob) :
    (Filter.expectation componentMean ⟨p :: ps, e⟩ 1 sorted).1 = p.state := by
  funext i
  have hp0 : p.prob ≠ 0 := (lt_trans zero_lt_one hp).ne'
  simp only [Filter.expectation, lt_irrefl, if_false, meanLoop]
  rw [if_pos (by simpa [componentMean] using hp)]
  simp only [componentMean, zero_add, add_zero]
  field_simp

/-- **C27, second half**: appended particles leave the expectation unchanged. -/
theorem C27_append_keeps_mean (f : Filter (ι → K) K) (s0 : ι → K) (junk : Nat → K) (n : Nat)
    (sorted : List (Particle (ι → K) K)) (hnn : ∀ p ∈ f.particles, 0 ≤ p.prob)
    (hsum : (f.particles.map Particle.prob).sum ≤ 1) :
    ((f.append s0 junk n).expectation componentMean 1 sorted).1 =
      (f.expectation componentMean 1 sorted).1 := by
  obtain ⟨new, happ, -, hz⟩ := C27_append_inert s0 junk f n
  have hs0 : (new.map Particle.prob).sum = 0 := by
    rw [sum_const new 0 (fun p hp => (hz p hp).1), mul_zero]
  have hs1 : ∀ i, (new.map fun p => p.prob * p.state i).sum = 0 := by
    intro i
    apply List.sum_eq_zero
    intro x hx
    obtain ⟨p, hp, rfl⟩ := List.mem_map.mp hx
    rw [(hz p hp).1, zero_mul]
  funext i
  rw [C26_expectation_uses_all f sorted hnn hsum,
    C26_expectation_uses_all (f.append s0 junk n) sorted]
  · rw [happ]; simp [hs0, hs1]
  · intro p hp
    rw [happ] at hp
    rcases List.mem_append.mp hp with hp | hp
    · exact hnn p hp
    · rw [(hz p hp).1]
  · rw [happ]; simpa [hs0] using hsum

/-! ## C25: covariance -/

theorem foldl_add_eq_sum {α : Type} (g : α → K) (a : K) (l : List α) :
    l.foldl (fun acc x => acc + g x) a = a + (l.map g).sum := by
  induction l generalizing a with
  | nil => simp
  | cons x l ih => simp only [List.foldl_cons, ih, List.map_cons, List.sum_cons]; ring

theorem sum_nonneg_sq {α : Type} (l : List α) (w q : α → K) (hw : ∀ x ∈ l, 0 ≤ w x) :
    0 ≤ (l.map fun x => w x * (q x * q x)).sum := by
  apply List.sum_nonneg
  intro y hy
  obtain ⟨x, hx, rfl⟩ := List.mem_map.mp hy
  exact mul_nonneg (hw x hx) (mul_self_nonneg _)

theorem passCount_le (r a : K) (ps : List (Particle S K)) : passCount r a ps ≤ ps.length := by
  induction ps generalizing a with
  | nil => simp [passCount]
  | cons p ps ih =>
    simp only [passCount, List.length_cons]
    split
    · omega
    · have := ih (a + p.prob); omega

/-- **C25**: for a deviation product `covElement(e, j, k) = d_j d_k` (which is what both
`covElement` implementations compute) and any admissible choice of indices, `covariance` is
defined; if the selected weight is positive, the result is the weighted average of the deviation
products, symmetric, and positive semidefinite.  (The sampled selection may be empty,
`C25_empty_selection`; then every entry is 0/0.) -/
theorem C25_covariance_psd {M : Type} (mo : MeanOps S K M) (dev : S → S → Nat → K)
    (f : Filter S K) (r : K) (sorted : List (Particle S K))
    (hsort : IsSortedDesc f.particles sorted) (sampling : Bool) (m : Nat) (indices : List Nat)
    (hidx : CovIndices (passCount r 0 (if r < 1 then sorted else f.particles)) sampling m indices)
    (hnn : ∀ p ∈ f.particles, 0 ≤ p.prob) :
    ∃ (cov : Nat → Nat → K) (sel : List (Particle S K)) (e : S),
      f.covariance mo (fun s e j k => dev s e j * dev s e k) r sorted indices =
        .ok (cov, (f.expectation mo r sorted).2) ∧
      e = (f.expectation mo r sorted).1 ∧ (∀ p ∈ sel, p ∈ f.particles) ∧
      sel.length = indices.length ∧
      (0 < (sel.map Particle.prob).sum →
        (∀ j k, cov j k = (sel.map fun p => p.prob * (dev p.state e j * dev p.state e k)).sum /
          (sel.map Particle.prob).sum) ∧
        (∀ j k, cov j k = cov k j) ∧
        ∀ (d : Nat) (x : Nat → K),
          0 ≤ ((List.range d).map fun j => ((List.range d).map fun k => x j * cov j k * x k).sum).sum) := by
  have hps : (f.expectation mo r sorted).2.particles = if r < 1 then sorted else f.particles := rfl
  have hlen : (if r < 1 then sorted else f.particles).length = f.particles.length := by
    split
    · exact hsort.1.length_eq
    · rfl
  have hin : ∀ i ∈ indices, i < (f.expectation mo r sorted).2.particles.length := by
    intro i hi
    rw [hps]
    have hpc := passCount_le r 0 (if r < 1 then sorted else f.particles)
    unfold CovIndices at hidx
    split at hidx
    · obtain ⟨sh, hperm, rfl⟩ := hidx
      have := hperm.mem_iff.mp (List.mem_of_mem_take hi)
      rw [List.mem_range] at this
      omega
    · subst hidx
      rw [List.mem_range] at hi; omega
  have hmem : ∀ p ∈ indices.filterMap (fun i => (f.expectation mo r sorted).2.particles[i]?),
      p ∈ f.particles := by
    intro p hp
    obtain ⟨i, -, hi⟩ := List.mem_filterMap.mp hp
    have := List.mem_of_getElem? hi
    rw [hps] at this
    split at this
    · exact hsort.1.mem_iff.mp this
    · exact this
  have hsl : (indices.filterMap (fun i => (f.expectation mo r sorted).2.particles[i]?)).length =
      indices.length := by
    clear hmem hidx
    induction indices with
    | nil => rfl
    | cons i l ih =>
      rw [List.filterMap_cons, List.getElem?_eq_getElem (hin i (by simp))]
      simp only [List.length_cons]
      rw [ih (fun k hk => hin k (by simp [hk]))]
  refine ⟨covarianceOf (fun s e j k => dev s e j * dev s e k) (f.expectation mo r sorted).1
      (indices.filterMap fun i => (f.expectation mo r sorted).2.particles[i]?),
    indices.filterMap (fun i => (f.expectation mo r sorted).2.particles[i]?), _,
    ?_, rfl, hmem, hsl, ?_⟩
  · simp only [Filter.covariance]
    rw [if_pos hin]
  · intro hpos
    generalize indices.filterMap (fun i => (f.expectation mo r sorted).2.particles[i]?) = sel at *
    generalize (f.expectation mo r sorted).1 = e at *
    have hform : ∀ j k, covarianceOf (fun s e j k => dev s e j * dev s e k) e sel j k =
        (sel.map fun p => p.prob * (dev p.state e j * dev p.state e k)).sum /
          (sel.map Particle.prob).sum := by
      intro j k
      simp only [covarianceOf, covSum, total_eq, weightSum]
      rw [foldl_add_eq_sum (fun p : Particle S K =>
        dev p.state e (min j k) * dev p.state e (max j k) * p.prob), zero_add]
      congr 2
      apply List.map_congr_left
      intro p _
      rcases le_total j k with h | h
      · rw [min_eq_left h, max_eq_right h]; ring
      · rw [min_eq_right h, max_eq_left h]; ring
    refine ⟨hform, ?_, ?_⟩
    · intro j k
      rw [hform, hform]
      congr 2
      apply List.map_congr_left
      intro p _
      ring
    · intro d x
      -- the quadratic form is a weighted sum of squares
      have hq : ((List.range d).map fun j => ((List.range d).map fun k =>
          x j * covarianceOf (fun s e j k => dev s e j * dev s e k) e sel j k * x k).sum).sum =
          (sel.map fun p => p.prob * (((List.range d).map fun j => x j * dev p.state e j).sum *
            ((List.range d).map fun j => x j * dev p.state e j).sum)).sum /
            (sel.map Particle.prob).sum := by
        simp only [hform]
        generalize (sel.map Particle.prob).sum = W
        clear hpos hform hsl hmem
        rw [← sum_div]
        induction sel with
        | nil => simp
        | cons p sel ih =>
          have hsplit : ((List.range d).map fun j => ((List.range d).map fun k =>
              x j * (((p :: sel).map fun p => p.prob * (dev p.state e j * dev p.state e k)).sum / W) *
                x k).sum).sum =
              ((List.range d).map fun j => ((List.range d).map fun k =>
                x j * (p.prob * (dev p.state e j * dev p.state e k) / W) * x k).sum).sum +
              ((List.range d).map fun j => ((List.range d).map fun k =>
                x j * ((sel.map fun p => p.prob * (dev p.state e j * dev p.state e k)).sum / W) *
                x k).sum).sum := by
            simp only [← List.sum_map_add]
            congr 1
            apply List.map_congr_left
            intro j _
            congr 1
            apply List.map_congr_left
            intro k _
            simp only [List.map_cons, List.sum_cons]
            ring
          rw [hsplit, ih]
          simp only [List.map_cons, List.sum_cons]
          congr 1
          have : ∀ j k, x j * (p.prob * (dev p.state e j * dev p.state e k) / W) * x k =
              (p.prob / W * (x j * dev p.state e j)) * (x k * dev p.state e k) := by
            intro j k; ring
          simp only [this]
          simp only [List.sum_map_mul_left, List.sum_map_mul_right]
          ring
      rw [hq]
      exact div_nonneg (sum_nonneg_sq sel Particle.prob _ (fun p hp => hnn p (hmem p hp))) hpos.le

end PF
end Mcl3dl
