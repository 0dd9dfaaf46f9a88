import Verif.Proofs.PFExact

/-! # Counting copies in systematic resampling -/

set_option linter.unusedSectionVars false

namespace Mcl3dl
namespace PF

variable {S K : Type} [Field K] [LinearOrder K] [IsStrictOrderedRing K] [FloorRing K]

/-- Number of naturals below `n` in `(a, b]`. -/
theorem countP_Ioc (n : Nat) (a b : K) (ha : -1 ≤ a) (hab : a ≤ b) (hb : b < n) :
    (((List.range n).countP fun i : Nat => decide (a < (i : K) ∧ (i : K) ≤ b) : Nat) : Int) =
      ⌊b⌋ - ⌊a⌋ := by
  have hfa : (-1 : Int) ≤ ⌊a⌋ := by
    rw [Int.le_floor]; push_cast; exact ha
  have hfab : ⌊a⌋ ≤ ⌊b⌋ := Int.floor_le_floor hab
  have hfb : ⌊b⌋ < n := by
    rw [Int.floor_lt]; push_cast; exact hb
  rw [List.countP_eq_length_filter]
  have hset : ((List.range n).filter fun i : Nat => decide (a < (i : K) ∧ (i : K) ≤ b)).toFinset =
      Finset.Ico (⌊a⌋ + 1).toNat (⌊b⌋ + 1).toNat := by
    ext i
    simp only [List.mem_toFinset, List.mem_filter, List.mem_range, decide_eq_true_eq,
      Finset.mem_Ico]
    have h1 : a < (i : K) ↔ ⌊a⌋ < (i : Int) := by
      rw [Int.floor_lt]; push_cast; rfl
    have h2 : (i : K) ≤ b ↔ (i : Int) ≤ ⌊b⌋ := by
      rw [Int.le_floor]; push_cast; rfl
    rw [h1, h2]
    omega
  have hnd : ((List.range n).filter fun i : Nat => decide (a < (i : K) ∧ (i : K) ≤ b)).Nodup :=
    List.nodup_range.filter _
  rw [← List.toFinset_card_of_nodup hnd, hset, Nat.card_Ico]
  omega

/-- `⌊x⌋ ≤ ⌊a + x⌋ - ⌊a⌋ ≤ ⌈x⌉`. -/
theorem floor_diff_bounds (a b : K) :
    ⌊b - a⌋ ≤ ⌊b⌋ - ⌊a⌋ ∧ ⌊b⌋ - ⌊a⌋ ≤ ⌈b - a⌉ := by
  constructor
  · have h : ⌊b - a⌋ + ⌊a⌋ ≤ ⌊b⌋ := by
      rw [Int.le_floor]; push_cast
      have := Int.floor_le (b - a); have := Int.floor_le a; linarith
    omega
  · have h : ⌊b⌋ < ⌈b - a⌉ + ⌊a⌋ + 1 := by
      rw [Int.floor_lt]; push_cast
      have := Int.le_ceil (b - a); have := Int.lt_floor_add_one a; linarith
    omega

section
omit [FloorRing K]

/-- The largest key of the sorted list is the total weight. -/
theorem exists_total_key (ps dup : List (Particle S K)) (hne : ps ≠ [])
    (hs : IsSorted (accumulate 0 ps) dup) : ∃ q ∈ dup, q.accum = weightSum ps := by
  have hl : ps.length - 1 < ps.length := by
    have := List.length_pos_iff.mpr hne; omega
  have hl' : ps.length - 1 < (accumulate 0 ps).length := by rw [accumulate_length]; exact hl
  refine ⟨(accumulate 0 ps)[ps.length - 1], hs.1.mem_iff.mpr (List.getElem_mem _), ?_⟩
  rw [accumulate_getElem 0 ps _ hl]
  have : ps.length - 1 + 1 = ps.length := by omega
  simp [this, pre_length]

/-- Scan position of iteration `i` of `resample`. -/
def scanPos (ps : List (Particle S K)) (u : K) (i : Nat) : K :=
  weightSum ps / (ps.length : K) * (i : K) + u

theorem scanPos_mono (ps : List (Particle S K)) (u : K) (hW : 0 ≤ weightSum ps) {k l : Nat}
    (h : k ≤ l) : scanPos ps u k ≤ scanPos ps u l := by
  unfold scanPos
  have h1 : 0 ≤ weightSum ps / (ps.length : K) := div_nonneg hW (Nat.cast_nonneg _)
  have h2 : (k : K) ≤ (l : K) := by exact_mod_cast h
  have := mul_le_mul_of_nonneg_left h2 h1
  linarith

theorem scanPos_lt (ps : List (Particle S K)) (u : K) (hW : 0 ≤ weightSum ps)
    (hu : u < weightSum ps / (ps.length : K)) {k : Nat} (hk : k < ps.length) :
    scanPos ps u k < weightSum ps := by
  unfold scanPos
  have hN : (0 : K) < (ps.length : K) := by exact_mod_cast (by omega : 0 < ps.length)
  have h1 : 0 ≤ weightSum ps / (ps.length : K) := div_nonneg hW hN.le
  have h2 : (k : K) + 1 ≤ (ps.length : K) := by exact_mod_cast hk
  have h3 := mul_le_mul_of_nonneg_left h2 h1
  have h4 : weightSum ps / (ps.length : K) * (ps.length : K) = weightSum ps := by
    field_simp
  rw [h4] at h3
  linarith

/-- Closed form of `resample` for a legal draw. -/
theorem resample_closed [StateOps S] (f : Filter S K) (dup : List (Particle S K)) (u : K)
    (noise : Nat → S) (s0 : S) (hne : f.particles ≠ []) (hW : 0 ≤ weightSum f.particles)
    (hu : u < weightSum f.particles / (f.particles.length : K))
    (hs : IsSorted (accumulate 0 f.particles) dup) :
    (∀ i < f.particles.length, cut dup (scanPos f.particles u i) < dup.length) ∧
    ∃ f', f.resample dup u noise = .ok f' ∧
      f'.particles.map Particle.state = (List.range f.particles.length).map fun i =>
        resampledState dup noise s0 i (cut dup (scanPos f.particles u i))
          (if i = 0 then 0 else cut dup (scanPos f.particles u (i - 1))) := by
  obtain ⟨q, hq, hqa⟩ := exists_total_key f.particles dup hne hs
  have hlt : ∀ i < f.particles.length, cut dup (scanPos f.particles u i) < dup.length := by
    intro i hi
    refine cut_lt_of_mem dup _ q hq ?_
    rw [hqa]
    exact (scanPos_lt f.particles u hW hu hi).le
  refine ⟨hlt, ?_⟩
  have hlen := hs.length_eq
  rw [accumulate_length] at hlen
  -- a key below everything, so that the search starts at the beginning
  obtain ⟨v0, hv0, hc0⟩ : ∃ v0, v0 ≤ u ∧ cut dup v0 = 0 := by
    cases hd : dup with
    | nil => exact ⟨u, le_refl _, by simp [cut]⟩
    | cons d t =>
      refine ⟨min u d.accum, min_le_left _ _, ?_⟩
      have : ¬ d.accum < min u d.accum := not_lt.mpr (min_le_right _ _)
      unfold cut
      rw [List.takeWhile_cons]
      simp only [this, decide_false, Bool.false_eq_true, if_false, List.length_nil]
  obtain ⟨ps', e, hst⟩ := resampleLoop_closed dup
    (weightSum f.particles / (f.particles.length : K)) u (1 / (f.particles.length : K)) noise s0
    (accumulate 0 f.particles) 0 v0 0
    (fun k l hkl => scanPos_mono f.particles u hW hkl)
    (by simpa using hv0)
    (by
      intro k hk
      rw [accumulate_length] at hk
      exact hlt k (by omega))
  rw [hc0] at e
  refine ⟨{ f with particles := ps' }, ?_, ?_⟩
  · simp only [Filter.resample, accumulate_length, total_eq, e, Outcome.bind_ok]
  · simp only [hst, accumulate_length]
    apply List.map_congr_left
    intro i _
    simp only [Nat.zero_add, scanPos]

/-- Closed form of `resizeParticle`. -/
theorem resize_closed (f : Filter S K) (dup : List (Particle S K)) (s0 : S) (junk : Nat → K)
    (n : Nat) (hn : 0 < n) (hne : f.particles ≠ []) (hW : 0 ≤ weightSum f.particles)
    (hnn : ∀ p ∈ f.particles, 0 ≤ p.prob)
    (hs : IsSorted (accumulate 0 f.particles) dup) :
    (∀ i < n, cut dup (weightSum f.particles / (n : K) * ((i + 1 : Nat) : K)) < dup.length) ∧
    ∃ f', f.resize s0 junk n dup = .ok f' ∧
      f'.particles.map Particle.state = (List.range n).map fun i =>
        ((dup[cut dup (weightSum f.particles / (n : K) * ((i + 1 : Nat) : K))]?).map
          Particle.state).getD s0 := by
  obtain ⟨q, hq, hqa⟩ := exists_total_key f.particles dup hne hs
  have hN : (0 : K) < (n : K) := by exact_mod_cast hn
  have h1 : 0 ≤ weightSum f.particles / (n : K) := div_nonneg hW hN.le
  have hlt : ∀ k, k ≤ n → cut dup (weightSum f.particles / (n : K) * (k : K)) < dup.length := by
    intro k hk
    refine cut_lt_of_mem dup _ q hq ?_
    rw [hqa]
    have h2 : (k : K) ≤ (n : K) := by exact_mod_cast hk
    have h3 := mul_le_mul_of_nonneg_left h2 h1
    have h4 : weightSum f.particles / (n : K) * (n : K) = weightSum f.particles := by
      field_simp
    linarith
  refine ⟨fun i hi => hlt (i + 1) (by omega), ?_⟩
  have hc0 : cut dup (weightSum f.particles / (n : K) * ((0 : Nat) : K)) = 0 := by
    unfold cut
    rw [List.length_eq_zero_iff]
    cases hd : dup with
    | nil => simp
    | cons d t =>
      have hd' : d ∈ accumulate 0 f.particles := hs.1.mem_iff.mp (by simp [hd])
      obtain ⟨j, hj, rfl⟩ := List.getElem_of_mem hd'
      have hj' : j < f.particles.length := by rw [accumulate_length] at hj; exact hj
      rw [accumulate_getElem 0 f.particles j hj', List.takeWhile_cons]
      have := pre_mono f.particles hnn (show 0 ≤ j + 1 by omega)
      rw [pre_zero] at this
      have h5 : ¬ 0 + pre f.particles (j + 1) < weightSum f.particles / (n : K) * ((0 : Nat) : K) := by
        simp [this]
      simp only [h5, decide_false, Bool.false_eq_true, if_false]
  obtain ⟨ps', e, hst⟩ := resizeLoop_closed dup
    (weightSum f.particles / (n : K)) (1 / (n : K)) s0
    (vectorResize s0 junk n (accumulate 0 f.particles)) 0 0 h1
    (by
      intro k hk1 hk
      rw [vectorResize_length] at hk
      exact hlt k (by omega))
  rw [hc0] at e
  simp only [Nat.cast_zero, mul_zero] at e
  refine ⟨{ f with particles := ps' }, ?_, ?_⟩
  · simp only [Filter.resize, total_eq, e, Outcome.bind_ok]
  · simp only [hst, vectorResize_length]
    apply List.map_congr_left
    intro i _
    simp only [Nat.zero_add]

/-- For the identity sort, `lower_bound` finds particle `j` exactly for keys in the `j`-th
weight interval. -/
theorem cut_accumulate (ps : List (Particle S K)) (hw : ∀ p ∈ ps, 0 ≤ p.prob) (v : K)
    (j : Nat) (hj : j < ps.length) :
    cut (accumulate 0 ps) v = j ↔ (0 < j → pre ps j < v) ∧ v ≤ pre ps (j + 1) := by
  have hj' : j < (accumulate 0 ps).length := by rw [accumulate_length]; exact hj
  rw [cut_eq_iff _ (accumulate_sorted ps hw).2 v j hj', accumulate_getElem 0 ps j hj]
  simp only [zero_add]
  constructor
  · rintro ⟨h1, h2⟩
    refine ⟨fun hpos => ?_, h2⟩
    have := h1 (j - 1) (by omega)
    rw [accumulate_getElem 0 ps (j - 1) (by omega)] at this
    have e : j - 1 + 1 = j := by omega
    simpa [e] using this
  · rintro ⟨h1, h2⟩
    refine ⟨fun i hi => ?_, h2⟩
    rw [accumulate_getElem 0 ps i (by omega)]
    simp only [zero_add]
    exact lt_of_le_of_lt (pre_mono ps hw (by omega : i + 1 ≤ j)) (h1 (by omega))

end

end PF
end Mcl3dl
