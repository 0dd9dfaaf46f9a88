import Verif.Props.PFResample

/-!
# C17, C18, C20 without restriction on the weights, the sort or the draw

Particles of weight 0 have the same cumulative weight as the particle before them, and `std::sort` may put
particles of equal cumulative weight in any order.  So what resampling distributes is the weight of *families*: a
particle of positive weight together with the weight-0 particles directly after it.  The theorems here hold for all
non-negative weights with a positive sum, whatever the sort does with equal keys and for every draw, including 0.
-/

set_option linter.unusedSectionVars false

namespace Mcl3dl
namespace PF

variable {S K T : Type} [Field K] [LinearOrder K] [IsStrictOrderedRing K] [FloorRing K]
  [StateOps S] [DecidableEq T]

/-- Particle `i` is particle `j` or one of the weight-0 particles directly after it. -/
def Family (ps : List (Particle S K)) (j i : Nat) : Prop :=
  j ≤ i ∧ ∀ (k : Nat) (hk : k < ps.length), j < k → k ≤ i → ps[k].prob = 0

open Classical in
/-- How many particles of `f'` carry the tag of a particle of `ps` whose index satisfies `I`. -/
noncomputable def descendants (tag : S → T) (ps : List (Particle S K)) (I : Nat → Prop) (f' : Filter S K) : Nat :=
  (f'.particles.map Particle.state).countP fun s =>
    decide (∃ (i : Nat) (h : i < ps.length), I i ∧ tag s = tag ps[i].state)

/-- Every particle can be told from the others by its tag. -/
def TagsDiffer (tag : S → T) (ps : List (Particle S K)) : Prop :=
  ∀ (i k : Nat) (hi : i < ps.length) (hk : k < ps.length), tag ps[i].state = tag ps[k].state → i = k

theorem family_iff (ps : List (Particle S K)) (hnn : ∀ p ∈ ps, 0 ≤ p.prob) (j i : Nat) (hj : j < ps.length)
    (hi : i < ps.length) (hpos : 0 < ps[j].prob) : Family ps j i ↔ pre ps (i + 1) = pre ps (j + 1) := by
  constructor
  · rintro ⟨hji, hz⟩
    have h : ∀ d, j + d ≤ i → pre ps (j + d + 1) = pre ps (j + 1) := by
      intro d
      induction d with
      | zero => intro _; rfl
      | succ d ih =>
        intro hd
        have hlt : j + d + 1 < ps.length := by omega
        rw [show j + (d + 1) + 1 = (j + d + 1) + 1 by omega, pre_succ ps _ hlt, hz _ hlt (by omega) (by omega),
          add_zero, ih (by omega)]
    have := h (i - j) (by omega)
    rwa [show j + (i - j) + 1 = i + 1 by omega] at this
  · intro h
    have hji : j ≤ i := by
      by_contra hlt
      have h1 := pre_mono ps hnn (show i + 1 ≤ j by omega)
      have h2 := pre_succ ps j hj
      linarith
    refine ⟨hji, ?_⟩
    intro k hk h1 h2
    have h3 := pre_mono ps hnn (show j + 1 ≤ k by omega)
    have h4 := pre_mono ps hnn (show k + 1 ≤ i + 1 by omega)
    have h5 := pre_succ ps k hk
    have h6 := hnn _ (List.getElem_mem hk)
    linarith

/-- The key found by `lower_bound` is the smallest one that is not below the value looked for. -/
theorem cut_key (dup : List (Particle S K)) (hs : dup.Pairwise fun a b => ¬ b.accum < a.accum) (v : K)
    (hc : cut dup v < dup.length) :
    v ≤ dup[cut dup v].accum ∧ ∀ p ∈ dup, p.accum < dup[cut dup v].accum → p.accum < v := by
  obtain ⟨h1, h2⟩ := (cut_eq_iff dup hs v _ hc).1 rfl
  refine ⟨h2, ?_⟩
  intro p hp hlt
  obtain ⟨i, hi, rfl⟩ := List.getElem_of_mem hp
  rcases Nat.lt_or_ge i (cut dup v) with h | h
  · exact h1 i h
  · exfalso
    rcases Nat.lt_or_eq_of_le h with h | h
    · exact absurd hlt (List.pairwise_iff_getElem.mp hs _ _ hc hi h)
    · subst h; exact lt_irrefl _ hlt

/-- Which position of the original list a member of the sorted list comes from. -/
theorem sorted_source (ps dup : List (Particle S K)) (hs : IsSorted (accumulate 0 ps) dup) (c : Nat) (hc : c < dup.length) :
    ∃ (i : Nat) (hi : i < ps.length), dup[c].state = ps[i].state ∧ dup[c].prob = ps[i].prob ∧
      dup[c].accum = pre ps (i + 1) := by
  have hm : dup[c] ∈ accumulate 0 ps := hs.1.mem_iff.mp (List.getElem_mem _)
  obtain ⟨i, hi, e⟩ := List.getElem_of_mem hm
  have hi' : i < ps.length := by rw [accumulate_length] at hi; exact hi
  refine ⟨i, hi', ?_⟩
  rw [← e, accumulate_getElem 0 ps i hi']
  simp

/-- A value looked for finds a member of the family of `j` exactly if it lies in `j`'s weight interval. -/
theorem cut_family (ps dup : List (Particle S K)) (hnn : ∀ p ∈ ps, 0 ≤ p.prob)
    (hs : IsSorted (accumulate 0 ps) dup) (tag : S → T) (hd : TagsDiffer tag ps) (j : Nat) (hj : j < ps.length)
    (hpos : 0 < ps[j].prob) (v : K) (hc : cut dup v < dup.length) :
    (∃ (i : Nat) (h : i < ps.length), Family ps j i ∧ tag dup[cut dup v].state = tag ps[i].state) ↔
      (0 < j → pre ps j < v) ∧ v ≤ pre ps (j + 1) := by
  obtain ⟨h1, h2⟩ := cut_key dup hs.2 v hc
  obtain ⟨s, hsl, e1, -, e3⟩ := sorted_source ps dup hs _ hc
  have hacc : ∀ i < ps.length, ∃ p ∈ dup, p.accum = pre ps (i + 1) := by
    intro i hi
    have hi' : i < (accumulate 0 ps).length := by rw [accumulate_length]; exact hi
    refine ⟨_, hs.1.mem_iff.mpr (List.getElem_mem hi'), ?_⟩
    rw [accumulate_getElem 0 ps i hi]; simp
  constructor
  · rintro ⟨i, hi, hf, ht⟩
    rw [e1] at ht
    have := hd _ _ hsl hi ht
    subst this
    rw [family_iff ps hnn j s hj hsl hpos] at hf
    rw [e3, hf] at h1 h2
    refine ⟨fun h0 => ?_, h1⟩
    obtain ⟨p, hp, hpa⟩ := hacc (j - 1) (by omega)
    have e : j - 1 + 1 = j := by omega
    rw [e] at hpa
    rw [← hpa]
    apply h2 p hp
    rw [hpa, pre_succ ps j hj]
    linarith
  · rintro ⟨h3, h4⟩
    refine ⟨s, hsl, ?_, by rw [e1]⟩
    rw [family_iff ps hnn j s hj hsl hpos, ← e3]
    apply le_antisymm
    · by_contra hlt
      rw [not_le] at hlt
      obtain ⟨p, hp, hpa⟩ := hacc j hj
      have := h2 p hp (by rw [hpa]; exact hlt)
      rw [hpa] at this
      linarith
    · rw [e3] at h1 ⊢
      by_contra hlt
      rw [not_le] at hlt
      have hsj : s < j := by
        by_contra hge
        have := pre_mono ps hnn (show j + 1 ≤ s + 1 by omega)
        linarith
      have := pre_mono ps hnn (show s + 1 ≤ j by omega)
      have := h3 (by omega)
      linarith

/-- Descendants of a family, counted over the scan positions. -/
theorem descendants_resample (f f' : Filter S K) (dup : List (Particle S K)) (u : K) (noise : Nat → S) (tag : S → T)
    (htag : ∀ s n, tag (StateOps.normalize (StateOps.add s n)) = tag s)
    (hnn : ∀ p ∈ f.particles, 0 ≤ p.prob) (hs : IsSorted (accumulate 0 f.particles) dup)
    (hu1 : u < weightSum f.particles / (f.particles.length : K)) (hd : TagsDiffer tag f.particles)
    (j : Nat) (hj : j < f.particles.length) (hpos : 0 < f.particles[j].prob)
    (hf' : f.resample dup u noise = .ok f') :
    descendants tag f.particles (Family f.particles j) f' =
      (List.range f.particles.length).countP fun k => decide (
        (0 < j → pre f.particles j < scanPos f.particles u k) ∧ scanPos f.particles u k ≤ pre f.particles (j + 1)) := by
  classical
  have hne : f.particles ≠ [] := by intro h; rw [h] at hj; simp at hj
  have hW : 0 ≤ weightSum f.particles := by
    have := pre_mono f.particles hnn (Nat.zero_le f.particles.length)
    rwa [pre_zero, pre_length] at this
  obtain ⟨hlt, f2, e, hst⟩ := resample_closed f dup u noise (f.particles[j].state) hne hW hu1 hs
  rw [hf'] at e
  simp only [Outcome.ok.injEq] at e
  subst e
  unfold descendants
  rw [hst, countP_map_range]
  apply List.countP_congr
  intro k hk
  rw [List.mem_range] at hk
  have hc := hlt k hk
  simp only [decide_eq_true_eq]
  rw [tag_resampledState tag htag _ _ _ _ _ _ hc]
  exact cut_family f.particles dup hnn hs tag hd j hj hpos _ hc

/-- **C17**: for every draw `u` in `[0, W/N)`, all non-negative weights and any result of the sort, the family of a
particle of weight `w > 0` (the particle and the weight-0 particles directly after it) has `⌊N w / W⌋` or
`⌈N w / W⌉` members among the new particles if `u > 0`, and differs from `N w / W` by at most 1 if `u = 0`. -/
theorem C17_low_variance (f : Filter S K) (dup : List (Particle S K)) (u : K)
    (noise : Nat → S) (tag : S → T)
    (htag : ∀ s n, tag (StateOps.normalize (StateOps.add s n)) = tag s)
    (hnn : ∀ p ∈ f.particles, 0 ≤ p.prob)
    (hsort : IsSorted (accumulate 0 f.particles) dup)
    (hu0 : 0 ≤ u) (hu1 : u < (f.particles.map Particle.prob).sum / (f.particles.length : K))
    (hd : TagsDiffer tag f.particles) (j : Nat) (hj : j < f.particles.length) (hpos : 0 < f.particles[j].prob) :
    ∃ f', f.resample dup u noise = .ok f' ∧
      (0 < u →
        ⌊(f.particles.length : K) * f.particles[j].prob / (f.particles.map Particle.prob).sum⌋ ≤
          (descendants tag f.particles (Family f.particles j) f' : Int) ∧
        (descendants tag f.particles (Family f.particles j) f' : Int) ≤
          ⌈(f.particles.length : K) * f.particles[j].prob / (f.particles.map Particle.prob).sum⌉) ∧
      |(descendants tag f.particles (Family f.particles j) f' : K) -
        (f.particles.length : K) * f.particles[j].prob / (f.particles.map Particle.prob).sum| ≤ 1 := by
  have hN : (0 : K) < (f.particles.length : K) := by exact_mod_cast (by omega : 0 < f.particles.length)
  have hW : 0 < weightSum f.particles := by
    have h1 := pre_mono f.particles hnn (show j + 1 ≤ f.particles.length by omega)
    have h2 := pre_mono f.particles hnn (Nat.zero_le j)
    rw [pre_length, pre_succ f.particles j hj] at h1
    rw [pre_zero] at h2
    linarith
  have hs : 0 < weightSum f.particles / (f.particles.length : K) := div_pos hW hN
  obtain ⟨f', e, -⟩ := resample_spec f _ u noise hsort
  refine ⟨f', e, ?_⟩
  rw [descendants_resample f f' dup u noise tag htag hnn hsort hu1 hd j hj hpos e]
  set s := weightSum f.particles / (f.particles.length : K) with hsdef
  set a := (pre f.particles j - u) / s with hadef
  set b := (pre f.particles (j + 1) - u) / s with hbdef
  have hx : b - a = (f.particles.length : K) * f.particles[j].prob / weightSum f.particles :=
    diff_over_step f.particles hW u _ hN j hj
  have h1 : ∀ i : Nat, pre f.particles j < scanPos f.particles u i ↔ a < (i : K) := by
    intro i
    rw [hadef, div_lt_iff₀ hs, scanPos, mul_comm (i : K)]; constructor <;> intro h <;> linarith
  have h2 : ∀ i : Nat, scanPos f.particles u i ≤ pre f.particles (j + 1) ↔ (i : K) ≤ b := by
    intro i
    rw [hbdef, le_div_iff₀ hs, scanPos, mul_comm (i : K)]; constructor <;> intro h <;> linarith
  have hsum : (f.particles.map Particle.prob).sum = weightSum f.particles := rfl
  rw [hsum, ← hx]
  have hab : a < b := by
    have : 0 < b - a := by rw [hx]; positivity
    linarith
  have ha0 : j = 0 → a = -u / s := by
    intro h; rw [hadef, h, pre_zero]; ring_nf
  have hus : u / s < 1 := by rw [div_lt_one hs]; exact hu1
  have hpre0 := pre_mono f.particles hnn (Nat.zero_le j)
  rw [pre_zero] at hpre0
  have ham1 : -1 ≤ a := by
    rw [hadef, le_div_iff₀ hs]; have : u < s := hu1; linarith
  have hNs : (f.particles.length : K) * s = weightSum f.particles := by rw [hsdef]; field_simp
  have hpre1 := pre_mono f.particles hnn (show j + 1 ≤ f.particles.length by omega)
  rw [pre_length] at hpre1
  -- positive draws
  have hposcase : 0 < u → ((((List.range f.particles.length).countP fun k => decide (
        (0 < j → pre f.particles j < scanPos f.particles u k) ∧ scanPos f.particles u k ≤ pre f.particles (j + 1)) : Nat) :
        Int) = ⌊b⌋ - ⌊a⌋) := by
    intro hu
    rw [← countP_Ioc f.particles.length a b ham1 hab.le (by
      rw [hbdef, div_lt_iff₀ hs, hNs]; linarith)]
    congr 1
    apply List.countP_congr
    intro i _
    simp only [decide_eq_true_eq]
    rw [h2, h1]
    constructor
    · rintro ⟨h3, h4⟩
      refine ⟨?_, h4⟩
      rcases Nat.eq_zero_or_pos j with h0 | h0
      · rw [ha0 h0]
        have : -u / s < 0 := by rw [neg_div]; have := div_pos hu hs; linarith
        exact lt_of_lt_of_le this (Nat.cast_nonneg i)
      · exact h3 h0
    · rintro ⟨h3, h4⟩
      exact ⟨fun _ => h3, h4⟩
  refine ⟨fun hu => ?_, ?_⟩
  · rw [hposcase hu]
    exact floor_diff_bounds a b
  · rcases hu0.lt_or_eq with hu | hu
    · have h3 := hposcase hu
      have h4 : (((List.range f.particles.length).countP fun k => decide (
        (0 < j → pre f.particles j < scanPos f.particles u k) ∧ scanPos f.particles u k ≤ pre f.particles (j + 1)) : Nat) : K)
          = ((⌊b⌋ - ⌊a⌋ : Int) : K) := by rw [← h3]; norm_cast
      rw [h4]
      push_cast
      have := Int.floor_le b; have := Int.lt_floor_add_one b
      have := Int.floor_le a; have := Int.lt_floor_add_one a
      rw [abs_le]; constructor <;> linarith
    · -- the draw 0
      subst hu
      simp only [sub_zero] at hadef hbdef
      have ha : 0 ≤ a := by rw [hadef]; exact div_nonneg hpre0 hs.le
      have hbN : b ≤ f.particles.length := by rw [hbdef, div_le_iff₀ hs, hNs]; exact hpre1
      -- count on `range (N + 1)`
      have hc := countP_Ioc (f.particles.length + 1) a b ham1 hab.le (by push_cast; linarith)
      rw [List.range_succ, List.countP_append] at hc
      have hge : (List.range f.particles.length).countP (fun i : Nat => decide (a < (i : K) ∧ (i : K) ≤ b)) ≤
          (List.range f.particles.length).countP fun k => decide (
            (0 < j → pre f.particles j < scanPos f.particles 0 k) ∧ scanPos f.particles 0 k ≤ pre f.particles (j + 1)) := by
        apply List.countP_mono_left
        intro i _
        simp only [decide_eq_true_eq]
        rw [h2, h1]
        exact fun h => ⟨fun _ => h.1, h.2⟩
      set D := (List.range f.particles.length).countP fun k => decide (
            (0 < j → pre f.particles j < scanPos f.particles 0 k) ∧ scanPos f.particles 0 k ≤ pre f.particles (j + 1)) with hD
      set D' := (List.range f.particles.length).countP (fun i : Nat => decide (a < (i : K) ∧ (i : K) ≤ b)) with hD'
      have hlast : [f.particles.length].countP (fun i : Nat => decide (a < (i : K) ∧ (i : K) ≤ b)) =
          if a < (f.particles.length : K) ∧ (f.particles.length : K) ≤ b then 1 else 0 := by
        rw [List.countP_singleton]; simp only [decide_eq_true_eq]
      rw [hlast] at hc
      have f1 := Int.floor_le b
      have f2 := Int.lt_floor_add_one b
      have f3 := Int.floor_le a
      have f4 := Int.lt_floor_add_one a
      -- lower bound
      have hlow : b - a - 1 ≤ (D : K) := by
        have hDD : (D' : K) ≤ (D : K) := by exact_mod_cast hge
        by_cases hl : a < (f.particles.length : K) ∧ (f.particles.length : K) ≤ b
        · rw [if_pos hl] at hc
          have hbe : b = f.particles.length := le_antisymm hbN hl.2
          have hfl : ⌊b⌋ = f.particles.length := by rw [hbe]; exact Int.floor_natCast _
          rw [hfl] at hc
          have : (D' : K) + 1 = (f.particles.length : K) - (⌊a⌋ : K) := by
            have := congrArg (fun z : Int => (z : K)) hc
            push_cast at this; exact this
          rw [hbe]; linarith
        · rw [if_neg hl] at hc
          have : (D' : K) = (⌊b⌋ : K) - (⌊a⌋ : K) := by
            have := congrArg (fun z : Int => (z : K)) hc
            push_cast at this; simpa using this
          linarith
      have hup : (D : K) ≤ b - a + 1 := by
        rcases Nat.eq_zero_or_pos j with h0 | h0
        · -- the first particle: at most the scan positions 0, …, ⌊b⌋
          have ha' : a = 0 := by rw [ha0 h0]; simp
          have hle : D ≤ (List.range (⌊b⌋.toNat + 1)).length := by
            rw [hD, List.countP_eq_length_filter]
            apply List.Subperm.length_le
            apply (List.nodup_range.filter _).subperm
            intro i hi
            rw [List.mem_filter] at hi
            simp only [decide_eq_true_eq] at hi
            rw [h2] at hi
            rw [List.mem_range]
            have : (i : Int) ≤ ⌊b⌋ := by rw [Int.le_floor]; push_cast; exact hi.2.2
            omega
          rw [List.length_range] at hle
          have hb0 : 0 ≤ ⌊b⌋ := by rw [Int.le_floor]; push_cast; linarith
          have : (D : K) ≤ (⌊b⌋ : K) + 1 := by
            have h5 : (D : Int) ≤ ⌊b⌋ + 1 := by omega
            exact_mod_cast h5
          rw [ha']; linarith
        · have hDD : D = D' := by
            rw [hD, hD']
            apply List.countP_congr
            intro i _
            simp only [decide_eq_true_eq]
            rw [h2, h1]
            exact ⟨fun h => ⟨h.1 h0, h.2⟩, fun h => ⟨fun _ => h.1, h.2⟩⟩
          rw [hDD]
          have hc' : (D' : Int) ≤ ⌊b⌋ - ⌊a⌋ := by split_ifs at hc <;> push_cast at hc <;> omega
          have : (D' : K) ≤ (⌊b⌋ : K) - (⌊a⌋ : K) := by exact_mod_cast hc'
          linarith
      rw [abs_le]
      constructor <;> linarith

/-- A weight-0 particle that is found by the search for `v > 0` stands, in the sorted list, before the particle of
positive weight whose family it belongs to. -/
theorem cut_zero_weight (ps dup : List (Particle S K)) (hnn : ∀ p ∈ ps, 0 ≤ p.prob)
    (hs : IsSorted (accumulate 0 ps) dup) (tag : S → T) (hd : TagsDiffer tag ps) (z : Nat) (hz : z < ps.length)
    (hzero : ps[z].prob = 0) (v : K) (hc : cut dup v < dup.length)
    (ht : tag dup[cut dup v].state = tag ps[z].state) :
    (v ≤ 0 ∧ ∀ (k : Nat) (hk : k < ps.length), k ≤ z → ps[k].prob = 0) ∨
    ∃ (j : Nat) (hj : j < ps.length) (c d : Nat) (hd : d < dup.length) (hcd : c < d), 0 < ps[j].prob ∧ j < z ∧
      Family ps j z ∧ tag (dup[c]'(by omega)).state = tag ps[z].state ∧ tag dup[d].state = tag ps[j].state := by
  obtain ⟨h1, h2⟩ := (cut_eq_iff dup hs.2 v _ hc).1 rfl
  obtain ⟨s, hsl, e1, -, e3⟩ := sorted_source ps dup hs _ hc
  have hsz : s = z := hd _ _ hsl hz (by rw [← e1]; exact ht)
  subst hsz
  by_cases hall : ∀ (k : Nat) (hk : k < ps.length), k ≤ s → ps[k].prob = 0
  · left
    refine ⟨?_, hall⟩
    have : ∀ d, d ≤ s + 1 → pre ps d = 0 := by
      intro d
      induction d with
      | zero => intro _; exact pre_zero _
      | succ d ih =>
        intro hd'
        rw [pre_succ ps d (by omega), ih (by omega), hall d (by omega) (by omega), add_zero]
    rw [e3, this (s + 1) le_rfl] at h2
    exact h2
  · right
    push Not at hall
    obtain ⟨k, hk, hks, hkp⟩ := hall
    -- the last particle of positive weight before `s`
    have hex : ∃ j, j < s ∧ ∃ hj : j < ps.length, 0 < ps[j].prob ∧ Family ps j s := by
      have key : ∀ d k, s - k = d → ∀ hk : k < ps.length, k ≤ s → ps[k].prob ≠ 0 →
          ∃ j, j < s ∧ ∃ hj : j < ps.length, 0 < ps[j].prob ∧ Family ps j s := by
        intro d
        induction d using Nat.strong_induction_on with
        | _ d ih =>
          intro k hdk hk hks hkp
          have hpk : 0 < ps[k].prob := lt_of_le_of_ne (hnn _ (List.getElem_mem hk)) (Ne.symm hkp)
          have hlt : k < s := by
            rcases Nat.lt_or_eq_of_le hks with h | h
            · exact h
            · subst h; exact absurd hzero hkp
          by_cases hf : ∀ (i : Nat) (hi : i < ps.length), k < i → i ≤ s → ps[i].prob = 0
          · exact ⟨k, hlt, hk, hpk, hks, hf⟩
          · push Not at hf
            obtain ⟨i, hi, h3, h4, h5⟩ := hf
            exact ih (s - i) (by omega) i rfl hi h4 h5
      exact key _ k rfl hk hks hkp
    obtain ⟨j, hjs, hj, hpj, hfam⟩ := hex
    have hj' : j < (accumulate 0 ps).length := by rw [accumulate_length]; exact hj
    have hm : (accumulate 0 ps)[j] ∈ dup := hs.1.mem_iff.mpr (List.getElem_mem hj')
    obtain ⟨d, hdl, hde⟩ := List.getElem_of_mem hm
    have hda : dup[d].accum = pre ps (j + 1) := by
      rw [hde, accumulate_getElem 0 ps j hj]; simp
    have hds : dup[d].state = ps[j].state := by
      rw [hde, accumulate_getElem 0 ps j hj]
    have hpre := (family_iff ps hnn j s hj hsl hpj).1 hfam
    have hcd : cut dup v < d := by
      rcases Nat.lt_trichotomy (cut dup v) d with h | h | h
      · exact h
      · exfalso
        have : tag dup[cut dup v].state = tag ps[j].state := by
          simp only [h]; rw [hds]
        rw [e1] at this
        have := hd _ _ hsl hj this
        omega
      · exfalso
        have h5 := h1 d h
        rw [hda, ← hpre, ← e3] at h5
        linarith
    exact ⟨j, hj, cut dup v, d, hdl, hcd, hpj, hjs, hfam, ht, by rw [hds]⟩

/-- **C18**: a particle of weight 0 has descendants only if the draw is 0 and no particle before it has a
weight, or if the sort has put it before the particle of positive weight directly preceding it (all particles in
between having weight 0 too).  In particular it has none if the draw is positive and the sort keeps the order of
equal keys (`C18_zero_weight_dies`). -/
theorem C18_survivors (f f' : Filter S K) (dup : List (Particle S K)) (u : K) (noise : Nat → S) (tag : S → T)
    (htag : ∀ s n, tag (StateOps.normalize (StateOps.add s n)) = tag s)
    (hnn : ∀ p ∈ f.particles, 0 ≤ p.prob) (hsort : IsSorted (accumulate 0 f.particles) dup)
    (hu0 : 0 ≤ u) (hu1 : u < (f.particles.map Particle.prob).sum / (f.particles.length : K))
    (hd : TagsDiffer tag f.particles) (z : Nat) (hz : z < f.particles.length) (hzero : f.particles[z].prob = 0)
    (hf' : f.resample dup u noise = .ok f') (hc : copies tag (tag f.particles[z].state) f' ≠ 0) :
    (u = 0 ∧ ∀ (k : Nat) (hk : k < f.particles.length), k ≤ z → f.particles[k].prob = 0) ∨
    ∃ (j : Nat) (hj : j < f.particles.length) (c d : Nat) (hd : d < dup.length) (hcd : c < d),
      0 < f.particles[j].prob ∧ j < z ∧ Family f.particles j z ∧
      tag (dup[c]'(by omega)).state = tag f.particles[z].state ∧ tag dup[d].state = tag f.particles[j].state := by
  have hne : f.particles ≠ [] := by intro h; rw [h] at hz; simp at hz
  have hW : 0 ≤ weightSum f.particles := by
    have := pre_mono f.particles hnn (Nat.zero_le f.particles.length)
    rwa [pre_zero, pre_length] at this
  obtain ⟨hlt, f2, e, hst⟩ := resample_closed f dup u noise (f.particles[z].state) hne hW hu1 hsort
  rw [hf'] at e
  simp only [Outcome.ok.injEq] at e
  subst e
  unfold copies at hc
  rw [hst, countP_map_range] at hc
  obtain ⟨k, hk, hk2⟩ := List.countP_pos_iff.1 (Nat.pos_of_ne_zero hc)
  rw [List.mem_range] at hk
  simp only [decide_eq_true_eq] at hk2
  rw [tag_resampledState tag htag _ _ _ _ _ _ (hlt k hk)] at hk2
  rcases cut_zero_weight f.particles dup hnn hsort tag hd z hz hzero _ (hlt k hk) hk2 with ⟨h1, h2⟩ | h
  · left
    refine ⟨?_, h2⟩
    have := scanPos_mono f.particles u hW (Nat.zero_le k)
    have h0 : scanPos f.particles u 0 = u := by simp [scanPos]
    linarith
  · exact .inr h

/-- **C20**: for all non-negative weights with a positive sum and any result of the sort, `resizeParticle(n)` with
`n > 0` yields `n` particles of weight `1/n` whose states are old states; the family of a particle of weight
`w > 0` (the particle and the weight-0 particles directly after it) has `⌊n w / W⌋` or `⌈n w / W⌉` members among
them; and a particle of weight 0 is among them only if the sort has put it before the particle of positive weight
preceding it. -/
theorem C20_resize_keeps_distribution (f : Filter S K) (dup : List (Particle S K)) (s0 : S) (junk : Nat → K)
    (n : Nat) (hn : 0 < n) (hnn : ∀ p ∈ f.particles, 0 ≤ p.prob) (hW : 0 < (f.particles.map Particle.prob).sum)
    (hsort : IsSorted (accumulate 0 f.particles) dup) :
    ∃ f', f.resize s0 junk n dup = .ok f' ∧ f'.particles.length = n ∧
      (∀ p ∈ f'.particles, p.prob = 1 / (n : K) ∧ ∃ q ∈ f.particles, p.state = q.state) ∧
      ∀ (tag : S → T), TagsDiffer tag f.particles → ∀ (j : Nat) (hj : j < f.particles.length),
        (0 < f.particles[j].prob →
          ⌊(n : K) * f.particles[j].prob / (f.particles.map Particle.prob).sum⌋ ≤
            (descendants tag f.particles (Family f.particles j) f' : Int) ∧
          (descendants tag f.particles (Family f.particles j) f' : Int) ≤
            ⌈(n : K) * f.particles[j].prob / (f.particles.map Particle.prob).sum⌉) ∧
        (f.particles[j].prob = 0 → copies tag (tag f.particles[j].state) f' ≠ 0 →
          ∃ (i : Nat) (hi : i < f.particles.length) (c d : Nat) (hd : d < dup.length) (hcd : c < d),
            0 < f.particles[i].prob ∧ i < j ∧ Family f.particles i j ∧
            tag (dup[c]'(by omega)).state = tag f.particles[j].state ∧
            tag dup[d].state = tag f.particles[i].state) := by
  classical
  have hne : f.particles ≠ [] := by rintro h; rw [h] at hW; simp at hW
  have hW' : 0 < weightSum f.particles := hW
  have hN : (0 : K) < (n : K) := by exact_mod_cast hn
  have hs : 0 < weightSum f.particles / (n : K) := div_pos hW' hN
  obtain ⟨f', e, -, hl, hsp⟩ := resize_spec s0 junk f n dup hsort (Or.inl hne)
  obtain ⟨hlt, f2, e2, hst⟩ := resize_closed f dup s0 junk n hn hne hW'.le hnn hsort
  rw [e] at e2
  simp only [Outcome.ok.injEq] at e2
  subst e2
  refine ⟨f', e, hl, hsp, ?_⟩
  intro tag hd j hj
  constructor
  · intro hpos
    set s := weightSum f.particles / (n : K) with hsdef
    have hcount : descendants tag f.particles (Family f.particles j) f' =
        (List.range n).countP fun i : Nat => decide ((pre f.particles j - s) / s < (i : K) ∧
          (i : K) ≤ (pre f.particles (j + 1) - s) / s) := by
      unfold descendants
      rw [hst, countP_map_range]
      apply List.countP_congr
      intro k hk
      rw [List.mem_range] at hk
      have hc := hlt k hk
      simp only [decide_eq_true_eq, List.getElem?_eq_getElem hc, Option.map_some, Option.getD_some]
      rw [cut_family f.particles dup hnn hsort tag hd j hj hpos _ hc]
      have h1 : (pre f.particles j - s) / s < (k : K) ↔ pre f.particles j < s * ((k + 1 : Nat) : K) := by
        rw [div_lt_iff₀ hs]; push_cast; constructor <;> intro h <;> linarith
      have h2 : (k : K) ≤ (pre f.particles (j + 1) - s) / s ↔ s * ((k + 1 : Nat) : K) ≤ pre f.particles (j + 1) := by
        rw [le_div_iff₀ hs]; push_cast; constructor <;> intro h <;> linarith
      rw [h1, h2]
      constructor
      · rintro ⟨h3, h4⟩
        refine ⟨?_, h4⟩
        rcases Nat.eq_zero_or_pos j with h0 | h0
        · subst h0; rw [pre_zero]; positivity
        · exact h3 h0
      · rintro ⟨h3, h4⟩
        exact ⟨fun _ => h3, h4⟩
    have hns : (n : K) * s = weightSum f.particles := by rw [hsdef]; field_simp
    have h0 := pre_mono f.particles hnn (Nat.zero_le j)
    rw [pre_zero] at h0
    have h3 := pre_mono f.particles hnn (show j + 1 ≤ f.particles.length by omega)
    rw [pre_length] at h3
    rw [hcount, countP_Ioc n _ _ (by rw [le_div_iff₀ hs]; linarith)
      ((div_le_div_iff_of_pos_right hs).mpr (by have := pre_mono f.particles hnn (Nat.le_succ j); linarith))
      (by rw [div_lt_iff₀ hs, hns]; linarith)]
    have hb := floor_diff_bounds ((pre f.particles j - s) / s) ((pre f.particles (j + 1) - s) / s)
    rw [diff_over_step f.particles hW' _ _ hN j hj] at hb
    exact hb
  · intro hzero hc
    unfold copies at hc
    rw [hst, countP_map_range] at hc
    obtain ⟨k, hk, hk2⟩ := List.countP_pos_iff.1 (Nat.pos_of_ne_zero hc)
    rw [List.mem_range] at hk
    have hc' := hlt k hk
    simp only [decide_eq_true_eq, List.getElem?_eq_getElem hc', Option.map_some, Option.getD_some] at hk2
    rcases cut_zero_weight f.particles dup hnn hsort tag hd j hj hzero _ hc' hk2 with ⟨h1, -⟩ | h
    · exfalso
      have : 0 < weightSum f.particles / (n : K) * ((k + 1 : Nat) : K) := by positivity
      linarith
    · exact h

/-- The hypotheses are met by three particles of which the middle one has weight 0, with a sort that swaps the two
of equal cumulative weight and any draw below a third. -/
example (u : ℚ) (h0 : 0 ≤ u) (h1 : u < 1 / 3) :
    let ps : List (Particle Nat ℚ) := [⟨10, 1/2, 1, 0⟩, ⟨20, 0, 1, 0⟩, ⟨30, 1/2, 1, 0⟩]
    let dup : List (Particle Nat ℚ) := [⟨20, 0, 1, 1/2⟩, ⟨10, 1/2, 1, 1/2⟩, ⟨30, 1/2, 1, 1⟩]
    (∀ p ∈ ps, 0 ≤ p.prob) ∧ IsSorted (accumulate 0 ps) dup ∧ 0 ≤ u ∧
      u < (ps.map Particle.prob).sum / (ps.length : ℚ) ∧ TagsDiffer (id : Nat → Nat) ps ∧
      Family ps 0 1 ∧ ¬ Family ps 0 2 := by
  intro ps dup
  refine ⟨by simp [ps], ⟨?_, ?_⟩, h0, by simp [ps]; linarith, ?_, ⟨by omega, ?_⟩, ?_⟩
  · norm_num [ps, dup, accumulate]
    exact List.Perm.swap _ _ _
  · norm_num [dup]
  · intro i k hi hk h
    simp only [ps, List.length_cons, List.length_nil] at hi hk
    have h2 : i = 0 ∨ i = 1 ∨ i = 2 := by omega
    have h3 : k = 0 ∨ k = 1 ∨ k = 2 := by omega
    rcases h2 with rfl | rfl | rfl <;> rcases h3 with rfl | rfl | rfl <;> simp_all [ps]
  · intro k hk h2 h3
    have : k = 1 := by omega
    subst this
    simp [ps]
  · rintro ⟨-, h⟩
    have := h 2 (by simp [ps]) (by omega) (by omega)
    norm_num [ps] at this

end PF
end Mcl3dl
