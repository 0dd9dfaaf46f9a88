import Verif.Proofs.PFBasic
import Mathlib.Algebra.Order.Floor.Ring
import Mathlib.Algebra.Order.BigOperators.Group.List
import Mathlib.Algebra.BigOperators.Group.List.Lemmas
import Mathlib.Algebra.BigOperators.Ring.List
import Mathlib.Data.List.TakeWhile
import Mathlib.Order.Interval.Finset.Nat
import Mathlib.Tactic.Linarith
import Mathlib.Tactic.Ring
import Mathlib.Tactic.FieldSimp
import Mathlib.Tactic.Positivity
import Mathlib.Tactic.NormNum

/-! # Exact-arithmetic lemmas about the particle filter -/

set_option linter.unusedSectionVars false

namespace Mcl3dl
namespace PF

variable {S K : Type} [Field K] [LinearOrder K] [IsStrictOrderedRing K]

/-- Sum of the weights. -/
def weightSum (ps : List (Particle S K)) : K := (ps.map Particle.prob).sum

omit [LinearOrder K] [IsStrictOrderedRing K] in
theorem foldl_add_prob (a : K) (ps : List (Particle S K)) :
    ps.foldl (fun a p => a + p.prob) a = a + weightSum ps := by
  unfold weightSum
  induction ps generalizing a with
  | nil => simp
  | cons p ps ih => simp only [List.foldl_cons, ih, List.map_cons, List.sum_cons]; ring

omit [LinearOrder K] [IsStrictOrderedRing K] in
theorem total_eq (ps : List (Particle S K)) : total ps = weightSum ps := by
  unfold total; rw [foldl_add_prob, zero_add]

/-- Prefix sums: the total weight of the first `j` particles. -/
def pre (ps : List (Particle S K)) (j : Nat) : K := weightSum (ps.take j)

omit [LinearOrder K] [IsStrictOrderedRing K] in
@[simp] theorem pre_zero (ps : List (Particle S K)) : pre ps 0 = 0 := by simp [pre, weightSum]

omit [LinearOrder K] [IsStrictOrderedRing K] in
theorem pre_length (ps : List (Particle S K)) : pre ps ps.length = weightSum ps := by
  simp [pre]

omit [LinearOrder K] [IsStrictOrderedRing K] in
theorem pre_succ (ps : List (Particle S K)) (j : Nat) (h : j < ps.length) :
    pre ps (j + 1) = pre ps j + ps[j].prob := by
  unfold pre weightSum
  rw [List.take_add_one, List.getElem?_eq_getElem h, List.map_append, List.sum_append]
  simp

omit [LinearOrder K] [IsStrictOrderedRing K] in
theorem pre_ge_length (ps : List (Particle S K)) (j : Nat) (h : ps.length ≤ j) :
    pre ps j = weightSum ps := by
  simp [pre, List.take_of_length_le h]

theorem pre_mono (ps : List (Particle S K)) (hw : ∀ p ∈ ps, 0 ≤ p.prob) {i j : Nat}
    (h : i ≤ j) : pre ps i ≤ pre ps j := by
  induction j, h using Nat.le_induction with
  | base => exact le_refl _
  | succ j hj ih =>
    by_cases hl : j < ps.length
    · rw [pre_succ ps j hl]
      have := hw _ (List.getElem_mem hl)
      linarith
    · rw [pre_ge_length ps (j + 1) (by omega)]
      rw [pre_ge_length ps j (by omega)] at ih
      exact ih

omit [LinearOrder K] [IsStrictOrderedRing K] in
theorem accumulate_getElem (a : K) (ps : List (Particle S K)) (j : Nat) (h : j < ps.length) :
    (accumulate a ps)[j]'(by rw [accumulate_length]; exact h) =
      { ps[j] with accum := a + pre ps (j + 1) } := by
  induction ps generalizing a j with
  | nil => simp at h
  | cons p ps ih =>
    cases j with
    | zero => simp [accumulate, pre, weightSum]
    | succ j =>
      simp only [accumulate, List.getElem_cons_succ]
      rw [ih (a + p.prob) j (by simpa using h)]
      simp only [pre, weightSum, List.take_succ_cons, List.map_cons, List.sum_cons]
      congr 1
      ring

/-- With non-negative weights the accumulated list is already ordered: the identity is a legal
result of the sort. -/
theorem accumulate_sorted (ps : List (Particle S K)) (hw : ∀ p ∈ ps, 0 ≤ p.prob) :
    IsSorted (accumulate 0 ps) (accumulate 0 ps) := by
  refine ⟨List.Perm.refl _, ?_⟩
  rw [List.pairwise_iff_getElem]
  intro i j hi hj hij
  rw [accumulate_length] at hi hj
  rw [accumulate_getElem 0 ps i hi, accumulate_getElem 0 ps j hj]
  simp only [not_lt]
  have := pre_mono ps hw (show i + 1 ≤ j + 1 by omega)
  linarith

/-- With positive weights the keys are distinct, so every legal sort is the identity. -/
theorem sort_unique (ps dup : List (Particle S K)) (hw : ∀ p ∈ ps, 0 < p.prob)
    (hs : IsSorted (accumulate 0 ps) dup) : dup = accumulate 0 ps := by
  have hstrict : (accumulate 0 ps).Pairwise fun a b => a.accum < b.accum := by
    rw [List.pairwise_iff_getElem]
    intro i j hi hj hij
    rw [accumulate_length] at hi hj
    rw [accumulate_getElem 0 ps i hi, accumulate_getElem 0 ps j hj]
    simp only
    have h1 := pre_mono ps (fun p hp => (hw p hp).le) (show i + 1 ≤ j by omega)
    have h2 := pre_succ ps j hj
    have h3 := hw _ (List.getElem_mem hj)
    linarith
  -- both lists are ordered for the (antisymmetric on members) relation on keys
  have hinj : ∀ a ∈ accumulate 0 ps, ∀ b ∈ accumulate 0 ps, a.accum = b.accum → a = b := by
    intro a ha b hb hab
    obtain ⟨i, hi, rfl⟩ := List.getElem_of_mem ha
    obtain ⟨j, hj, rfl⟩ := List.getElem_of_mem hb
    rcases lt_trichotomy i j with h | h | h
    · have := List.pairwise_iff_getElem.mp hstrict i j hi hj h; rw [hab] at this
      exact absurd this (lt_irrefl _)
    · subst h; rfl
    · have := List.pairwise_iff_getElem.mp hstrict j i hj hi h; rw [hab] at this
      exact absurd this (lt_irrefl _)
  refine List.Perm.eq_of_pairwise (le := fun a b => a.accum ≤ b.accum) ?_ ?_ ?_ hs.1
  · intro a b ha hb hab hba
    exact hinj a (hs.1.mem_iff.mp ha) b hb (le_antisymm hab hba)
  · exact hs.2.imp (fun h => not_lt.mp h)
  · exact hstrict.imp le_of_lt

/-- Number of leading elements of `dup` with key less than `v`: where `lower_bound` from the
beginning stops. -/
def cut (dup : List (Particle S K)) (v : K) : Nat :=
  (dup.takeWhile fun p => decide (p.accum < v)).length

omit [Field K] [IsStrictOrderedRing K] in
theorem takeWhile_append_of_forall {α : Type*} (p : α → Bool) (l : List α) (n : Nat)
    (h : ∀ a ∈ l.take n, p a = true) :
    l.takeWhile p = l.take n ++ (l.drop n).takeWhile p := by
  induction n generalizing l with
  | zero => simp
  | succ n ih =>
    cases l with
    | nil => simp
    | cons a l =>
      have ha : p a = true := h a (by simp)
      simp only [List.takeWhile_cons, ha, if_true, List.take_succ_cons, List.drop_succ_cons,
        List.cons_append]
      rw [ih l (fun b hb => h b (by simp [hb]))]

omit [Field K] [IsStrictOrderedRing K] in
/-- Resuming `lower_bound` from where a smaller key stopped gives the same result as searching
from the beginning. -/
theorem lowerBound_resume (dup : List (Particle S K)) (v0 v : K) (h : v0 ≤ v) :
    lowerBound dup (cut dup v0) v = cut dup v := by
  unfold lowerBound cut
  have hall : ∀ a ∈ dup.take (dup.takeWhile fun p => decide (p.accum < v0)).length,
      (decide (a.accum < v)) = true := by
    intro a ha
    have : dup.take (dup.takeWhile fun p => decide (p.accum < v0)).length =
        dup.takeWhile fun p => decide (p.accum < v0) := by
      have := List.prefix_iff_eq_take.mp (List.takeWhile_prefix (l := dup) (fun p => decide (p.accum < v0)))
      exact this.symm
    rw [this] at ha
    have := List.mem_takeWhile_imp ha
    simp only [decide_eq_true_eq] at this ⊢
    exact lt_of_lt_of_le this h
  rw [takeWhile_append_of_forall _ dup _ hall, List.length_append, List.length_take]
  have := (List.takeWhile_sublist (l := dup) fun p => decide (p.accum < v0)).length_le
  omega

omit [Field K] [IsStrictOrderedRing K] in
theorem lowerBound_zero (dup : List (Particle S K)) (v : K) :
    lowerBound dup 0 v = cut dup v := by
  simp [lowerBound, cut]

omit [Field K] [IsStrictOrderedRing K] in
theorem cut_mono (dup : List (Particle S K)) {v0 v : K} (h : v0 ≤ v) :
    cut dup v0 ≤ cut dup v := by
  rw [← lowerBound_resume dup v0 v h]
  unfold lowerBound; omega

omit [Field K] [IsStrictOrderedRing K] in
theorem cut_lt_of_mem (dup : List (Particle S K)) (v : K) (q : Particle S K) (hq : q ∈ dup)
    (h : v ≤ q.accum) : cut dup v < dup.length := by
  have hle := (List.takeWhile_sublist (l := dup) fun p => decide (p.accum < v)).length_le
  rcases Nat.lt_or_ge (cut dup v) dup.length with h1 | h1
  · exact h1
  · exfalso
    have heq : dup.takeWhile (fun p => decide (p.accum < v)) = dup :=
      (List.takeWhile_prefix _).eq_of_length (le_antisymm hle h1)
    rw [← heq] at hq
    have := List.mem_takeWhile_imp hq
    simp only [decide_eq_true_eq] at this
    exact absurd this (not_lt.mpr h)

omit [Field K] [IsStrictOrderedRing K] in
/-- For an ordered list, `cut` is characterised by its neighbours. -/
theorem cut_eq_iff (dup : List (Particle S K))
    (hs : dup.Pairwise fun a b => ¬ b.accum < a.accum) (v : K) (j : Nat) (hj : j < dup.length) :
    cut dup v = j ↔ (∀ i (h : i < j), (dup[i]'(by omega)).accum < v) ∧ v ≤ dup[j].accum := by
  unfold cut
  constructor
  · intro h
    constructor
    · intro i hi
      have hpre := List.prefix_iff_eq_take.mp
        (List.takeWhile_prefix (l := dup) (fun p => decide (p.accum < v)))
      have hmem : dup[i]'(by omega) ∈ dup.takeWhile fun p => decide (p.accum < v) := by
        rw [hpre, h]
        rw [List.mem_take_iff_getElem]
        exact ⟨i, by omega, rfl⟩
      have := List.mem_takeWhile_imp hmem
      simpa using this
    · by_contra hlt
      rw [not_le] at hlt
      have hall : ∀ a ∈ dup.take (j + 1), decide (a.accum < v) = true := by
        intro a ha
        rw [List.mem_take_iff_getElem] at ha
        obtain ⟨i, hi, rfl⟩ := ha
        simp only [decide_eq_true_eq]
        by_cases hij : i = j
        · subst hij; exact hlt
        · have := List.pairwise_iff_getElem.mp hs i j (by omega) hj (by omega)
          exact lt_of_le_of_lt (not_lt.mp this) hlt
      have := takeWhile_append_of_forall _ dup (j + 1) hall
      rw [this, List.length_append, List.length_take] at h
      omega
  · rintro ⟨h1, h2⟩
    have hall : ∀ a ∈ dup.take j, decide (a.accum < v) = true := by
      intro a ha
      rw [List.mem_take_iff_getElem] at ha
      obtain ⟨i, hi, rfl⟩ := ha
      simpa using h1 i (by omega)
    rw [takeWhile_append_of_forall _ dup j hall, List.length_append, List.length_take]
    have hd : dup.drop j = dup[j] :: dup.drop (j + 1) := by simp
    rw [hd, List.takeWhile_cons]
    have : ¬ dup[j].accum < v := not_lt.mpr h2
    simp only [this, decide_false, Bool.false_eq_true, if_false, List.length_nil]
    omega

/-- The state written by iteration `i` of the resampling loop, when `lower_bound` never reaches
the end: `a` is the position found in iteration `i` and `prev` the previous one. -/
def resampledState [StateOps S] (dup : List (Particle S K)) (noise : Nat → S) (s0 : S)
    (i a prev : Nat) : S :=
  let s := ((dup[a]?).map Particle.state).getD s0
  if a = prev then StateOps.normalize (StateOps.add s (noise i)) else s

omit [IsStrictOrderedRing K] in
/-- Closed form of the resampling loop. `v i` is the scan position `pstep * i + initial_p`. -/
theorem resampleLoop_closed [StateOps S] (dup : List (Particle S K)) (pstep u prob : K)
    (noise : Nat → S) (s0 : S) (ps : List (Particle S K)) (i : Nat) (v0 : K) (prev : Nat)
    (hmono : ∀ k l : Nat, k ≤ l → pstep * (k : K) + u ≤ pstep * (l : K) + u)
    (h0 : v0 ≤ pstep * (i : K) + u)
    (hlt : ∀ k, k < i + ps.length → cut dup (pstep * (k : K) + u) < dup.length)
    :
    ∃ ps', resampleLoop dup pstep u prob noise ps i (cut dup v0) prev = .ok ps' ∧
      ps'.map Particle.state = (List.range ps.length).map fun k =>
        resampledState dup noise s0 (i + k) (cut dup (pstep * ((i + k : Nat) : K) + u))
          (if k = 0 then prev else cut dup (pstep * ((i + k - 1 : Nat) : K) + u)) := by
  induction ps generalizing i v0 prev with
  | nil => exact ⟨[], rfl, rfl⟩
  | cons p ps ih =>
    have hl : cut dup (pstep * (i : K) + u) < dup.length := hlt i (by simp)
    obtain ⟨ps', e, hst⟩ := ih (i + 1) (pstep * (i : K) + u) (cut dup (pstep * (i : K) + u))
      (hmono i (i + 1) (by omega)) (fun k hk => hlt k (by simp at hk ⊢; omega))
    have hcut := lowerBound_resume dup v0 _ h0
    have htail : (List.range ps.length).map (fun k =>
        resampledState dup noise s0 (i + 1 + k) (cut dup (pstep * ((i + 1 + k : Nat) : K) + u))
          (if k = 0 then cut dup (pstep * (i : K) + u) else
            cut dup (pstep * ((i + 1 + k - 1 : Nat) : K) + u))) =
        (List.range ps.length).map (fun k =>
        resampledState dup noise s0 (i + (k + 1)) (cut dup (pstep * ((i + (k + 1) : Nat) : K) + u))
          (if k + 1 = 0 then prev else cut dup (pstep * ((i + (k + 1) - 1 : Nat) : K) + u))) := by
      apply List.map_congr_left
      intro k _
      have e1 : i + 1 + k = i + (k + 1) := by omega
      have e2 : i + 1 + k - 1 = i + (k + 1) - 1 := by omega
      rw [e1]
      congr 1
      by_cases hk : k = 0
      · subst hk; simp
      · simp [hk]
    simp only [resampleLoop, hcut]
    rw [if_neg (Nat.ne_of_lt hl)]
    by_cases hp : cut dup (pstep * (i : K) + u) = prev
    · rw [if_pos hp, deref_ok dup _ hl]
      simp only [Outcome.bind_ok, e]
      refine ⟨_, rfl, ?_⟩
      simp only [List.map_cons, List.length_cons, List.range_succ_eq_map, hst, htail, List.map_map]
      refine List.cons_eq_cons.mpr ⟨?_, rfl⟩
      have hl' : prev < dup.length := hp ▸ hl
      simp [resampledState, hp, hl']
    · rw [if_neg hp, deref_ok dup _ hl]
      simp only [Outcome.bind_ok, e]
      refine ⟨_, rfl, ?_⟩
      simp only [List.map_cons, List.length_cons, List.range_succ_eq_map, hst, htail, List.map_map]
      refine List.cons_eq_cons.mpr ⟨?_, rfl⟩
      simp [resampledState, hp, hl]

/-- Closed form of the resize loop; `pscan` takes the values `pstep * (k + 1)`. -/
theorem resizeLoop_closed (dup : List (Particle S K)) (pstep prob : K)
    (s0 : S) (ps : List (Particle S K)) (i : Nat) (prev : Nat) (hp : 0 ≤ pstep)
    (hlt : ∀ k, 1 ≤ k → k ≤ i + ps.length → cut dup (pstep * (k : K)) < dup.length) :
    ∃ ps', resizeLoop dup pstep prob ps (pstep * (i : K)) (cut dup (pstep * (i : K))) prev =
        .ok ps' ∧
      ps'.map Particle.state = (List.range ps.length).map fun k =>
        ((dup[cut dup (pstep * ((i + k + 1 : Nat) : K))]?).map Particle.state).getD s0 := by
  induction ps generalizing i prev with
  | nil => exact ⟨[], rfl, rfl⟩
  | cons p ps ih =>
    have hl : cut dup (pstep * ((i + 1 : Nat) : K)) < dup.length :=
      hlt (i + 1) (by omega) (by simp)
    obtain ⟨ps', e, hst⟩ := ih (i + 1) (cut dup (pstep * ((i + 1 : Nat) : K)))
      (fun k hk1 hk => hlt k hk1 (by simp at hk ⊢; omega))
    have hpn : pstep * (i : K) + pstep = pstep * ((i + 1 : Nat) : K) := by push_cast; ring
    have hcut := lowerBound_resume dup (pstep * (i : K)) (pstep * ((i + 1 : Nat) : K))
      (by push_cast; nlinarith)
    simp only [resizeLoop, hpn, hcut]
    rw [if_neg (Nat.ne_of_lt hl), deref_ok dup _ hl]
    simp only [Outcome.bind_ok, e]
    refine ⟨_, rfl, ?_⟩
    simp only [List.map_cons, List.length_cons, List.range_succ_eq_map, hst, List.map_map]
    refine List.cons_eq_cons.mpr ⟨?_, ?_⟩
    · have hl2 := hl
      simp only [Nat.add_zero, List.getElem?_eq_getElem hl2, Option.map_some, Option.getD_some]
    · apply List.map_congr_left
      intro k _
      have e1 : i + 1 + k + 1 = i + (k + 1) + 1 := by omega
      simp [e1, Function.comp]

end PF
end Mcl3dl
