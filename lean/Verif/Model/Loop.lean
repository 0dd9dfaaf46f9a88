import Mathlib.Logic.Function.Iterate
import Mathlib.Data.Nat.Find
import Verif.Model.Outcome

/-!
# Unbounded `while` loops

`whileLoop c b s` is the meaning of `while (c) b;` started in `s`: the state in which the condition
first fails, or `none` if the loop never ends.
-/

namespace Mcl3dl

open Classical in
/-- Denotation of a C++ `while` loop with condition `c` and body `b`; `none` is non-termination. -/
noncomputable def whileLoop {S : Type*} (c : S → Prop) (b : S → S) (s : S) : Option S :=
  if h : ∃ n : ℕ, ¬ c (b^[n] s) then some (b^[Nat.find h] s) else none

theorem whileLoop_done {S : Type*} {c : S → Prop} {b : S → S} {s : S} (h : ¬ c s) :
    whileLoop c b s = some s := by
  classical
  have h' : ∃ n : ℕ, ¬ c (b^[n] s) := ⟨0, h⟩
  have h0 : Nat.find h' = 0 := by rw [Nat.find_eq_zero]; exact h
  simp only [whileLoop, dif_pos h', h0, Function.iterate_zero, id]

theorem whileLoop_step {S : Type*} {c : S → Prop} {b : S → S} {s : S} (h : c s) :
    whileLoop c b s = whileLoop c b (b s) := by
  classical
  unfold whileLoop
  by_cases h' : ∃ n : ℕ, ¬ c (b^[n] (b s))
  · have h1 : ∃ n : ℕ, ¬ c (b^[n] s) := by
      obtain ⟨n, hn⟩ := h'; exact ⟨n + 1, by rwa [Function.iterate_succ_apply]⟩
    rw [dif_pos h', dif_pos h1]
    have : Nat.find h1 = Nat.find h' + 1 := by
      rw [Nat.find_eq_iff]
      refine ⟨?_, ?_⟩
      · rw [Function.iterate_succ_apply]; exact Nat.find_spec h'
      · intro n hn
        cases n with
        | zero => simpa using h
        | succ n =>
          rw [Function.iterate_succ_apply]
          exact Nat.find_min h' (by omega)
    rw [this, Function.iterate_succ_apply]
  · have h1 : ¬ ∃ n : ℕ, ¬ c (b^[n] s) := by
      rintro ⟨n, hn⟩
      cases n with
      | zero => exact hn h
      | succ n => exact h' ⟨n, by rwa [Function.iterate_succ_apply] at hn⟩
    rw [dif_neg h', dif_neg h1]

/-- A loop whose condition never fails diverges. -/
theorem whileLoop_diverges {S : Type*} {c : S → Prop} {b : S → S} {s : S}
    (h : ∀ n : ℕ, c (b^[n] s)) : whileLoop c b s = none := by
  classical
  unfold whileLoop
  rw [dif_neg]
  rintro ⟨n, hn⟩; exact hn (h n)

/-- Any result is reached by iterating the body, and the condition fails there but not before. -/
theorem whileLoop_eq_some {S : Type*} {c : S → Prop} {b : S → S} {s r : S}
    (h : whileLoop c b s = some r) :
    ∃ n : ℕ, r = b^[n] s ∧ ¬ c r ∧ ∀ m < n, c (b^[m] s) := by
  classical
  unfold whileLoop at h
  split_ifs at h with h'
  · cases h
    refine ⟨Nat.find h', rfl, Nat.find_spec h', fun m hm => ?_⟩
    exact not_not.1 (Nat.find_min h' hm)

/-! ## Loops whose body can fail -/

/-- `n` rounds of a loop; `inl` is the state at the head of the next round, `inr` the result. -/
def iterO {S R : Type*} (step : S → Outcome (S ⊕ R)) : ℕ → S → Outcome (S ⊕ R)
  | 0, s => .ok (.inl s)
  | n + 1, s => (step s).bind fun x =>
    match x with
    | .inl s' => iterO step n s'
    | .inr r => .ok (.inr r)

/-- The loop has ended: by a result, an exception or undefined behaviour. -/
def Outcome.Ended {S R : Type*} : Outcome (S ⊕ R) → Prop
  | .ok (.inl _) => False
  | _ => True

open Classical in
/-- Denotation of a C++ loop whose round is `step`.  A loop that never ends has no side effect in the
modelled code, so by the forward-progress rule it counts as undefined behaviour. -/
noncomputable def loopO {S R : Type*} (step : S → Outcome (S ⊕ R)) (s : S) : Outcome R :=
  if h : ∃ n, (iterO step n s).Ended then
    match iterO step (Nat.find h) s with
    | .ok (.inr r) => .ok r
    | .ok (.inl _) => .ub "unreachable"
    | .throws m => .throws m
    | .ub w => .ub w
  else .ub "loop does not end"

theorem iterO_succ {S R : Type*} (step : S → Outcome (S ⊕ R)) (n : ℕ) (s : S) :
    iterO step (n + 1) s = (step s).bind fun x =>
      match x with
      | .inl s' => iterO step n s'
      | .inr r => .ok (.inr r) := rfl

theorem loopO_not_ended {S R : Type*} {step : S → Outcome (S ⊕ R)} {s : S}
    (h : ∀ n, ¬ (iterO step n s).Ended) : loopO step s = .ub "loop does not end" := by
  unfold loopO
  rw [dif_neg]
  rintro ⟨n, hn⟩; exact h n hn

theorem loopO_first {S R : Type*} {step : S → Outcome (S ⊕ R)} {s : S} {n : ℕ}
    (h : (iterO step n s).Ended) (hmin : ∀ m < n, ¬ (iterO step m s).Ended) :
    loopO step s = match iterO step n s with
    | .ok (.inr r) => .ok r
    | .ok (.inl _) => .ub "unreachable"
    | .throws m => .throws m
    | .ub w => .ub w := by
  classical
  have h' : ∃ n, (iterO step n s).Ended := ⟨n, h⟩
  have hf : Nat.find h' = n := by
    rw [Nat.find_eq_iff]; exact ⟨h, hmin⟩
  unfold loopO
  rw [dif_pos h', hf]

/-- The loop unrolls. -/
theorem loopO_eq {S R : Type*} (step : S → Outcome (S ⊕ R)) (s : S) :
    loopO step s = (step s).bind fun x =>
      match x with
      | .inl s' => loopO step s'
      | .inr r => .ok r := by
  have h0 : ¬ (iterO step 0 s).Ended := id
  cases hs : step s with
  | throws m =>
    rw [loopO_first (n := 1) (by rw [iterO_succ, hs]; trivial)
      (fun m hm => by have : m = 0 := by omega
                      subst this; exact h0)]
    rw [iterO_succ, hs]; rfl
  | ub w =>
    rw [loopO_first (n := 1) (by rw [iterO_succ, hs]; trivial)
      (fun m hm => by have : m = 0 := by omega
                      subst this; exact h0)]
    rw [iterO_succ, hs]; rfl
  | ok x =>
    cases x with
    | inr r =>
      rw [loopO_first (n := 1) (by rw [iterO_succ, hs]; trivial)
        (fun m hm => by have : m = 0 := by omega
                        subst this; exact h0)]
      rw [iterO_succ, hs]; rfl
    | inl s' =>
      have hshift : ∀ n, iterO step (n + 1) s = iterO step n s' := fun n => by
        rw [iterO_succ, hs]; rfl
      rw [Outcome.bind_ok]
      change _ = loopO step s'
      by_cases h' : ∃ n, (iterO step n s').Ended
      · classical
        have hn := Nat.find_spec h'
        have hmin : ∀ m < Nat.find h', ¬ (iterO step m s').Ended := fun m hm => Nat.find_min h' hm
        rw [loopO_first hn hmin, loopO_first (n := Nat.find h' + 1) (by rwa [hshift])]
        · rw [hshift]
        · intro m hm
          cases m with
          | zero => exact h0
          | succ m => rw [hshift]; exact hmin m (by omega)
      · push Not at h'
        rw [loopO_not_ended h', loopO_not_ended]
        intro n
        cases n with
        | zero => exact h0
        | succ n => rw [hshift]; exact h' n

/-- Invariants of the rounds hold of the result. -/
theorem loopO_inv {S R : Type*} {step : S → Outcome (S ⊕ R)} {I : S → Prop} {Q : R → Prop}
    (h1 : ∀ s s', I s → step s = .ok (.inl s') → I s') (h2 : ∀ s r, I s → step s = .ok (.inr r) → Q r)
    {s : S} (hs : I s) {r : R} (h : loopO step s = .ok r) : Q r := by
  classical
  unfold loopO at h
  split_ifs at h with hn
  have key : ∀ n s, I s → iterO step n s = .ok (.inr r) → Q r := by
    intro n
    induction n with
    | zero => intro s _ h; cases h
    | succ n ih =>
      intro s hs h
      rw [iterO_succ] at h
      cases hst : step s with
      | throws m => rw [hst] at h; cases h
      | ub w => rw [hst] at h; cases h
      | ok x =>
        rw [hst] at h
        cases x with
        | inl s' => exact ih s' (h1 s s' hs hst) h
        | inr r' => cases h; exact h2 s _ hs hst
  revert h
  generalize hit : iterO step (Nat.find hn) s = o
  intro h
  match o, h with
  | .ok (.inr r'), h => cases h; exact key _ s hs hit

end Mcl3dl
