import Verif.Spec.RoundedResample

/-! # A machine arithmetic that satisfies `MonoRounded`: `p` binary digits, results truncated -/

set_option linter.unusedSectionVars false

namespace Mcl3dl
namespace PF

theorem trunc_zero (p : ℕ) : trunc p 0 = 0 := by simp [trunc]

theorem trunc_nonneg (p : ℕ) {x : ℝ} (hx : 0 ≤ x) : 0 ≤ trunc p x := by
  unfold trunc
  have : (0 : ℤ) ≤ ⌊x * 2 ^ ((p : ℤ) - 1 - Int.log 2 x)⌋ := Int.floor_nonneg.2 (by positivity)
  have : (0 : ℝ) ≤ (⌊x * 2 ^ ((p : ℤ) - 1 - Int.log 2 x)⌋ : ℝ) := by exact_mod_cast this
  positivity

theorem two_zpow_mul (e : ℤ) : (2 : ℝ) ^ e * 2 ^ (-e) = 1 := by
  rw [← zpow_add₀ (by norm_num)]; simp

theorem trunc_le (p : ℕ) (x : ℝ) : trunc p x ≤ x := by
  unfold trunc
  set e := (p : ℤ) - 1 - Int.log 2 x
  have e1 : Int.log 2 x - ((p : ℤ) - 1) = -e := by simp only [e]; ring
  rw [e1]
  calc _ ≤ x * 2 ^ e * 2 ^ (-e) := mul_le_mul_of_nonneg_right (Int.floor_le _) (by positivity)
    _ = x := by rw [mul_assoc, two_zpow_mul, mul_one]

theorem lt_trunc (p : ℕ) {x : ℝ} (hx : 0 < x) : x * (1 - 2 ^ (1 - (p : ℤ))) ≤ trunc p x := by
  unfold trunc
  set e := (p : ℤ) - 1 - Int.log 2 x with he
  have e1 : Int.log 2 x - ((p : ℤ) - 1) = -e := by simp only [e]; ring
  rw [e1]
  have h := Int.zpow_log_le_self (b := 2) (by norm_num) hx
  have h1 : (x * 2 ^ e - 1) * 2 ^ (-e) ≤ (⌊x * 2 ^ e⌋ : ℝ) * 2 ^ (-e) :=
    mul_le_mul_of_nonneg_right (Int.sub_one_lt_floor _).le (by positivity)
  refine le_trans ?_ h1
  rw [sub_mul, mul_assoc, two_zpow_mul]
  have : (2 : ℝ) ^ (-e) = 2 ^ (Int.log 2 x) * 2 ^ (1 - (p : ℤ)) := by
    rw [← zpow_add₀ (by norm_num)]; congr 1; rw [he]; ring
  rw [this]
  have hp : (0 : ℝ) < 2 ^ (1 - (p : ℤ)) := by positivity
  have h' : (2 : ℝ) ^ (Int.log 2 x) ≤ x := by exact_mod_cast h
  nlinarith

theorem zpow_le_trunc (p : ℕ) (hp : 0 < p) {x : ℝ} (hx : 0 < x) : (2 : ℝ) ^ (Int.log 2 x) ≤ trunc p x := by
  unfold trunc
  have h := Int.zpow_log_le_self (b := 2) (by norm_num) hx
  have h' : (2 : ℝ) ^ (Int.log 2 x) ≤ x := by exact_mod_cast h
  set l := Int.log 2 x
  have e1 : ((2 : ℤ) ^ (p - 1)) ≤ ⌊x * 2 ^ ((p : ℤ) - 1 - l)⌋ := by
    rw [Int.le_floor]
    push_cast
    calc (2 : ℝ) ^ (p - 1) = 2 ^ l * 2 ^ ((p : ℤ) - 1 - l) := by
          rw [← zpow_add₀ (by norm_num), ← zpow_natCast]; congr 1; omega
      _ ≤ _ := mul_le_mul_of_nonneg_right h' (by positivity)
  have e2 : ((2 : ℝ) ^ (p - 1)) ≤ (⌊x * 2 ^ ((p : ℤ) - 1 - l)⌋ : ℝ) := by exact_mod_cast e1
  calc (2 : ℝ) ^ l = 2 ^ (p - 1) * 2 ^ (l - ((p : ℤ) - 1)) := by
        rw [← zpow_natCast, ← zpow_add₀ (by norm_num)]; congr 1; omega
    _ ≤ _ := mul_le_mul_of_nonneg_right e2 (by positivity)

theorem trunc_mono (p : ℕ) (hp : 0 < p) {x y : ℝ} (hx : 0 ≤ x) (h : x ≤ y) : trunc p x ≤ trunc p y := by
  rcases hx.eq_or_lt with rfl | hx
  · rw [trunc_zero]; exact trunc_nonneg p h
  have hy : 0 < y := lt_of_lt_of_le hx h
  have hl := Int.log_mono_right (b := 2) hx h
  rcases hl.eq_or_lt with e | hlt
  · unfold trunc
    rw [e]
    refine mul_le_mul_of_nonneg_right ?_ (by positivity)
    have : ⌊x * 2 ^ ((p : ℤ) - 1 - Int.log 2 y)⌋ ≤ ⌊y * 2 ^ ((p : ℤ) - 1 - Int.log 2 y)⌋ :=
      Int.floor_le_floor (mul_le_mul_of_nonneg_right h (by positivity))
    exact_mod_cast this
  · have h1 := Int.lt_zpow_succ_log_self (b := 2) (by norm_num) x
    have h1' : x < (2 : ℝ) ^ (Int.log 2 x + 1) := by exact_mod_cast h1
    calc trunc p x ≤ x := trunc_le p x
      _ ≤ 2 ^ (Int.log 2 x + 1) := h1'.le
      _ ≤ 2 ^ (Int.log 2 y) := zpow_le_zpow_right₀ (by norm_num) (by omega)
      _ ≤ _ := zpow_le_trunc p hp hy

theorem trunc_trunc (p : ℕ) (hp : 0 < p) {x : ℝ} (hx : 0 ≤ x) : trunc p (trunc p x) = trunc p x := by
  rcases hx.eq_or_lt with rfl | hx
  · rw [trunc_zero, trunc_zero]
  have h0 := zpow_le_trunc p hp hx
  have hpos : 0 < trunc p x := lt_of_lt_of_le (by positivity) h0
  have hl : Int.log 2 (trunc p x) = Int.log 2 x := by
    apply le_antisymm
    · exact Int.log_mono_right hpos (trunc_le p x)
    · rw [← Int.zpow_le_iff_le_log (by norm_num) hpos]; exact_mod_cast h0
  have key : ∀ y : ℝ, trunc p y = (⌊y * 2 ^ ((p : ℤ) - 1 - Int.log 2 y)⌋ : ℝ) * 2 ^ (Int.log 2 y - ((p : ℤ) - 1)) := fun _ => rfl
  rw [key (trunc p x), hl]
  have : trunc p x * 2 ^ ((p : ℤ) - 1 - Int.log 2 x) = (⌊x * 2 ^ ((p : ℤ) - 1 - Int.log 2 x)⌋ : ℝ) := by
    unfold trunc
    rw [mul_assoc, ← zpow_add₀ (by norm_num)]; simp
  rw [this, Int.floor_intCast]
  rfl

theorem trunc_nat (p : ℕ) (n : ℕ) (h : n < 2 ^ p) : trunc p (n : ℝ) = n := by
  rcases Nat.eq_zero_or_pos n with rfl | hn
  · simp [trunc]
  unfold trunc
  rw [Int.log_natCast]
  have hl : Nat.log 2 n < p := Nat.log_lt_of_lt_pow (by omega) h
  have e : (n : ℝ) * 2 ^ ((p : ℤ) - 1 - (Nat.log 2 n : ℕ)) = ((n * 2 ^ (p - 1 - Nat.log 2 n) : ℕ) : ℤ) := by
    push_cast
    rw [← zpow_natCast (2 : ℝ) (p - 1 - Nat.log 2 n)]
    congr 2; omega
  rw [e, Int.floor_intCast, ← e, mul_assoc, ← zpow_add₀ (by norm_num)]
  simp

variable {p : ℕ}

/-- Truncate to `p` digits. -/
noncomputable def digits (p : ℕ) [Fact (0 < p)] (x : ℝ) (hx : 0 ≤ x) : Digits p :=
  ⟨trunc p x, trunc_nonneg p hx, trunc_trunc p (Fact.out) hx⟩

/-- The number a machine number stands for. -/
def Digits.v (a : Digits p) : ℝ := a.1

section
variable [Fact (0 < p)]

noncomputable instance : Zero (Digits p) := ⟨⟨0, le_refl _, trunc_zero p⟩⟩
noncomputable instance : NatCast (Digits p) := ⟨fun n => digits p n (Nat.cast_nonneg n)⟩
noncomputable instance : One (Digits p) := ⟨((1 : ℕ) : Digits p)⟩
noncomputable instance : Add (Digits p) := ⟨fun a b => digits p (a.1 + b.1) (add_nonneg a.2.1 b.2.1)⟩
noncomputable instance : Mul (Digits p) := ⟨fun a b => digits p (a.1 * b.1) (mul_nonneg a.2.1 b.2.1)⟩
noncomputable instance : Div (Digits p) := ⟨fun a b => digits p (a.1 / b.1) (div_nonneg a.2.1 b.2.1)⟩
instance : LT (Digits p) := ⟨fun a b => a.1 < b.1⟩
noncomputable instance : DecidableLT (Digits p) := fun a b => Classical.propDecidable (a.1 < b.1)

theorem trunc_error (p : ℕ) {x : ℝ} (hx : 0 ≤ x) : ∃ δ : ℝ, |δ| ≤ 2 ^ (1 - (p : ℤ)) ∧ trunc p x = x * (1 + δ) := by
  rcases hx.eq_or_lt with rfl | hx
  · exact ⟨0, by rw [abs_zero]; positivity, by simp [trunc_zero]⟩
  have h1 := lt_trunc p hx
  have h2 := trunc_le p x
  refine ⟨trunc p x / x - 1, ?_, by field_simp; ring⟩
  rw [abs_of_nonpos (by rw [sub_nonpos, div_le_one hx]; exact h2)]
  have : (1 - 2 ^ (1 - (p : ℤ)) : ℝ) ≤ trunc p x / x := by rw [le_div_iff₀ hx]; linarith
  linarith

/-- Truncating to `p ≥ 2` digits is a rounded arithmetic with monotone rounding, for every range. -/
theorem digits_rounded (hp : 2 ≤ p) (lo hi : ℝ) : MonoRounded (Digits p) Digits.v (2 ^ (1 - (p : ℤ))) lo hi where
  unit_pos := by positivity
  unit_lt := by
    calc (2 : ℝ) ^ (1 - (p : ℤ)) ≤ 2 ^ (-1 : ℤ) := zpow_le_zpow_right₀ (by norm_num) (by omega)
      _ < 1 := by norm_num
  zero := rfl
  lt := fun _ _ => Iff.rfl
  add := fun a b _ => trunc_error p (add_nonneg a.2.1 b.2.1)
  mul := fun a b _ => trunc_error p (mul_nonneg a.2.1 b.2.1)
  div := fun a b _ _ => trunc_error p (div_nonneg a.2.1 b.2.1)
  add_mono := fun a b c d _ _ h => trunc_mono p Fact.out (add_nonneg a.2.1 b.2.1) h
  mul_mono := fun a b c d _ _ h => trunc_mono p Fact.out (mul_nonneg a.2.1 b.2.1) h
  add_zero := fun a _ => by
    show trunc p (a.1 + 0) = a.1
    rw [_root_.add_zero]; exact a.2.2

theorem digits_nat (n : ℕ) (h : n < 2 ^ p) : ((n : ℕ) : Digits p).v = n := trunc_nat p n h

end
end PF
end Mcl3dl
