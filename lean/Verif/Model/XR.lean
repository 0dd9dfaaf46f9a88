import Verif.Model.Num

/-!
# Extended reals with NaN

`XR` follows the IEEE rules for infinities and NaN, with exact (unrounded) finite arithmetic and a
single (positive) zero.  The generic model definitions can be instantiated with it to study how
non-finite values arise and spread.
-/

namespace Mcl3dl

/-- Finite value, infinities, NaN. -/
inductive XR where
  | fin (r : ℝ)
  | pinf
  | ninf
  | nan

namespace XR

instance : Zero XR := ⟨fin 0⟩
instance : One XR := ⟨fin 1⟩
instance : NatCast XR := ⟨fun n => fin n⟩

/-- IEEE negation. -/
def neg : XR → XR
  | fin r => fin (-r)
  | pinf => ninf
  | ninf => pinf
  | nan => nan

noncomputable instance : Neg XR := ⟨neg⟩

/-- IEEE addition (without rounding). -/
noncomputable def add : XR → XR → XR
  | nan, _ => nan
  | _, nan => nan
  | fin a, fin b => fin (a + b)
  | pinf, ninf => nan
  | ninf, pinf => nan
  | pinf, _ => pinf
  | _, pinf => pinf
  | ninf, _ => ninf
  | _, ninf => ninf

noncomputable instance : Add XR := ⟨add⟩
noncomputable instance : Sub XR := ⟨fun a b => add a (neg b)⟩

open Classical in
/-- An infinity with the sign of `r` (`b`: positive infinity), NaN for zero. -/
noncomputable def signInf (b : Bool) (r : ℝ) : XR :=
  if r = 0 then nan else if (0 < r) = b then pinf else ninf

/-- IEEE multiplication (without rounding). -/
noncomputable def mul : XR → XR → XR
  | nan, _ => nan
  | _, nan => nan
  | fin a, fin b => fin (a * b)
  | pinf, fin r => signInf true r
  | fin r, pinf => signInf true r
  | ninf, fin r => signInf false r
  | fin r, ninf => signInf false r
  | pinf, pinf => pinf
  | ninf, ninf => pinf
  | pinf, ninf => ninf
  | ninf, pinf => ninf

noncomputable instance : Mul XR := ⟨mul⟩

open Classical in
/-- IEEE division (without rounding); the zero divisor is positive. -/
noncomputable def div : XR → XR → XR
  | nan, _ => nan
  | _, nan => nan
  | fin a, fin b =>
    if b = 0 then (if a = 0 then nan else if 0 < a then pinf else ninf) else fin (a / b)
  | fin _, pinf => fin 0
  | fin _, ninf => fin 0
  | pinf, fin b => if b < 0 then ninf else pinf
  | ninf, fin b => if b < 0 then pinf else ninf
  | _, _ => nan

noncomputable instance : Div XR := ⟨div⟩

/-- IEEE comparison: NaN compares false with everything. -/
def lt : XR → XR → Prop
  | fin a, fin b => a < b
  | fin _, pinf => True
  | ninf, fin _ => True
  | ninf, pinf => True
  | _, _ => False

/-- IEEE comparison. -/
def le : XR → XR → Prop
  | fin a, fin b => a ≤ b
  | fin _, pinf => True
  | pinf, pinf => True
  | ninf, fin _ => True
  | ninf, pinf => True
  | ninf, ninf => True
  | _, _ => False

instance : LT XR := ⟨lt⟩
instance : LE XR := ⟨le⟩
noncomputable instance : DecidableLT XR := fun a b => Classical.propDecidable (lt a b)
noncomputable instance : DecidableLE XR := fun a b => Classical.propDecidable (le a b)

open Classical in
/-- `std::sqrt`: NaN for negative arguments. -/
noncomputable def sqrt : XR → XR
  | fin r => if r < 0 then nan else fin (Real.sqrt r)
  | pinf => pinf
  | _ => nan

/-- Apply a real function to a finite argument; anything else gives NaN. -/
noncomputable def lift (f : ℝ → ℝ) : XR → XR
  | fin r => fin (f r)
  | _ => nan

open Classical in
/-- Simplification: `asin`/`acos` are NaN outside `[-1, 1]`; `atan2` of a non-finite argument is
taken to be NaN (not used in proofs). -/
noncomputable instance : Transc XR where
  sqrt := sqrt
  sin := lift Real.sin
  cos := lift Real.cos
  asin := fun x => match x with
    | fin r => if |r| ≤ 1 then fin (Real.arcsin r) else nan
    | _ => nan
  acos := fun x => match x with
    | fin r => if |r| ≤ 1 then fin (Real.arccos r) else nan
    | _ => nan
  atan2 := fun y x => match y, x with
    | fin b, fin a => fin (Complex.arg ⟨a, b⟩)
    | _, _ => nan
  pi := fin Real.pi

@[simp] theorem zero_def : (0 : XR) = fin 0 := rfl
@[simp] theorem one_def : (1 : XR) = fin 1 := rfl
@[simp] theorem natCast_def (n : ℕ) : ((n : ℕ) : XR) = fin n := rfl
@[simp] theorem fin_add (a b : ℝ) : fin a + fin b = fin (a + b) := rfl
@[simp] theorem fin_sub (a b : ℝ) : fin a - fin b = fin (a - b) := by
  change fin (a + -b) = _; rw [sub_eq_add_neg]
@[simp] theorem fin_mul (a b : ℝ) : fin a * fin b = fin (a * b) := rfl
@[simp] theorem fin_neg (a : ℝ) : -fin a = fin (-a) := rfl
@[simp] theorem nan_add (a : XR) : nan + a = nan := by cases a <;> rfl
@[simp] theorem add_nan (a : XR) : a + nan = nan := by cases a <;> rfl
@[simp] theorem nan_mul (a : XR) : nan * a = nan := by cases a <;> rfl
@[simp] theorem mul_nan (a : XR) : a * nan = nan := by cases a <;> rfl
@[simp] theorem nan_div (a : XR) : nan / a = nan := by cases a <;> rfl
@[simp] theorem div_nan (a : XR) : a / nan = nan := by cases a <;> rfl
theorem fin_div (a b : ℝ) (hb : b ≠ 0) : fin a / fin b = fin (a / b) := by
  change div _ _ = _; simp [div, hb]
theorem fin_div_zero_pos (a : ℝ) (ha : 0 < a) : fin a / fin 0 = pinf := by
  change div _ _ = _; simp [div, ha, ha.ne']
theorem zero_div_zero : fin 0 / fin 0 = nan := by
  change div _ _ = _; simp [div]
theorem zero_mul_pinf : fin 0 * pinf = nan := by
  change mul _ _ = _; simp [mul, signInf]
theorem sqrt_fin (a : ℝ) (ha : 0 ≤ a) : sqrt (fin a) = fin (Real.sqrt a) := by
  simp [sqrt, not_lt.2 ha]
theorem sqrt_neg (a : ℝ) (ha : a < 0) : sqrt (fin a) = nan := by
  simp [sqrt, ha]
@[simp] theorem transc_sqrt (a : XR) : Transc.sqrt a = sqrt a := rfl
@[simp] theorem fin_lt (a b : ℝ) : fin a < fin b ↔ a < b := Iff.rfl
@[simp] theorem fin_le (a b : ℝ) : fin a ≤ fin b ↔ a ≤ b := Iff.rfl
@[simp] theorem not_nan_lt (a : XR) : ¬ nan < a := by
  intro h; cases a <;> exact h
@[simp] theorem not_lt_nan (a : XR) : ¬ a < nan := by
  intro h; cases a <;> exact h

theorem pinf_mul_zero : pinf * fin 0 = nan := by
  change mul _ _ = _; simp [mul, signInf]
theorem fin_div_zero_neg (a : ℝ) (ha : a < 0) : fin a / fin 0 = ninf := by
  change div _ _ = _; simp [div, ha.ne, not_lt.2 ha.le]

end XR
end Mcl3dl
