import Mathlib.Analysis.Real.Sqrt
import Mathlib.Analysis.SpecialFunctions.Trigonometric.Inverse
import Mathlib.Analysis.SpecialFunctions.Complex.Arg

/-!
# Number operations shared by the geometric models

The C++ code computes in `float`/`double`.  Model definitions are written over an abstract number
type `F` with the operation classes they use, so that the same definition can be read over the real
numbers (exact arithmetic) or over `XR` (extended reals with NaN and infinities).
-/

namespace Mcl3dl

/-- The `<cmath>` functions used by the code (quat.h:31, state_6dof.h, filter.h, ...). -/
class Transc (F : Type*) where
  sqrt : F → F
  sin : F → F
  cos : F → F
  asin : F → F
  acos : F → F
  atan2 : F → F → F
  pi : F

/-- Exact reading over the real numbers.  `std::atan2(y, x)` is the argument of `x + i y`, in
`(-π, π]`; signed zeros are not modelled. -/
noncomputable instance : Transc ℝ where
  sqrt := Real.sqrt
  sin := Real.sin
  cos := Real.cos
  asin := Real.arcsin
  acos := Real.arccos
  atan2 := fun y x => Complex.arg ⟨x, y⟩
  pi := Real.pi

@[simp] theorem Transc.sqrt_real (x : ℝ) : Transc.sqrt x = Real.sqrt x := rfl
@[simp] theorem Transc.sin_real (x : ℝ) : Transc.sin x = Real.sin x := rfl
@[simp] theorem Transc.cos_real (x : ℝ) : Transc.cos x = Real.cos x := rfl
@[simp] theorem Transc.asin_real (x : ℝ) : Transc.asin x = Real.arcsin x := rfl
@[simp] theorem Transc.acos_real (x : ℝ) : Transc.acos x = Real.arccos x := rfl
@[simp] theorem Transc.atan2_real (y x : ℝ) : Transc.atan2 y x = Complex.arg ⟨x, y⟩ := rfl
@[simp] theorem Transc.pi_real : (Transc.pi : ℝ) = Real.pi := rfl

/-- `std::max(a, b)`: `(a < b) ? b : a`. -/
def cmax {F : Type*} [LT F] [DecidableLT F] (a b : F) : F := if a < b then b else a

/-- `std::min(a, b)`: `(b < a) ? b : a`. -/
def cmin {F : Type*} [LT F] [DecidableLT F] (a b : F) : F := if b < a then b else a

/-- `std::abs(a)` / `fabs(a)`. -/
def cabs {F : Type*} [LT F] [DecidableLT F] [Zero F] [Neg F] (a : F) : F := if a < 0 then -a else a

theorem cmax_eq {F : Type*} [LinearOrder F] (a b : F) : cmax a b = max a b := by
  unfold cmax; split_ifs with h
  · rw [max_eq_right h.le]
  · rw [max_eq_left (not_lt.mp h)]

theorem cmin_eq {F : Type*} [LinearOrder F] (a b : F) : cmin a b = min a b := by
  unfold cmin; split_ifs with h
  · rw [min_eq_right h.le]
  · rw [min_eq_left (not_lt.mp h)]

theorem cabs_eq (a : ℝ) : cabs a = |a| := by
  unfold cabs; split_ifs with h
  · rw [abs_of_neg h]
  · rw [abs_of_nonneg (not_lt.mp h)]

end Mcl3dl
