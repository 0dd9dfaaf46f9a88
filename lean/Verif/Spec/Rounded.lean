import Mathlib.Data.Real.Basic
import Mathlib.Tactic

/-!
# Specification of rounded arithmetic

The standard model of floating-point arithmetic: in a range of numbers, the result of an operation is the exact
result times one plus a small relative error. It covers IEEE-754 with `u = 2⁻²⁴` (float) or `2⁻⁵³` (double), `lo`
the smallest normal and `hi` the largest finite number.
-/

namespace Mcl3dl

/-- The exact result is 0 or in the range. -/
def InRange (lo hi x : ℝ) : Prop := x = 0 ∨ (lo ≤ |x| ∧ |x| ≤ hi)

/-- `val` is the number a machine number stands for; `u` bounds the relative error. -/
structure Rounded (F : Type) [Zero F] [Add F] [Mul F] [Div F] [LT F] (val : F → ℝ) (u lo hi : ℝ) : Prop where
  unit_pos : 0 ≤ u
  unit_lt : u < 1
  zero : val 0 = 0
  lt : ∀ a b : F, a < b ↔ val a < val b
  /-- a sum is exact when it is small -/
  add : ∀ a b : F, |val a + val b| ≤ hi → ∃ δ, |δ| ≤ u ∧ val (a + b) = (val a + val b) * (1 + δ)
  mul : ∀ a b : F, InRange lo hi (val a * val b) → ∃ δ, |δ| ≤ u ∧ val (a * b) = val a * val b * (1 + δ)
  div : ∀ a b : F, val b ≠ 0 → InRange lo hi (val a / val b) → ∃ δ, |δ| ≤ u ∧ val (a / b) = val a / val b * (1 + δ)

end Mcl3dl
