import Verif.Model.State6DOF
import Verif.Model.Motion

/-!
# Specification of rounded arithmetic for the geometry

The standard model of floating-point arithmetic with gradual underflow: an operation whose exact result is at most `hi`
has a relative error of at most `u` plus, for products and quotients, an absolute error of at most `η`. It covers
IEEE-754 with `u = 2⁻²⁴`, `η = 2⁻¹⁵⁰` (float; a little more than `2⁻²⁴` where the code computes in double and then
rounds to float), for every rounding mode with twice these. Nothing is assumed about the error of sine and cosine except
that the sum of their squares is not far from 1.
-/

namespace Mcl3dl

structure RoundedGeom (F : Type) [Zero F] [One F] [Neg F] [Add F] [Sub F] [Mul F] [Div F] [Transc F]
    (val : F → ℝ) (u η hi : ℝ) : Prop where
  unit_nonneg : 0 ≤ u
  under_nonneg : 0 ≤ η
  zero : val 0 = 0
  one : val 1 = 1
  neg : ∀ a : F, val (-a) = -val a
  add : ∀ a b : F, |val a + val b| ≤ hi → ∃ δ, |δ| ≤ u ∧ val (a + b) = (val a + val b) * (1 + δ)
  sub : ∀ a b : F, |val a - val b| ≤ hi → ∃ δ, |δ| ≤ u ∧ val (a - b) = (val a - val b) * (1 + δ)
  mul : ∀ a b : F, |val a * val b| ≤ hi → ∃ δ ε, |δ| ≤ u ∧ |ε| ≤ η ∧ val (a * b) = val a * val b * (1 + δ) + ε
  div : ∀ a b : F, val b ≠ 0 → |val a / val b| ≤ hi →
    ∃ δ ε, |δ| ≤ u ∧ |ε| ≤ η ∧ val (a / b) = val a / val b * (1 + δ) + ε
  sqrt : ∀ a : F, 0 ≤ val a → val a ≤ hi → ∃ δ, |δ| ≤ u ∧ val (Transc.sqrt a) = Real.sqrt (val a) * (1 + δ)
  circle : ∀ a : F, |val (Transc.sin a) ^ 2 + val (Transc.cos a) ^ 2 - 1| ≤ 1 / 100

/-- The numbers a machine quaternion stands for. -/
def Quat.vals {F : Type} (val : F → ℝ) (q : Quat F) : Quat ℝ := ⟨val q.x, val q.y, val q.z, val q.w⟩

/-- The square of the length of the quaternion, exactly. -/
def Quat.lengthSq (q : Quat ℝ) : ℝ := q.x ^ 2 + q.y ^ 2 + q.z ^ 2 + q.w ^ 2

/-- The length is 1 up to a tenth: no machine quaternion that stands for a rotation is farther off. -/
def Quat.NearUnit {F : Type} (val : F → ℝ) (q : Quat F) : Prop := |(q.vals val).lengthSq - 1| ≤ 1 / 10

end Mcl3dl
