import Verif.Model.PF
import Verif.Spec.Rounded
import Mathlib.Data.Int.Log

/-!
# Specification for resampling with rounded arithmetic

`MonoRounded`: beyond small relative errors, rounding never reverses an order, and adding 0 changes nothing (as in
IEEE-754, in every rounding mode). The counting functions of C158.
-/

namespace Mcl3dl

/-- Rounded arithmetic in which rounding is monotone. -/
structure MonoRounded (F : Type) [Zero F] [Add F] [Mul F] [Div F] [LT F] (val : F → ℝ) (u lo hi : ℝ) : Prop extends
    Rounded F val u lo hi where
  /-- a larger exact sum never has a smaller rounded sum -/
  add_mono : ∀ a b c d : F, |val a + val b| ≤ hi → |val c + val d| ≤ hi → val a + val b ≤ val c + val d →
    val (a + b) ≤ val (c + d)
  mul_mono : ∀ a b c d : F, |val a * val b| ≤ hi → |val c * val d| ≤ hi → val a * val b ≤ val c * val d →
    val (a * b) ≤ val (c * d)
  add_zero : ∀ a : F, |val a| ≤ hi → val (a + 0) = val a

namespace PF

/-- The running total of the weights of the first `k` particles, computed from the left. -/
def runningTotal {S F : Type} [Zero F] [Add F] (ps : List (Particle S F)) (k : Nat) : F :=
  (ps.take k).foldl (fun a p => a + p.prob) 0

open Classical in
/-- How many of the particles `qs` carry the tag of a particle of `ps` whose index satisfies `I`. -/
noncomputable def carrying {S F T : Type} (tag : S → T) (ps : List (Particle S F)) (I : Nat → Prop)
    (qs : List (Particle S F)) : Nat :=
  (qs.map Particle.state).countP fun s => decide (∃ (i : Nat) (h : i < ps.length), I i ∧ tag s = tag ps[i].state)

/-- Every particle can be told from the others by its tag. -/
def DistinctTags {S F T : Type} (tag : S → T) (ps : List (Particle S F)) : Prop :=
  ∀ (i k : Nat) (hi : i < ps.length) (hk : k < ps.length), tag ps[i].state = tag ps[k].state → i = k

/-! ## A machine arithmetic: numbers with `p` binary digits, results truncated -/

/-- Keep the leading `p` binary digits of a non-negative number. -/
noncomputable def trunc (p : ℕ) (x : ℝ) : ℝ :=
  (⌊x * 2 ^ ((p : ℤ) - 1 - Int.log 2 x)⌋ : ℝ) * 2 ^ (Int.log 2 x - ((p : ℤ) - 1))

/-- The non-negative numbers with `p` binary digits and any exponent. -/
def Digits (p : ℕ) : Type := { x : ℝ // 0 ≤ x ∧ trunc p x = x }

end PF
end Mcl3dl
