import Verif.Props.QuatAngles

/-! # C119: fractions of a rotation -/

set_option linter.unusedSectionVars false

namespace Mcl3dl
namespace Quat

open Real

/-- The axis returned by `getAxisAng` is never zero for a unit quaternion. -/
theorem getAxisAng_axis (q : Quat ℝ) (hq : q.dot q = 1) : q.getAxisAng.1.dot q.getAxisAng.1 = 1 := by
  by_cases hw : |q.w| < 1 - 1/1000000
  · exact (C36_getAxisAng q hq hw).1
  · have := (C36_near_identity q (not_lt.1 hw)).1
    rw [this]
    norm_num [Vec3.dot]

theorem ofAxisAng_add (a : Vec3 ℝ) (ha : a.dot a = 1) (s t : ℝ) : ofAxisAng a s * ofAxisAng a t = ofAxisAng a (s + t) := by
  rw [ofAxisAng_eq _ ha, ofAxisAng_eq _ ha, ofAxisAng_eq _ ha, add_div, Real.sin_add, Real.cos_add]
  have ha' : a.x * a.x + a.y * a.y + a.z * a.z = 1 := ha
  show (⟨_, _, _, _⟩ : Quat ℝ) = ⟨_, _, _, _⟩
  simp only [Quat.mk.injEq]
  refine ⟨by ring, by ring, by ring, ?_⟩
  linear_combination (-(Real.sin (s / 2) * Real.sin (t / 2))) * ha'

/-- C119: a rotation weighted with 0 is the identity, weighted with 1 it is the rotation itself, and weights add
up: `weighted s` after `weighted t` is `weighted (s + t)`. -/
theorem C119_weighted (q : Quat ℝ) (hq : q.dot q = 1) :
    q.weighted 0 = 1 ∧ (∀ s t, q.weighted s * q.weighted t = q.weighted (s + t)) ∧
    (∀ s, (q.weighted s).dot (q.weighted s) = 1) ∧
    (|q.w| < 1 - 1/1000000 → SameRotation (q.weighted 1) q) ∧
    (1 - 1/1000000 ≤ |q.w| → ∀ s, q.weighted s = 1) := by
  have ha := getAxisAng_axis q hq
  refine ⟨?_, ?_, ?_, ?_, ?_⟩
  · unfold weighted
    rw [mul_zero, ofAxisAng_eq _ ha]
    show (⟨_, _, _, _⟩ : Quat ℝ) = ⟨0, 0, 0, 1⟩
    simp
  · intro s t
    unfold weighted
    rw [ofAxisAng_add _ ha, ← mul_add]
  · intro s
    apply C35_unit
    intro h0
    rw [h0] at ha
    norm_num [Vec3.dot] at ha
  · intro hw
    unfold weighted
    rw [mul_one]
    exact (C36_getAxisAng q hq hw).2.2
  · intro hw s
    have := (C36_near_identity q hw).1
    unfold weighted
    rw [this, zero_mul, ofAxisAng_eq _ (by norm_num [Vec3.dot])]
    show (⟨_, _, _, _⟩ : Quat ℝ) = ⟨0, 0, 0, 1⟩
    simp

/-- `n` equal parts make up the whole. -/
theorem C119_parts (q : Quat ℝ) (hq : q.dot q = 1) (hw : |q.w| < 1 - 1/1000000) {n : ℕ} (hn : 0 < n) :
    SameRotation ((List.replicate n (q.weighted (1 / n))).prod) q := by
  have key : ∀ k : ℕ, (List.replicate k (q.weighted (1 / n))).prod = q.weighted (k / n) := by
    intro k
    induction k with
    | zero => simp [(C119_weighted q hq).1]
    | succ k ih =>
      rw [List.replicate_succ, List.prod_cons, ih, (C119_weighted q hq).2.1]
      congr 1
      push_cast
      ring
  rw [key, div_self (by exact_mod_cast hn.ne')]
  exact (C119_weighted q hq).2.2.2.1 hw

/-- The hypotheses are met by half a turn about the vertical. -/
example : (⟨0, 0, 1, 0⟩ : Quat ℝ).dot ⟨0, 0, 1, 0⟩ = 1 ∧ |(⟨0, 0, 1, 0⟩ : Quat ℝ).w| < 1 - 1/1000000 := by
  norm_num [Quat.dot]

end Quat
end Mcl3dl
