import Verif.Model.StateIndex
import Verif.Props.State6DOF
import Mathlib.Tactic

/-! # C151: a state as a vector of 13 numbers -/

set_option linter.unusedSectionVars false

namespace Mcl3dl
namespace State6
variable {F : Type}

/-- Specification: the numbers of a state in the order of their indices. -/
def numbers (s : State6 F) : List F :=
  [s.pos.x, s.pos.y, s.pos.z, s.rot.x, s.rot.y, s.rot.z, s.rot.w, s.integLin.x, s.integLin.y, s.integLin.z, s.integAng.x,
    s.integAng.y, s.integAng.z]

/-- Specification: the members that have no index. -/
def hidden (s : State6 F) : Bool × F × F × F × F × Vec3 F := (s.diff, s.noiseLL, s.noiseLA, s.noiseAL, s.noiseAA, s.rpy)

/-- C151: reading: the indices below 13 are position, orientation (x, y, z, w), linear and angular error integral; any
other index is undefined. -/
theorem C151_read (s : State6 F) (i : ℕ) :
    (∀ h : i < 13, s.get i = .ok (s.numbers[i]'h)) ∧ (13 ≤ i → (s.get i).isUb = true) := by
  constructor
  · intro h
    interval_cases i <;> rfl
  · intro h
    obtain ⟨k, rfl⟩ := Nat.exists_eq_add_of_le' h
    rfl

/-- C151: writing changes exactly the number with that index, and no member without index. -/
theorem C151_write (s : State6 F) (i : ℕ) (v : F) :
    (i < 13 → ∃ t, s.set i v = .ok t ∧ t.numbers = s.numbers.set i v ∧ t.hidden = s.hidden) ∧
    (13 ≤ i → (s.set i v).isUb = true) := by
  constructor
  · intro h
    interval_cases i <;> exact ⟨_, rfl, rfl, rfl⟩
  · intro h
    obtain ⟨k, rfl⟩ := Nat.exists_eq_add_of_le' h
    rfl

/-- C151: the states with the same numbers and hidden members are the same. -/
theorem C151_ext (s t : State6 F) : s = t ↔ s.numbers = t.numbers ∧ s.hidden = t.hidden := by
  constructor
  · rintro rfl; exact ⟨rfl, rfl⟩
  · obtain ⟨⟨a1, a2, a3⟩, ⟨b1, b2, b3, b4⟩, c1, c2, c3, c4, c5, ⟨d1, d2, d3⟩, ⟨e1, e2, e3⟩, r⟩ := s
    obtain ⟨⟨a1', a2', a3'⟩, ⟨b1', b2', b3', b4'⟩, c1', c2', c3', c4', c5', ⟨d1', d2', d3'⟩, ⟨e1', e2', e3'⟩, r'⟩ := t
    simp only [numbers, hidden, List.cons.injEq, Prod.mk.injEq, and_true]
    rintro ⟨⟨rfl, rfl, rfl, rfl, rfl, rfl, rfl, rfl, rfl, rfl, rfl, rfl, rfl⟩, rfl, rfl, rfl, rfl, rfl, rfl⟩
    rfl

/-- C151: adding and subtracting states, index by index as written: the numbers outside the orientation are added or
subtracted, the orientations composed, and the members without index are those of a new state.  Nothing is read or
written out of range. -/
theorem C151_add_sub [Zero F] [One F] [Neg F] [Add F] [Sub F] [Mul F] [Div F] (s a : State6 F) :
    (∃ r, s.addIndexed a = .ok r ∧ r = s.add a ∧ r.rot = a.rot * s.rot ∧ r.hidden = (default : State6 F).hidden ∧
      ∀ (i : ℕ) (h : i < 13), ¬ (3 ≤ i ∧ i ≤ 6) →
        r.numbers[i]'h = s.numbers[i]'h + a.numbers[i]'h) ∧
    (∃ r, s.subIndexed a = .ok r ∧ r = s.sub a ∧ r.rot = a.rot.inv * s.rot ∧ r.hidden = (default : State6 F).hidden ∧
      ∀ (i : ℕ) (h : i < 13), ¬ (3 ≤ i ∧ i ≤ 6) →
        r.numbers[i]'h = s.numbers[i]'h - a.numbers[i]'h) := by
  constructor
  · refine ⟨s.add a, rfl, rfl, rfl, rfl, ?_⟩
    intro i h hi
    interval_cases i <;> first | rfl | exact absurd (by omega) hi
  · refine ⟨s.sub a, rfl, rfl, rfl, rfl, ?_⟩
    intro i h hi
    interval_cases i <;> first | rfl | exact absurd (by omega) hi

/-- C151: the noise state: from at least six generated numbers and six means, the position and the linear error integral
are the first three numbers, the orientation is that of the last three as roll, pitch, yaw, and the angular error
integral is their deviation from the mean; fewer are undefined. -/
theorem C151_noise [Zero F] [One F] [Neg F] [Add F] [Sub F] [Mul F] [Div F] [NatCast F] [Transc F] (org mean : List F) :
    (∀ (h : 6 ≤ org.length) (_ : 6 ≤ mean.length), ∃ r, ofNoiseIndexed org mean = .ok r ∧
      r.numbers.take 3 = org.take 3 ∧ (r.numbers.drop 7).take 3 = org.take 3 ∧
      r.numbers.drop 10 = List.zipWith (· - ·) ((org.drop 3).take 3) ((mean.drop 3).take 3) ∧
      r.rot = Quat.ofRPY ⟨org[3], org[4], org[5]⟩ ∧ r.hidden = (default : State6 F).hidden) ∧
    (org.length < 6 ∨ mean.length < 6 → (ofNoiseIndexed org mean).isUb = true) := by
  constructor
  · intro h h'
    match org, mean, h, h' with
    | o0 :: o1 :: o2 :: o3 :: o4 :: o5 :: os, m0 :: m1 :: m2 :: m3 :: m4 :: m5 :: ms, _, _ =>
      exact ⟨_, rfl, rfl, rfl, rfl, rfl, rfl⟩
  · intro h
    match org, mean, h with
    | [], _, _ => rfl
    | [_], _, _ => rfl
    | [_, _], _, _ => rfl
    | [_, _, _], _, _ => rfl
    | [_, _, _, _], [], _ => rfl
    | [_, _, _, _], [_], _ => rfl
    | [_, _, _, _], [_, _], _ => rfl
    | [_, _, _, _], [_, _, _], _ => rfl
    | [_, _, _, _], _ :: _ :: _ :: _ :: _, _ => rfl
    | [_, _, _, _, _], [], _ => rfl
    | [_, _, _, _, _], [_], _ => rfl
    | [_, _, _, _, _], [_, _], _ => rfl
    | [_, _, _, _, _], [_, _, _], _ => rfl
    | [_, _, _, _, _], [_, _, _, _], _ => rfl
    | [_, _, _, _, _], _ :: _ :: _ :: _ :: _ :: _, _ => rfl
    | _ :: _ :: _ :: _ :: _ :: _ :: _, [], _ => rfl
    | _ :: _ :: _ :: _ :: _ :: _ :: _, [_], _ => rfl
    | _ :: _ :: _ :: _ :: _ :: _ :: _, [_, _], _ => rfl
    | _ :: _ :: _ :: _ :: _ :: _ :: _, [_, _, _], _ => rfl
    | _ :: _ :: _ :: _ :: _ :: _ :: _, [_, _, _, _], _ => rfl
    | _ :: _ :: _ :: _ :: _ :: _ :: _, [_, _, _, _, _], _ => rfl
    | _ :: _ :: _ :: _ :: _ :: _ :: _, _ :: _ :: _ :: _ :: _ :: _ :: _, h => simp only [List.length_cons] at h; omega

/-- The loop and the closed form used in the rest of the model agree. -/
theorem ofNoiseIndexed_eq [Zero F] [One F] [Neg F] [Add F] [Sub F] [Mul F] [Div F] [NatCast F] [LT F] [DecidableLT F] [LE F]
    [DecidableLE F] [Transc F] (org mean : List F) (r : State6 F) :
    ofNoise org mean = .ok r ↔ ofNoiseIndexed org mean = .ok r := by
  by_cases h : 6 ≤ org.length ∧ 6 ≤ mean.length
  · match org, mean, h with
    | o0 :: o1 :: o2 :: o3 :: o4 :: o5 :: os, m0 :: m1 :: m2 :: m3 :: m4 :: m5 :: ms, _ => exact Iff.rfl
  · have h1 := (C151_noise org mean).2 (by omega)
    constructor
    · intro h2
      unfold ofNoise at h2
      split at h2
      · simp at h
      · cases h2
    · intro h2
      rw [h2] at h1; cases h1

/-- C151 on a concrete state: index 6 is the real part of the orientation. -/
example : (State6.ofQuat ⟨1, 2, 3⟩ ⟨4, 5, 6, 7⟩ : State6 ℚ).get 6 = .ok 7 := rfl

end State6
end Mcl3dl
