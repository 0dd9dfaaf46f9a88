import Verif.Model.Motion
import Verif.Model.Filter
import Verif.Spec.Finite
import Verif.Spec.RoundedFilter
import Mathlib.Logic.Relation

/-! # Specification for C174: odometry that is not a pose -/

namespace Mcl3dl

/-- `remainder` on extended reals. -/
noncomputable instance : HasRemainder XR where
  remainder := fun x y => match x, y with
    | .fin a, .fin b => open Classical in if b = 0 then .nan else .fin (HasRemainder.remainder a b)
    | .fin a, .pinf => .fin a
    | .fin a, .ninf => .fin a
    | _, _ => .nan

/-- Some component is not a number. -/
def Vec3.HasNan (v : Vec3 XR) : Prop := v.x = .nan ∨ v.y = .nan ∨ v.z = .nan

/-- Some component is not a number. -/
def Quat.HasNan (q : Quat XR) : Prop := q.x = .nan ∨ q.y = .nan ∨ q.z = .nan ∨ q.w = .nan

/-- An odometry pose that is none: its orientation is the zero quaternion, as in a message nobody filled in, or some
component of the position or orientation is not a number. -/
def BadPose (s : State6 XR) : Prop := s.rot = ⟨0, 0, 0, 0⟩ ∨ s.rot.HasNan ∨ s.pos.HasNan

namespace PF

/-- No particle has an orientation. -/
def Lost (f : Filter (State6 XR) XR) : Prop := ∀ p ∈ f.particles, p.state.rot = Quat.nans

/-- What the node does with the particles other than placing them anew (initial pose, global localization): motion,
reset of the accumulated odometry error, measurements of any kind, bias, noise (expansion reset), resampling and
resizing. -/
inductive Goes (log : XR → XR) : Filter (State6 XR) XR → Filter (State6 XR) XR → Prop
  | odometry (f : Filter (State6 XR) XR) (m : Motion XR) : Goes log f (f.predict m.predict)
  | reset (f : Filter (State6 XR) XR) :
      Goes log f (f.predict fun s => { s with integLin := ⟨0, 0, 0⟩, integAng := ⟨0, 0, 0⟩ })
  | measure (f : Filter (State6 XR) XR) (lik : State6 XR → XR) : Goes log f (f.measure log lik)
  | bias (f : Filter (State6 XR) XR) (b : State6 XR → XR → XR) : Goes log f (f.bias b)
  | noise (f : Filter (State6 XR) XR) (n : ℕ → State6 XR) : Goes log f (f.noise n)
  | resample {f g : Filter (State6 XR) XR} {dup : List (Particle (State6 XR) XR)} (u : XR) (n : ℕ → State6 XR) :
      IsSorted (accumulate 0 f.particles) dup → f.resample dup u n = .ok g → Goes log f g
  | resize {f g : Filter (State6 XR) XR} {dup : List (Particle (State6 XR) XR)} (s0 : State6 XR) (junk : ℕ → XR) (k : ℕ) :
      IsSorted (accumulate 0 f.particles) dup → f.resize s0 junk k dup = .ok g → Goes log f g

/-- Any number of such steps. -/
def GoesOn (log : XR → XR) : Filter (State6 XR) XR → Filter (State6 XR) XR → Prop := Relation.ReflTransGen (Goes log)

end PF
end Mcl3dl
