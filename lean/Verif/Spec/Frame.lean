import Verif.Model.State6DOF
import Verif.Model.Motion

/-! # Specification: a change of the coordinate frame -/

namespace Mcl3dl

/-- A rigid motion of space: first the rotation given by a unit quaternion, then a shift. -/
structure Rigid where
  rot : Quat ℝ
  trans : Vec3 ℝ
  unit : rot.dot rot = 1

namespace Rigid

/-- Where the motion takes a point. -/
def point (g : Rigid) (p : Vec3 ℝ) : Vec3 ℝ := g.rot.rotate p + g.trans

/-- Where the motion takes a pose; everything but position and orientation stays. -/
def pose (g : Rigid) (s : State6 ℝ) : State6 ℝ := { s with pos := g.point s.pos, rot := g.rot * s.rot }

/-- The motion keeps the vertical direction. -/
def Level (g : Rigid) : Prop := g.rot.rotate ⟨0, 0, 1⟩ = ⟨0, 0, 1⟩

end Rigid
end Mcl3dl
