import Verif.Spec.Lidar
import Verif.Spec.DDA

/-!
# Specification for C184: how much work the measurement of a scan is

The work is counted in calls of `getNextCastResult` of the ray caster.
-/

namespace Mcl3dl
namespace Lidar

/-- The same ray caster, which also counts the calls of `getNextCastResult`. -/
def counting {C : Type} (caster : Caster C) : Caster (C × ℕ) where
  setRay := fun c b e => (caster.setRay c.1 b e).bind fun x => .ok (x, c.2)
  next := fun c => (caster.next c.1).bind fun r => .ok (r.1, (r.2, c.2 + 1))

/-- How often `getNextCastResult` is called while a scan is measured for one particle. -/
noncomputable def Beam.calls {C : Type} (b : Beam) (caster : Caster C) (pc : Option (List (Pt ℝ ℕ)))
    (origins : List (Vec3 ℝ)) (s : State6 ℝ) (c : C) : Outcome ℕ :=
  (b.measure (counting caster) pc origins s (c, 0)).bind fun r => .ok r.2.2

/-- The length of the beam of a scan point: its distance from the place of the sensor that measured it. -/
noncomputable def beamLength (origins : List (Vec3 ℝ)) (p : Pt ℝ ℕ) : ℝ :=
  DDA.len (p.pos - (origins[p.attr]?).getD ⟨0, 0, 0⟩)

end Lidar
end Mcl3dl
