import Verif.Spec.DDA
import Verif.Spec.ScanOrder

/-!
# Specification for C183: maps that are the same along a ray, for the grid ray caster

A map is a cloud: a list of labelled points with a time stamp and an identity.
-/

namespace Mcl3dl
namespace DDA

/-- The two maps have the same smallest and largest coordinates (or are both empty). -/
def SameBox (c c' : Cloud) : Prop :=
  ∀ mn mx, IsBoundingBox (c.pts.map Prod.fst) mn mx ↔ IsBoundingBox (c'.pts.map Prod.fst) mn mx

open Classical in
/-- The labelled points of the map that are close to the line of the ray, in the order of the map. -/
noncomputable def alongRay (cfg : Cfg) (c : Cloud) (b e : Vec3 ℝ) : List (Vec3 ℝ × ℕ) :=
  c.pts.filter fun q => decide (CloseToRay cfg.rayAngleHalf cfg.minDistThrSq b e q.1)

/-- What a result says apart from the address of the map point: the position of the cell, whether there is a collision,
the sine of the angle, and the position and label of the map point. -/
def CastResult.seen (x : CastResult) : Vec3 ℝ × Bool × ℝ × Option (Vec3 ℝ × ℕ) :=
  (x.pos, x.collision, x.sinAngle, x.point.map fun p => (p.pos, p.label))

/-- … and of the answers of several calls. -/
def seenAnswers (o : Outcome (List (Option CastResult))) :
    Outcome (List (Option (Vec3 ℝ × Bool × ℝ × Option (Vec3 ℝ × ℕ)))) :=
  o.bind fun l => .ok (l.map (Option.map CastResult.seen))

end DDA
end Mcl3dl
