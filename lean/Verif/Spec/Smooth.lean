import Verif.Spec.Lidar
import Verif.Spec.KdSearch

/-! # Specification for C176: how far scan points are moved -/

namespace Mcl3dl
namespace Lidar

/-- Where the points of a scan are in the map, seen from the pose `s`. -/
noncomputable def seenFrom {A : Type} (s : State6 ℝ) (pc : List (Pt ℝ A)) : List (Vec3 ℝ) :=
  pc.map fun q => s.rot.normalized.rotate q.pos + s.pos

/-- Distance with axis weights `w`. -/
noncomputable def wdist (w a b : Vec3 ℝ) : ℝ := Real.sqrt (weightedDist w a b)

/-- The sum of the distances between corresponding points. -/
noncomputable def totalDist (w : Vec3 ℝ) (as bs : List (Vec3 ℝ)) : ℝ := (List.zipWith (wdist w) as bs).sum

end Lidar
end Mcl3dl
