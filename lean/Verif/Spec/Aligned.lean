import Verif.Spec.Lidar
import Verif.Spec.KdSearch

/-! # Specification: a scan that lies on the map -/

namespace Mcl3dl
namespace Lidar

/-- `q` is at most `d` away from a point of the map (with axis weights `w`). -/
def Near (map : List (Vec3 ℝ)) (w : Vec3 ℝ) (d : ℝ) (q : Vec3 ℝ) : Prop := ∃ m ∈ map, weightedDist w q m ≤ d ^ 2

/-- Every point of the scan `pc`, seen from the pose `s`, is at most `d` away from the map. -/
def OnMap {A : Type} (map : List (Vec3 ℝ)) (w : Vec3 ℝ) (d : ℝ) (s : State6 ℝ) (pc : List (Pt ℝ A)) : Prop :=
  ∀ q ∈ pc, Near map w d (s.rot.normalized.rotate q.pos + s.pos)

open Classical in
/-- The number of points of the scan `pc` that, seen from the pose `s`, are more than `d` away from the map. -/
noncomputable def offMap {A : Type} (map : List (Vec3 ℝ)) (w : Vec3 ℝ) (d : ℝ) (s : State6 ℝ) (pc : List (Pt ℝ A)) : ℕ :=
  pc.countP fun q => ¬ Near map w d (s.rot.normalized.rotate q.pos + s.pos)

end Lidar
end Mcl3dl
