import Verif.Spec.Smooth

/-! # Specification for C178: maps that agree near a scan -/

namespace Mcl3dl
namespace Lidar

/-- The two maps have the same points within (weighted) distance `d` of `q`; how often and in which order they are listed
does not matter. -/
def AgreeNear (map map' : List (Vec3 ℝ)) (w : Vec3 ℝ) (d : ℝ) (q : Vec3 ℝ) : Prop :=
  ∀ m, weightedDist w q m < d ^ 2 → (m ∈ map ↔ m ∈ map')

open Classical in
/-- The number of points of a list for which something holds. -/
noncomputable def howMany (P : Vec3 ℝ → Prop) (qs : List (Vec3 ℝ)) : ℕ := qs.countP fun q => P q

end Lidar
end Mcl3dl
