import Verif.Spec.KdSearch
import Verif.Spec.DDA
import Verif.Props.KDRayHits

/-!
# Specification for C179: maps that are the same along a ray

A map is a list of labelled points.  Distances are squared and weighted, like those of the kd-tree.
-/

namespace Mcl3dl
namespace KDRay
open DDA (len rayPoint)

/-- The two maps have the same labelled points within `r` of `q`. -/
def SameNear (pts pts' : List (Vec3 ℝ × ℕ)) (w : Vec3 ℝ) (r : ℝ) (q : Vec3 ℝ) : Prop :=
  ∀ m : Vec3 ℝ × ℕ, weightedDist w q m.1 < r ^ 2 → (m ∈ pts ↔ m ∈ pts')

/-- `m` is a nearest point of the map from `q`. -/
def IsNearest (pts : List (Vec3 ℝ × ℕ)) (w q : Vec3 ℝ) (m : Vec3 ℝ × ℕ) : Prop :=
  m ∈ pts ∧ ∀ x ∈ pts, weightedDist w q m.1 ≤ weightedDist w q x.1

/-- How far from a ray the caster looks: two steps and the largest grid size over the square root of 2. -/
noncomputable def reachOf (cfg : Cfg) : ℝ := 2 * stepOf cfg + largest cfg / Real.sqrt 2

/-- The two maps have the same labelled points within the reach of the ray, from one step before its begin to the
tolerance behind its end. -/
def SameAlong (cfg : Cfg) (w : Vec3 ℝ) (pts pts' : List (Vec3 ℝ × ℕ)) (b e : Vec3 ℝ) : Prop :=
  ∀ t, -stepOf cfg ≤ t → t ≤ len (e - b) + cfg.hitTolerance → SameNear pts pts' w (reachOf cfg) (rayPoint b e t)

/-- No sample of the ray has two different nearest map points within `largest grid size / √2`. -/
def NoTies (cfg : Cfg) (w : Vec3 ℝ) (pts : List (Vec3 ℝ × ℕ)) (b e : Vec3 ℝ) : Prop :=
  ∀ (k : ℕ) (m m' : Vec3 ℝ × ℕ), (k + 1) * stepOf cfg ≤ len (e - b) + cfg.hitTolerance →
    weightedDist w (rayPoint b e ((k + 1) * stepOf cfg)) m.1 < largest cfg ^ 2 / 2 →
    IsNearest pts w (rayPoint b e ((k + 1) * stepOf cfg)) m →
    IsNearest pts w (rayPoint b e ((k + 1) * stepOf cfg)) m' → m = m'

end KDRay
end Mcl3dl
