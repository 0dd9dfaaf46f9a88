import Verif.Spec.NodeBatch
import Verif.Spec.KdSearch

/-!
# Specification of the matched and unmatched points

Which points of a batch should be published as matched and as unmatched.
-/

namespace Mcl3dl
namespace Node

/-- The points of a batch in the map: transformed to the robot (`t`), downsampled, and placed by the published
pose. -/
noncomputable def placed (P : Params) (env : Env) (t : Tf) (b : List Scan) (pos : Vec3 ℝ) (rot : Quat ℝ) :
    List (Vec3 ℝ) :=
  (env.voxel P.downsample ((labelled b).map fun p => { p with pos := t.point p.pos })).map fun p =>
    rot.normalized.rotate p.pos + pos

/-- No map point is nearer than `r`; distances are weighted by `w`. -/
def FarFrom (w : Vec3 ℝ) (map : List Point) (r : ℝ) (x : Vec3 ℝ) : Prop :=
  ∀ q ∈ map, r ^ 2 ≤ weightedDist w x q.pos

/-- A map point is nearer than `r`. -/
def Near (w : Vec3 ℝ) (map : List Point) (r : ℝ) (x : Vec3 ℝ) : Prop :=
  ∃ q ∈ map, weightedDist w x q.pos < r ^ 2

end Node
end Mcl3dl
