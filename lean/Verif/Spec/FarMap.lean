import Verif.Spec.NodeReal
import Verif.Spec.MapLocal
import Verif.Spec.RayLocal

/-!
# Specification for C180: maps that look the same in a measurement

`labelled`, `batchStep`, `Measuring` and the transforms are those of the measurement: which clouds are collected, the
points of all of them in the odometry frame with the number of their cloud, and where the sensors were.
-/

namespace Mcl3dl
namespace Node

/-- The grid and the tolerance of the rays of the kd-tree caster. -/
def rayCfg (P : Params) : KDRay.Cfg := ⟨P.mapDownsample.x, P.mapDownsample.y, P.mapDownsample.z, P.beam.hitRange⟩

/-- The points of a map with their labels. -/
def labelledPoints (map : List Point) : List (Vec3 ℝ × ℕ) := map.map fun p => (p.pos, p.attr)

/-- Seen from the pose `s`, the measured clouds `scans` (with the last one stamped `last` and the transform `t` to the robot
at that time) meet the same points in both maps: near each point that the likelihood field may use, and along each beam
that may be cast, where there must be no ties. -/
structure LooksAlike (P : Params) (w : Vec3 ℝ) (map map' : List Point) (env : Env) (scans : List Scan) (last : ℝ) (t : Tf)
    (s : State6 ℝ) : Prop where
  field : ∀ q ∈ env.voxel P.downsample ((labelled scans).map fun p => { p with pos := t.point p.pos }),
    inClip P.like.clip q.pos →
    Lidar.AgreeNear (map.map Pt.pos) (map'.map Pt.pos) w P.like.matchDistMin (s.rot.normalized.rotate q.pos + s.pos)
  rays : ∀ q ∈ env.voxel P.downsample ((labelled scans).map fun p => { p with pos := t.point p.pos }),
    inClip P.beam.clip q.pos → ∀ scan, scans[q.attr]? = some scan →
    ∀ t', env.tfFull P.baseFrame last scan.header.frame scan.header.stamp P.odomFrame = some t' →
    KDRay.SameAlong (rayCfg P) w (labelledPoints map) (labelledPoints map') (s.pos + s.rot.rotate t'.trans)
      (s.rot.normalized.rotate q.pos + s.pos) ∧
    KDRay.NoTies (rayCfg P) w (labelledPoints map) (s.pos + s.rot.rotate t'.trans) (s.rot.normalized.rotate q.pos + s.pos)

end Node
end Mcl3dl
