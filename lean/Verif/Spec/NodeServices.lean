import Verif.Spec.NodeSensors
import Verif.Spec.NodeMap
import Verif.Spec.KdSearch

/-!
# Specification of the services and of the initial pose

From the messages alone.
-/

namespace Mcl3dl
namespace Node

/-- The reference stamp and the orientation of the robot according to the IMU, after another IMU message: a
message that is used gives its orientation, with its axis turned from the frame of the IMU to that of the
robot. -/
noncomputable def imuOrientStep (P : Params) (s : Option ℝ × Quat ℝ) (e : ImuMsg × Env) : Option ℝ × Quat ℝ :=
  (imuRefStep P s.1 e,
    match useOf s.1 e.1.stamp, e.2.tf P.baseFrame e.1.frame 0 with
    | .use, some t => e.1.rot.rotateAxis t.rot
    | _, _ => s.2)

/-- The orientation of the robot according to the IMU after a history; the identity at first. -/
noncomputable def imuOrient (P : Params) (h : History) : Quat ℝ :=
  ((imuMsgs h).foldl (imuOrientStep P) (none, 1)).2

/-- No point of `grid` is above `p`: within distance `g` of the point at height `g + 0.01` over `p`, in the
metric with axis weights `w`. -/
def Clear (w : Vec3 ℝ) (g : ℝ) (grid : List Point) (p : Point) : Prop :=
  ∀ q ∈ grid, g ^ 2 ≤ weightedDist w ⟨p.pos.x, p.pos.y, p.pos.z + (1 / 100 + g)⟩ q.pos

open Classical in
/-- The points of the map at which the robot can be: the points of a grid that have nothing above. -/
noncomputable def places (P : Params) (env : Env) (w : Vec3 ℝ) (map : List Point) : List Point :=
  (env.voxel ⟨P.globalGrid, P.globalGrid, P.globalGrid⟩ map).filter fun p =>
    Clear w P.globalGrid (env.voxel ⟨P.globalGrid, P.globalGrid, P.globalGrid⟩ map) p

/-- The rotation about the vertical axis by `t`. -/
noncomputable def yaw (t : ℝ) (v : Vec3 ℝ) : Vec3 ℝ :=
  ⟨Real.cos t * v.x - Real.sin t * v.y, Real.sin t * v.x + Real.cos t * v.y, v.z⟩

end Node
end Mcl3dl
