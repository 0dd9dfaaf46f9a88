import Verif.Spec.NodePosterior
import Verif.Props.State6DOF

/-! # Specification of the covariance of the published pose -/

namespace Mcl3dl
namespace Node

/-- A pose: position and orientation. -/
abbrev Pose := Vec3 ℝ × Quat ℝ

/-- `m` is the mean of poses with weights: the mean of the positions, and the orientation of the summed
forward and upward directions. -/
def MeanPose (l : List (ℝ × Pose)) (m : Pose) : Prop :=
  m.1 = weightedMean (l.map fun a => (a.1, a.2.1)) ∧
  m.2 = Quat.lookAt (weightedSum (l.map fun a => (a.1, a.2.2.rotate ⟨1, 0, 0⟩)))
    (weightedSum (l.map fun a => (a.1, a.2.2.rotate ⟨0, 0, 1⟩)))

/-- `a` is the deviation of component `i` of the pose `s` from `m`: x, y, z, and the shortest turns between the
roll, pitch and yaw angles. -/
def DeviatesBy (m s : Pose) (i : ℕ) (a : ℝ) : Prop :=
  if i < 3 then a = s.1.get i - m.1.get i
  else State6.IsShortest (s.2.getRPY.get (i - 3) - m.2.getRPY.get (i - 3)) a

/-- The number of particles of `count` that are used for the covariance if `num` are configured. -/
noncomputable def covarianceCount (num : ℤ) (count : ℕ) : ℕ :=
  if (count : ℤ) ≤ num then count else ⌊(count : ℝ) * max (1 / 10) ((num : ℝ) / count)⌋₊

end Node
end Mcl3dl
