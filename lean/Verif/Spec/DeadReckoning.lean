import Verif.Spec.NodeNoise
import Verif.Spec.NodeSensors

/-!
# Specification of the motion of particles without noise
-/

namespace Mcl3dl
namespace Node

/-- No noise is configured: neither of the odometry, nor in resampling, nor in expansion resetting. -/
structure Noiseless (P : Params) : Prop where
  odom : P.errLinLin = 0 ∧ P.errLinAng = 0 ∧ P.errAngLin = 0 ∧ P.errAngAng = 0
  resample : ∀ i, sigmas P.resampleVar i = 0
  expansion : ∀ i, sigmas P.expansionVar i = 0

/-- The motion `d` followed by the one from the odometry `r` to the odometry `m`. -/
noncomputable def Tf.followed (d : Tf) (r m : OdomMsg) : Tf :=
  ⟨d.trans + d.rot.rotate (r.rot.inv.rotate (m.pos - r.pos)), d.rot * (r.rot.inv * m.rot)⟩

/-- What an odometry message adds to the motion; the second component is the reference. -/
noncomputable def travelStep (a : Tf × Option OdomMsg) (m : OdomMsg) : Tf × Option OdomMsg :=
  match a.2 with
  | some r =>
    match useOf (some r.stamp) m.stamp with
    | .use => (a.1.followed r m, some m)
    | .jump => (a.1, none)
    | _ => (a.1, some r)
  | none => (a.1, some m)

/-- The motion of the robot during `h` after `h0`, according to the odometry messages that are used. -/
noncomputable def travel (h0 h : History) : Tf := ((odomMsgs h).foldl travelStep (⟨⟨0, 0, 0⟩, 1⟩, odomRef h0)).1

/-- The pose of `s'` is that of `s` moved by `d`, as seen from `s`. -/
def MovedBy (d : Tf) (s s' : State6 ℝ) : Prop :=
  s'.pos = s.pos + s.rot.rotate d.trans ∧ s'.rot = s.rot * d.rot

/-- Events that do not place particles anew. -/
def placesNone : Event → Bool
  | .initialpose _ | .globalLocalization => false
  | _ => true

end Node
end Mcl3dl
