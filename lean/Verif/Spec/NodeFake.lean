import Verif.Spec.NodeSensors

/-!
# Specification of the fake IMU and the fake odometry

The histories a node without these options would have to receive.
-/

namespace Mcl3dl
namespace Node

/-- The IMU message made of an odometry message: the vertical turned by the orientation, "measured" in the frame of
the odometry message. -/
noncomputable def fakeImuMsg (m : OdomMsg) : ImuMsg := ⟨m.stamp, m.frame, m.rot.rotate ⟨0, 0, 1⟩, m.rot⟩

/-- The history with an IMU message after each odometry message that neither becomes the reference without being
used nor is a time jump. `r` is the reference odometry message before. -/
noncomputable def withFakeImu : Option OdomMsg → History → History
  | _, [] => []
  | r, (.odom m, env) :: h =>
    (.odom m, env) ::
      ((if useOf (r.map OdomMsg.stamp) m.stamp = .use ∨ useOf (r.map OdomMsg.stamp) m.stamp = .skip then
        [(.imu (fakeImuMsg m), env)] else []) ++ withFakeImu (odomRefStep r m) h)
  | r, e :: h => e :: withFakeImu r h

/-- The odometry message made of an IMU message when `t` is the transform from its frame to the robot: no motion,
and the orientation with its axis turned into the robot frame. -/
noncomputable def fakeOdomMsg (P : Params) (m : ImuMsg) (t : Tf) : OdomMsg :=
  ⟨m.stamp, P.baseFrame, 0, Quat.ofAxisAng (t.rot.rotate m.rot.getAxisAng.1) m.rot.getAxisAng.2⟩

/-- The history with an odometry message after each IMU message that is used. `r` is the stamp of the reference IMU
message before. -/
noncomputable def withFakeOdom (P : Params) : Option ℝ → History → History
  | _, [] => []
  | r, (.imu m, env) :: h =>
    (.imu m, env) ::
      ((match useOf r m.stamp, env.tf P.baseFrame m.frame 0 with
        | .use, some t => [(.odom (fakeOdomMsg P m t), env)]
        | _, _ => []) ++ withFakeOdom P (imuRefStep P r (m, env)) h)
  | r, e :: h => e :: withFakeOdom P r h

/-- A record that a message was made up. -/
def Out.isFake : Out → Bool
  | .synthImu | .synthOdom => true
  | _ => false

/-- What is published in a run, without these records. -/
def published (outs : List (List Out)) : List Out := outs.flatten.filter fun x => !x.isFake

end Node
end Mcl3dl
