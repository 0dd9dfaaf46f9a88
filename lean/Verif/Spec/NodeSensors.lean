import Verif.Model.Node

/-!
# Specification of the handling of odometry and IMU messages

Everything is computed from the messages alone.
-/

namespace Mcl3dl
namespace Node

/-- What a message is used for. -/
inductive Use
  /-- it becomes the reference -/
  | reference
  /-- its time is not plausible: the reference is dropped -/
  | jump
  /-- it is used, and becomes the reference -/
  | use
  /-- it is too close to the reference -/
  | skip
  deriving DecidableEq

/-- What a message with stamp `t` is used for when the reference has the stamp `last`. -/
noncomputable def useOf (last : Option ℝ) (t : ℝ) : Use :=
  match last with
  | none => .reference
  | some l => if t < l ∨ l + 5 < t then .jump else if l + 1 / 20 < t then .use else .skip

/-- The reference odometry message after another message. -/
noncomputable def odomRefStep (r : Option OdomMsg) (m : OdomMsg) : Option OdomMsg :=
  match useOf (r.map OdomMsg.stamp) m.stamp with
  | .reference | .use => some m
  | .jump => none
  | .skip => r

/-- The odometry messages of a history, in order. -/
def odomMsgs (h : History) : List OdomMsg :=
  h.filterMap fun e => match e.1 with
    | .odom m => some m
    | _ => none

/-- The reference odometry message after a history. -/
noncomputable def odomRef (h : History) : Option OdomMsg := (odomMsgs h).foldl odomRefStep none

/-- The pose of an odometry message. -/
def OdomMsg.pose (m : OdomMsg) : State6 ℝ := State6.ofQuat m.pos m.rot

/-- No message of the list is a time jump, from reference `r` on. -/
def NoJump : Option OdomMsg → List OdomMsg → Prop
  | _, [] => True
  | r, m :: ms => useOf (r.map OdomMsg.stamp) m.stamp ≠ .jump ∧ NoJump (odomRefStep r m) ms

/-- The states of the particles. -/
def states (n : Mcl3dl.Node C) : List (State6 ℝ) := n.loc.pf.particles.map PF.Particle.state

/-- Events that never move a particle, besides odometry. -/
def keepsStates : Event → Bool
  | .odom _ | .imu _ | .timer | .mapcloud _ _ | .mapcloudUpdate _ | .loadPcd _ | .reconfigure _ => true
  | _ => false

/-- The IMU as a user sees it: the stamp of the reference and the filter of the acceleration. -/
structure ImuView where
  last : Option ℝ
  filter : FiltVec3 ℝ

/-- The stamp of the reference after another IMU message; a message is not used if the transform from its
frame is not available. -/
noncomputable def imuRefStep (P : Params) (r : Option ℝ) (e : ImuMsg × Env) : Option ℝ :=
  match useOf r e.1.stamp with
  | .reference => some e.1.stamp
  | .use => if (e.2.tf P.baseFrame e.1.frame 0).isSome then some e.1.stamp else r
  | .jump => none
  | .skip => r

/-- The IMU messages of a history, in order. -/
def imuMsgs (h : History) : List (ImuMsg × Env) :=
  h.filterMap fun e => match e.1 with
    | .imu m => some (m, e.2)
    | _ => none

/-- The stamp of the reference IMU message after a history. -/
noncomputable def imuRef (P : Params) (h : History) : Option ℝ := (imuMsgs h).foldl (imuRefStep P) none

/-- The filter of the acceleration after another IMU message: fed with each message, and set to 0 by a
message that becomes the reference without being used. -/
noncomputable def accStep (P : Params) (v : ImuView) (e : ImuMsg × Env) : ImuView :=
  { last := imuRefStep P v.last e
    filter := if useOf v.last e.1.stamp = .reference then (v.filter.input e.1.acc).set 0
      else v.filter.input e.1.acc }

/-- Reference and filter after a history. -/
noncomputable def imuView (P : Params) (h : History) : ImuView :=
  (imuMsgs h).foldl (accStep P)
    ⟨none, FiltVec3.new .lpf ⟨P.accLpfStep, P.accLpfStep, P.accLpfStep⟩ 0 false⟩

end Node
end Mcl3dl
