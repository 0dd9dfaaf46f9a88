import Verif.Model.Node
import Verif.Spec.RosTime

/-!
# The computations with times in mcl_3dl.cpp

`Model/Node` computes with times as with numbers. Here are the computations each callback makes, so that one can ask
whether `ros::Time` and `ros::Duration` can represent the results.
-/

namespace Mcl3dl
namespace Node

variable {C : Type}

/-- mcl_3dl.cpp:663-666 and 1104-1107: the stamp of transforms and particles. -/
def stampTimes (P : Params) (odo : OdoSt) (tolBase now : ℝ) : List TimeOp :=
  let t := if odo.has then odo.last else now
  [.shift t tolBase, .shift (t + tolBase) P.tfTolerance]

/-- mcl_3dl.cpp:304-898 `measure` from line 663 on, for the header of the batch: the transform's stamp, the output
interval (761-762; the second operand of `||` only if the first is false), the particles' stamp, the interval between
measurements (867-872). -/
noncomputable def localizeTimes (P : Params) (env : Env) (odo : OdoSt) (loc : LocSt C) (header : Header) : List TimeOp :=
  stampTimes P odo loc.tolBase (env.now 1) ++
  [.shift loc.matchLast P.matchOutputInterval] ++
  (if loc.matchLast + P.matchOutputInterval < header.stamp then [] else [.shift header.stamp 1]) ++
  stampTimes P odo loc.tolBase (env.now 2) ++
  [.diff (env.now 3) loc.localizedLast,
   .ofSec (loc.rate.input (clampDt (env.now 3 - loc.localizedLast))).out]

/-- mcl_3dl.cpp:200-247, 941-1018 `cbOdom` and `cbImu` (lines 218 and 956) with the calls of each other. -/
noncomputable def sensorTimes (P : Params) (env : Env) : ℕ → Node C → OdomMsg ⊕ ImuMsg → List TimeOp
  | 0, _, _ => []
  | fuel + 1, n, .inl msg =>
    (if n.odo.has then [.diff msg.stamp n.odo.last] else []) ++
    match odomCore P n msg with
    | (_, none) => []
    | (n', some im) => sensorTimes P env fuel n' (.inr im)
  | fuel + 1, n, .inr msg =>
    (if n.imu.has then [.diff msg.stamp n.imu.last] else []) ++
    match imuCore P env n msg with
    | (_, none) => []
    | (n', some om) => sensorTimes P env fuel n' (.inl om)

/-- The computations of a callback. Simplification: for a cloud, the computations of the measurement that it may
complete, for each header that the batch may end with. -/
noncomputable def timeOps (P : Params) (env : Env) (n : Node C) : Event → List TimeOp
  | .cloud header _ =>
    if n.map.hasMap then (n.acc.headers ++ [header]).flatMap (localizeTimes P env n.odo n.loc) else []
  | .odom msg => sensorTimes P env depth n (.inl msg)
  | .imu msg => sensorTimes P env depth n (.inr msg)
  | .initialpose _ => stampTimes P n.odo n.loc.tolBase (env.now 0)
  | .landmark _ => stampTimes P n.odo n.loc.tolBase (env.now 0)
  | .resize _ => stampTimes P n.odo n.loc.tolBase (env.now 0)
  | .expansionReset => stampTimes P n.odo n.loc.tolBase (env.now 0)
  | _ => []

/-- parameters.cpp:106, 162, 166: the parameters that are durations. -/
def startTimes (P : Params) : List TimeOp :=
  [.ofSec P.mapUpdateInterval, .ofSec P.matchOutputInterval, .ofSec P.tfTolerance]

/-- The stamps in a message. -/
def Event.stamps : Event → List ℝ
  | .mapcloud stamp _ => [stamp]
  | .cloud header _ => [header.stamp]
  | .odom msg => [msg.stamp]
  | .imu msg => [msg.stamp]
  | .initialpose msg => [msg.stamp]
  | .landmark msg => [msg.stamp]
  | _ => []

end Node
end Mcl3dl
