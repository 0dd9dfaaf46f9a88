import Verif.Model.Node

/-! # Model of the published diagnostics -/

namespace Mcl3dl
namespace Node

variable {C : Type}

/-- `diagnostic_msgs/DiagnosticStatus`: level, message and the three values. -/
structure Diagnostics where
  level : Level
  message : String
  map : Bool
  odometry : Bool
  imu : Bool

/-- mcl_3dl.cpp:1129-1140: the message of the summary. -/
def Status.summary (s : Status) : String :=
  if s.error = .pointsNotFound then "Valid points does not found."
  else if s.convergence = .largeStd then "Too Large Standard Deviation."
  else "OK"

/-- mcl_3dl.cpp:1127-1147 `diagnoseStatus`: the diagnostics published with a status by the node `n`.  The members read
are not changed by `measure`, so it does not matter that the call is in the middle of a callback. -/
def diagnose (n : Mcl3dl.Node C) : Out → Option Diagnostics
  | .status s _ level => some ⟨level, s.summary, n.map.hasMap, n.odo.has, n.imu.has⟩
  | _ => none

/-- The diagnostics published by a callback with the messages `o`. -/
def diagnostics (n : Mcl3dl.Node C) (o : List Out) : List Diagnostics := o.filterMap (diagnose n)

end Node
end Mcl3dl
