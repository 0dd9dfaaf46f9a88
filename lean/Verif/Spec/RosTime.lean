import Mathlib.Data.Real.Basic
import Mathlib.Tactic

/-!
# Specification of ROS times

`ros::Time` holds seconds in 32 unsigned bits, `ros::Duration` in 32 signed bits (in seconds since 1970 and seconds).
Every computation whose result does not fit throws `std::runtime_error` ("... is out of dual 32-bit range"). Times are
exact numbers here; the nanosecond grid does not matter for what fits.
-/

namespace Mcl3dl
namespace Node

/-- A computation with times. -/
inductive TimeOp
  /-- `Time - Time`, a `Duration` -/
  | diff (a b : ℝ)
  /-- `Time + Duration`, a `Time` -/
  | shift (t d : ℝ)
  /-- `Duration(double)` -/
  | ofSec (s : ℝ)

/-- The result can be represented. -/
def TimeOp.Fits : TimeOp → Prop
  | .diff a b => -2 ^ 31 ≤ a - b ∧ a - b < 2 ^ 31
  | .shift t d => 0 ≤ t + d ∧ t + d < 2 ^ 32
  | .ofSec s => -2 ^ 31 ≤ s ∧ s < 2 ^ 31

/-- Before 19 January 2038, 03:14:08 UTC. -/
def Before2038 (t : ℝ) : Prop := 0 ≤ t ∧ t < 2 ^ 31

end Node
end Mcl3dl
