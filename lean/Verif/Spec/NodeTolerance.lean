import Verif.Spec.NodeStatus

/-!
# Specification of the tolerance added to the time of transforms and particles
-/

namespace Mcl3dl
namespace Node

/-- The times of the measurements that published a pose: the clock read for the interval between
measurements (the fourth reading of the clock in that callback). -/
noncomputable def poseTimes : History → List (List Out) → List ℝ
  | (_, env) :: h, o :: os =>
    (if (o.findSome? Out.poseCov).isSome then [env.now 3] else []) ++ poseTimes h os
  | _, _ => []

/-- The intervals between these times, the first from time zero, each limited to one second (and not negative). -/
noncomputable def limitedIntervals : ℝ → List ℝ → List ℝ
  | _, [] => []
  | last, t :: ts => min 1 (max 0 (t - last)) :: limitedIntervals t ts

/-- The running tolerance: `tol` before, `prev` the previous interval. A weighted mean of the old tolerance
and the intervals. -/
noncomputable def runningTolerance : ℝ → ℝ → List ℝ → ℝ
  | tol, _, [] => tol
  | tol, prev, dt :: dts => runningTolerance (9 / 11 * tol + 31 / 121 * dt - 9 / 121 * prev) dt dts

end Node
end Mcl3dl
