import Verif.Model.Node

/-!
# Specification of the rate of the matched and unmatched point output
-/

namespace Mcl3dl
namespace Node

/-- The time stamp of a matched or unmatched cloud. -/
def Out.matchStamp : Out → Option ℝ
  | .matched t _ => some t
  | .unmatched t _ => some t
  | _ => none

/-- The time stamp of the last matched or unmatched cloud published, zero if there is none. -/
noncomputable def lastMatch (outs : List (List Out)) : ℝ :=
  (outs.flatten.filterMap Out.matchStamp).getLast?.getD 0

/-- A new output is due at `t` if more than the interval has passed since `last`, or the clock has gone
back by more than a second. -/
def matchDue (interval last t : ℝ) : Prop := last + interval < t ∨ t + 1 < last

end Node
end Mcl3dl
