import Verif.Model.Node

/-!
# Specification for C162: what is only displayed

The parameters, subscriptions and settings that only decide what is shown to the user, and what of the output
and of the state does not depend on them.
-/

namespace Mcl3dl
namespace Node

/-- The parameters about what is reported: `publish_tf`, `output_pcd`, `match_output_interval_interval`,
`match_output_dist`, `unmatch_output_dist`, `std_warn_thresh_xy/z/yaw`, `fix_dist`, `fix_ang`. -/
structure Display where
  publishTf : Bool
  outputPcd : Bool
  matchOutputInterval : ℝ
  matchOutputDist : ℝ
  unmatchOutputDist : ℝ
  stdWarn : Vec3 ℝ
  fixDist : ℝ
  fixAng : ℝ

/-- The parameters with these display settings. -/
def withDisplay (P : Params) (d : Display) : Params :=
  { P with
    publishTf := d.publishTf
    outputPcd := d.outputPcd
    matchOutputInterval := d.matchOutputInterval
    matchOutputDist := d.matchOutputDist
    unmatchOutputDist := d.unmatchOutputDist
    stdWarn := d.stdWarn
    fixDist := d.fixDist
    fixAng := d.fixAng }

/-- The outside with or without subscribers to the matched and unmatched clouds. -/
def withSubscribers (env : Env) (matched unmatched : Bool) : Env :=
  { env with subMatched := matched, subUnmatched := unmatched }

/-- Two inputs that differ only in subscriptions and in the warning thresholds set by dynamic reconfigure. -/
def Alike (a b : Event × Env) : Prop :=
  (∃ m u, b.2 = withSubscribers a.2 m u) ∧
    (b.1 = a.1 ∨ ∃ w w', a.1 = .reconfigure w ∧ b.1 = .reconfigure w')

/-- What of the output of a callback is not display: transforms, matched and unmatched clouds are left out, and
of the status the convergence status and the diagnostic level. -/
def Out.core : Out → List Out
  | .transforms _ => []
  | .matched _ _ => []
  | .unmatched _ _ => []
  | .status s ent _ => [.status { s with convergence := .normal } ent .ok]
  | x => [x]

/-- The members of the node that belong to the display. -/
structure View where
  /-- the thresholds of the warning -/
  warn : Vec3 ℝ
  /-- the stamp of the last matched or unmatched cloud -/
  last : ℝ
  /-- the points to be saved at shutdown -/
  all : Option (List Point)
  /-- the convergence status -/
  conv : Convergence

/-- The same node with other display members. -/
def withView {C : Type} (n : Node C) (v : View) : Node C :=
  { n with
    stdWarn := v.warn
    loc := { n.loc with matchLast := v.last, allAccum := v.all, status := { n.loc.status with convergence := v.conv } } }

end Node
end Mcl3dl
