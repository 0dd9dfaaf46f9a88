import Verif.Spec.NodeMap

/-!
# Specification of the header of the published map
-/

namespace Mcl3dl
namespace Node

/-- The frame of the map in use after an event with its frame: that of the last cloud accepted as a map; the map
frame for a file. -/
def frameAfter (P : Params) (f : Option String) : Event × String → Option String
  | (.mapcloud _ m, frame) => if validCloud m then some frame else f
  | (.loadPcd (some _), _) => some P.mapFrame
  | _ => f

/-- The frame of the map in use after a history. -/
def frameOfMap (P : Params) (h : List ((Event × Env) × String)) : Option String :=
  (h.map fun e => (e.1.1, e.2)).foldl (frameAfter P) none

/-- The time of the map published in reply to an event: the stamp of the map message, or the present if it has none,
if it came from a file, or if an update was merged into it (the clock is read at different places). -/
noncomputable def timeOfMap (env : Env) : Event → ℝ
  | .mapcloud stamp _ => if stamp = 0 then env.now 1 else stamp
  | .loadPcd _ => env.now 1
  | _ => env.now 0

/-- A stamp in whole microseconds. -/
def Microseconds (t : ℝ) (s : ℕ) : Prop := (s : ℝ) / 1000000 ≤ t ∧ t < ((s : ℝ) + 1) / 1000000

end Node
end Mcl3dl
