import Verif.Model.BeamResult
import Verif.Spec.Lidar

/-! # Specification vocabulary for C163 -/

namespace Mcl3dl
namespace Lidar

/-- `FullCasts caster c rs c'`: from `c`, calling `next` until it returns false yields the results `rs`. -/
inductive FullCasts {C : Type} (caster : FullCaster C) : C → List FullCast → C → Prop
  | done {c c' : C} : caster.next c = .ok (none, c') → FullCasts caster c [] c'
  | more {c c1 c' : C} {r : FullCast} {rs : List FullCast} :
      caster.next c = .ok (some r, c1) → FullCasts caster c1 rs c' → FullCasts caster c (r :: rs) c'

end Lidar

namespace Node

/-- A marker without its position if it is a collision marker. -/
def Marker.unplaced (m : Marker) : Marker := if m.ns = .collision then { m with pts := [] } else m

end Node
end Mcl3dl
