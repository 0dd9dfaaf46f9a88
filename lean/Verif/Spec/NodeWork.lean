import Verif.Spec.BeamWork
import Verif.Model.Node

/-! # Specification for C184 in the node: counting the calls of the ray caster -/

namespace Mcl3dl
namespace Node

/-- The same library objects with a ray caster that counts the calls of `getNextCastResult`. -/
def countingLib {C : Type} (lib : Lib C) : Lib (C × ℕ) where
  flann := lib.flann
  caster := fun cloud search => Lidar.counting (lib.caster cloud search)
  caster0 := (lib.caster0, 0)
  solve3 := lib.solve3
  solve6 := lib.solve6

end Node
end Mcl3dl
