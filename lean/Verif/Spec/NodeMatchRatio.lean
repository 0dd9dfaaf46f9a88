import Verif.Spec.NodeMatch

/-! # Specification of the match ratio -/

namespace Mcl3dl
namespace Node

open Classical in
/-- The fraction of the points `sel` that the pose of the particle `s` puts within `r` of a map point. -/
noncomputable def matchedFraction (w : Vec3 ℝ) (map : List Point) (r : ℝ) (s : State6 ℝ) (sel : List Point) : ℝ :=
  ((sel.filter fun q => Near w map r (s.rot.normalized.rotate q.pos + s.pos)).length : ℝ) / sel.length

end Node
end Mcl3dl
