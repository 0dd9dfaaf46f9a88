import Verif.Spec.NodePosterior

/-! # Specification of the debug markers -/

namespace Mcl3dl
namespace Node

/-- The colour that stands for the status of a beam: green for a hit or a total reflection, red if it ends short
of the measured point, blue if it meets nothing. -/
noncomputable def hue (st : Lidar.BeamStatus) (opacity : ℝ) : Rgba :=
  if st = .short then ⟨1, 0, 0, opacity⟩ else if st = .long then ⟨0, 0, 1, opacity⟩ else ⟨0, 1, 0, opacity⟩

/-- The opacity of a marker of a beam: a total reflection is faint. -/
noncomputable def opacity (st : Lidar.BeamStatus) (x : ℝ) : ℝ := if st = .totalReflection then 1 / 5 else x

/-- The marker shows the ray from the sensor at `start` to the point `q`, whose beam has the status `st`. -/
def ShowsRay (start q : Vec3 ℝ) (st : Lidar.BeamStatus) (m : Marker) : Prop :=
  m.pts = [start, q] ∧ m.colors = [hue st (opacity st (1 / 2)), hue st (opacity st (4 / 5))]

/-- The markers of a kind. -/
def ofKind (k : MarkerNs) (ms : List Marker) : List Marker := ms.filter fun m => decide (m.ns = k)

end Node
end Mcl3dl
