import Verif.Spec.NoiseLaw

/-! # Specification of the average of the particles -/

namespace Mcl3dl
namespace Node

/-- The average of coordinate `i` (0: x, 1: y, 2: z) of the particles. -/
noncomputable def averagePos (ps : List Particle) (i : Fin 3) : ℝ := (ps.map fun p => p.state.pos.get i).sum / ps.length

end Node
end Mcl3dl
