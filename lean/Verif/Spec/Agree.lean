import Verif.Model.NodeTypes
import Mathlib.Analysis.SpecialFunctions.Trigonometric.Basic

/-! # Specification for C181: particles that roughly agree about the orientation -/

namespace Mcl3dl
namespace Node

/-- The upward directions of the particles are within the angle `θ` of `U`, and their forward directions within less than
the rest of the right angle of a direction `F` at right angles to `U`. -/
def AgreeOn (θ : ℝ) (F U : Vec3 ℝ) (ps : List Particle) : Prop :=
  0 ≤ θ ∧ θ ≤ Real.pi / 2 ∧ F.dot F = 1 ∧ U.dot U = 1 ∧ F.dot U = 0 ∧
  ∀ q ∈ ps, Real.cos θ ≤ U.dot (q.state.rot.rotate ⟨0, 0, 1⟩) ∧ Real.cos (Real.pi / 2 - θ) < F.dot (q.state.rot.rotate ⟨1, 0, 0⟩)

/-- There are such an angle and such directions. -/
def Agreeing (ps : List Particle) : Prop := ∃ θ F U, AgreeOn θ F U ps

end Node
end Mcl3dl
