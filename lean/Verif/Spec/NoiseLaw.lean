import Verif.Spec.NodeNoise
import Mathlib.Probability.ProductMeasure
import Mathlib.Probability.Distributions.Gaussian.Multivariate

/-!
# Specification of normally distributed particles
-/

namespace Mcl3dl
namespace Node

open MeasureTheory ProbabilityTheory

/-- Independent standard normal numbers. -/
noncomputable def normalStream : Measure (ℕ → ℝ) := Measure.infinitePi fun _ : ℕ => gaussianReal 0 1

/-- The environment in which the generator `call` yields the numbers `ω`; everything else is as in `env`. -/
noncomputable def Env.withNormal (env : Env) (call : ℕ) (ω : ℕ → ℝ) : Env :=
  { env with normal := fun c k => if c = call then ω k else env.normal c k }

/-- The position and orientation of a particle. -/
def poseOf (p : Particle) : Vec3 ℝ × Quat ℝ := (p.state.pos, p.state.rot)

/-- The position and orientation with the components x, y, z, roll, pitch, yaw. -/
noncomputable def poseAt (x : Fin 6 → ℝ) : Vec3 ℝ × Quat ℝ := (⟨x 0, x 1, x 2⟩, Quat.ofRPY ⟨x 3, x 4, x 5⟩)

/-- The pose `q` shifted along and turned about the axes of the map. -/
noncomputable def shiftedBy (q : Vec3 ℝ × Quat ℝ) (d : Fin 6 → ℝ) : Vec3 ℝ × Quat ℝ :=
  (q.1 + ⟨d 0, d 1, d 2⟩, Quat.ofRPY ⟨d 3, d 4, d 5⟩ * q.2)

/-- Six independent normally distributed numbers with the given means and standard deviations.  (For a standard
deviation of 0 the number is the mean.) -/
noncomputable def normal6 (m σ : Fin 6 → ℝ) : Measure (Fin 6 → ℝ) :=
  Measure.pi fun i => gaussianReal (m i) (NNReal.mk (σ i ^ 2) (sq_nonneg _))

/-- Every particle of the list lies in the set given for it. -/
def AllIn (B : ℕ → Set (Vec3 ℝ × Quat ℝ)) (ps : List Particle) : Prop :=
  ∀ k p, ps[k]? = some p → poseOf p ∈ B k

end Node
end Mcl3dl
