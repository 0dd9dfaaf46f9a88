import Verif.Spec.NodeNoise
import Verif.Spec.NodePosterior
import Mathlib.LinearAlgebra.Matrix.NonsingularInverse

/-! # Specification of the landmark measurement -/

namespace Mcl3dl
namespace Node

open Matrix

/-- The density of the normal distribution in six dimensions with mean 0 and covariance `A`. -/
noncomputable def gaussian6 (A : Matrix (Fin 6) (Fin 6) ℝ) (x : Fin 6 → ℝ) : ℝ :=
  1 / ((2 * Real.pi) ^ 3 * Real.sqrt A.det) * Real.exp (-(x ⬝ᵥ A⁻¹ *ᵥ x) / 2)

/-- The covariance of a message: 36 numbers row by row. -/
def covOf (msg : PoseMsg) : Matrix (Fin 6) (Fin 6) ℝ := fun i j => msg.cov ⟨6 * i + j, by omega⟩

/-- How far the state is from the pose of the message: position differences along the axes of the map, and roll,
pitch and yaw of the rotation from the measured to the particle's orientation. -/
noncomputable def errorTo (msg : PoseMsg) (s : State6 ℝ) : Fin 6 → ℝ :=
  ![s.pos.x - msg.pos.x, s.pos.y - msg.pos.y, s.pos.z - msg.pos.z, (msg.rot.inv * s.rot).getRPY.x,
    (msg.rot.inv * s.rot).getRPY.y, (msg.rot.inv * s.rot).getRPY.z]

/-- `new` is drawn from `old` in proportion to `weights`, `anc k` being the slot the new slot `k` comes from. -/
structure Drawn (P : Params) (env : Env) (weights : List ℝ) (old new : List (State6 ℝ)) (anc ord : ℕ → ℕ)
    (idx : ℕ → Fin 6 → ℕ) : Prop where
  /-- as many as before -/
  length : new.length = old.length
  /-- the noise is made of different random numbers -/
  fresh : Fresh (sigmas P.resampleVar) idx
  /-- the slots are drawn in proportion to the weights -/
  sources : Sources weights env.unit anc ord
  /-- each comes from an old one, scattered if the slot before has the same source (for the first: if the source is the
  one sorted first), otherwise as it is -/
  slot : ∀ k s', new[k]? = some s' → ∃ s, old[anc k]? = some s ∧
    if anc k = (if k = 0 then ord 0 else anc (k - 1)) then
      Scattered (fun i => sigmas P.resampleVar i * env.normal 0 (idx k i)) s s'
    else s' = s

end Node
end Mcl3dl
