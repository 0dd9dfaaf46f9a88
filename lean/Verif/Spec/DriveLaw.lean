import Verif.Spec.NoiseLaw

/-!
# Specification of normally distributed odometry errors
-/

namespace Mcl3dl
namespace Node

open MeasureTheory ProbabilityTheory

/-- The environment in which the numbers for the odometry errors of the particles are `ω`; everything else is as in
`env`. -/
def Env.withDrift (env : Env) (ω : ℕ → ℝ) : Env :=
  { env with driftNoise := fun k => (ω (4 * k), ω (4 * k + 1), ω (4 * k + 2), ω (4 * k + 3)) }

/-- The pose `p` after driving the distance `z.1` forward and turning by `turn`, with an error of `z.2` in the heading. -/
noncomputable def drivenBy (turn : Quat ℝ) (p : Vec3 ℝ × Quat ℝ) (z : ℝ × ℝ) : Vec3 ℝ × Quat ℝ :=
  (p.1 + p.2.rotate ⟨z.1, 0, 0⟩, Quat.ofAxisAng ⟨0, 0, 1⟩ z.2 * p.2 * turn)

/-- Turns of less than about 0.0028 rad count as no turn. -/
noncomputable def countedTurn (a : ℝ) : ℝ := if 1 - 1 / 1000000 ≤ |Real.cos (a / 2)| then 0 else a

/-- The law of the distance and the heading error of a particle on a drive of distance `d` and turn `a`: independent
and normal; the distance has the mean `d` and the variance `(odom_err_lin_lin d)² + (odom_err_ang_lin a)²`, the
heading error the mean 0 and the variance `(odom_err_lin_ang d)² + (odom_err_ang_ang a)²`. -/
noncomputable def driveLaw (P : Params) (d a : ℝ) : Measure (ℝ × ℝ) :=
  (gaussianReal d (NNReal.mk ((P.errLinLin * d) ^ 2 + (P.errAngLin * a) ^ 2) (by positivity))).prod
    (gaussianReal 0 (NNReal.mk ((P.errLinAng * d) ^ 2 + (P.errAngAng * a) ^ 2) (by positivity)))

end Node
end Mcl3dl
