import Verif.Model.State6DOF
import Verif.Model.XR
import Mathlib.LinearAlgebra.Matrix.NonsingularInverse
import Mathlib.Analysis.SpecialFunctions.Pow.Real

/-!
# Model of the motion prediction model, the Gaussian likelihoods and the IMU gravity model

Source: /repo/include/mcl_3dl/motion_prediction_models/motion_prediction_model_differential_drive.h,
/repo/include/mcl_3dl/nd.h,
/repo/include/mcl_3dl/imu_measurement_models/imu_measurement_model_gravity.h.
-/

namespace Mcl3dl

/-- `expf`, `std::exp` (nd.h:54, 74). -/
class ExpFn (F : Type*) where
  exp : F → F

noncomputable instance : ExpFn ℝ := ⟨Real.exp⟩

/-- `expf` on extended reals. -/
noncomputable instance : ExpFn XR := ⟨fun x => match x with
  | .fin r => .fin (Real.exp r)
  | .pinf => .pinf
  | .ninf => .fin 0
  | .nan => .nan⟩

@[simp] theorem ExpFn.exp_real (x : ℝ) : ExpFn.exp x = Real.exp x := rfl

/-- motion_prediction_model_differential_drive.h:70-77, the data members.  The members without
initialiser are whatever the allocation left there; they are parameters of `Motion.make`. -/
structure Motion (F : Type) where
  linTc : F
  angTc : F
  relTrans : Vec3 F
  relQuat : Quat F
  relNorm : F
  relAngle : F
  timeDiff : F

namespace Motion
variable {F : Type} [Zero F] [One F] [Neg F] [Add F] [Sub F] [Mul F] [Div F] [NatCast F]
  [LT F] [DecidableLT F] [LE F] [DecidableLE F] [Transc F]

/-- motion_prediction_model_differential_drive.h:46-54 `setOdoms`. -/
def setOdoms (m : Motion F) (prev cur : State6 F) (timeDiff : F) : Motion F :=
  let t := prev.rot.inv.rotate (cur.pos - prev.pos)
  let q := prev.rot.inv * cur.rot
  { m with relTrans := t, relQuat := q, relAngle := q.getAxisAng.2, relNorm := t.norm,
           timeDiff := timeDiff }

/-- motion_prediction_model_differential_drive.h:56-67 `predict`. -/
def predict (m : Motion F) (s : State6 F) : State6 F :=
  let diff := m.relTrans.smul (1 + s.noiseLL) + (⟨s.noiseAL * m.relAngle, 0, 0⟩ : Vec3 F)
  let lin := s.integLin + (diff - m.relTrans)
  let yawDiff := s.noiseLA * m.relNorm + s.noiseAA * m.relAngle
  let rot := (Quat.ofAxisAng ⟨0, 0, 1⟩ yawDiff * s.rot * m.relQuat).normalized
  let ang := s.integAng + (⟨0, 0, yawDiff⟩ : Vec3 F)
  { s with
    pos := s.pos + s.rot.rotate diff
    rot := rot
    integLin := lin.smul (1 - m.timeDiff / m.linTc)
    integAng := ang.smul (1 - m.timeDiff / m.angTc) }

/-- One odometry step as done in cbOdom: src/mcl_3dl.cpp:226-233, `setOdoms` and then `predict` on a
particle. -/
def stepParticle (m : Motion F) (prev cur : State6 F) (timeDiff : F) (s : State6 F) : State6 F :=
  (m.setOdoms prev cur timeDiff).predict s

/-- A sequence of odometry steps: each step is relative to the previous odometry
(src/mcl_3dl.cpp:226-236). -/
def run (m : Motion F) (prev : State6 F) (s : State6 F) : List (State6 F × F) → State6 F
  | [] => s
  | (cur, dt) :: rest => run (m.setOdoms prev cur dt) cur (stepParticle m prev cur dt s) rest

end Motion

/-- nd.h:41-62, `NormalLikelihood`. -/
structure NormalLikelihood (F : Type) where
  a : F
  sq2 : F

namespace NormalLikelihood
variable {F : Type} [One F] [Neg F] [Mul F] [Div F] [NatCast F] [Transc F] [ExpFn F]

/-- nd.h:45-49, the constructor. -/
def make (sigma : F) : NormalLikelihood F :=
  { a := 1 / Transc.sqrt (((2 : ℕ) : F) * Transc.pi * sigma * sigma)
    sq2 := sigma * sigma * ((2 : ℕ) : F) }

/-- nd.h:50-53, the call operator. -/
def eval (n : NormalLikelihood F) (x : F) : F := n.a * ExpFn.exp (-x * x / n.sq2)

end NormalLikelihood

/-- nd.h:64-86, `NormalLikelihoodNd`.  Eigen's `determinant` and `inverse` are taken to be exact, so
this class is modelled over the real numbers only. -/
structure NormalLikelihoodNd (n : ℕ) where
  a : ℝ
  sigmaInv : Matrix (Fin n) (Fin n) ℝ

namespace NormalLikelihoodNd
variable {n : ℕ}

/-- nd.h:71-75, the constructor. -/
noncomputable def make (sigma : Matrix (Fin n) (Fin n) ℝ) : NormalLikelihoodNd n :=
  { a := 1 / ((2 * Real.pi) ^ ((1 / 2 : ℝ) * n) * Real.sqrt sigma.det)
    sigmaInv := sigma⁻¹ }

/-- nd.h:76-79, the call operator: `-0.5 * x^T * sigma_inv * x` in the exponent. -/
noncomputable def eval (l : NormalLikelihoodNd n) (x : Fin n → ℝ) : ℝ :=
  l.a * Real.exp (Matrix.vecMul (fun i => -(1 / 2) * x i) l.sigmaInv ⬝ᵥ x)

end NormalLikelihoodNd

/-- src/mcl_3dl.cpp:912-929, the likelihood that `cbLandmark` gives to particle `s`.  The covariance is
the message's 36 numbers read as a matrix (lines 901-904; Eigen reads them column by column). -/
noncomputable def landmarkLikelihood (cov : Fin 36 → ℝ) (measured s : State6 ℝ) : ℝ :=
  let nd := NormalLikelihoodNd.make (fun (i j : Fin 6) => cov ⟨i + 6 * j, by omega⟩)
  let diff := s.sub measured
  let rpy := diff.rot.getRPY
  nd.eval ![diff.pos.x, diff.pos.y, diff.pos.z, rpy.x, rpy.y, rpy.z]

/-- imu_measurement_model_gravity.h:62-65, the data members. -/
structure GravityModel (F : Type) where
  nd : NormalLikelihood F
  acc : Vec3 F
  accNorm : F

namespace GravityModel
variable {F : Type} [Zero F] [One F] [Neg F] [Add F] [Sub F] [Mul F] [Div F] [NatCast F] [Transc F]
  [ExpFn F]

/-- imu_measurement_model_gravity.h:43-46 (constructor) and 48-52 `setAccMeasure`. -/
def make (accVar : F) (acc : Vec3 F) : GravityModel F :=
  { nd := NormalLikelihood.make accVar, acc := acc, accNorm := acc.norm }

/-- imu_measurement_model_gravity.h:54-60 `measure`. -/
def measure (m : GravityModel F) (s : State6 F) : F :=
  let est := s.rot.inv.rotate ⟨0, 0, 1⟩
  m.nd.eval (Transc.acos (est.dot m.acc / (m.accNorm * est.norm)))

end GravityModel
end Mcl3dl
