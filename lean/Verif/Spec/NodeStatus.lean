import Verif.Model.Node

/-!
# What a user sees of the measurements

Everything here is read off the messages the node publishes.
-/

namespace Mcl3dl
namespace Node

/-- The log of a complete batch: was it measured, or skipped. -/
def Out.batchOf : Out → Option Bool
  | .batch b => some b
  | _ => none

/-- The complete batches in order: was the batch measured, or skipped. -/
def batches (outs : List (List Out)) : List Bool := outs.flatten.filterMap Out.batchOf

/-- The covariance of a published pose. -/
def Out.poseCov : Out → Option (ℕ → ℕ → ℝ)
  | .pose _ _ _ _ cov => some cov
  | _ => none

/-- The number of particles in a published particle cloud. -/
def Out.particleCount : Out → Option ℕ
  | .particles _ ps => some ps.length
  | _ => none

/-- A published status. -/
def Out.statusMsg : Out → Option Status
  | .status s _ _ => some s
  | _ => none

/-- A completed measurement as published. -/
structure Shown where
  /-- the warning thresholds configured at that time -/
  warn : Vec3 ℝ
  /-- the covariance of the pose -/
  cov : ℕ → ℕ → ℝ
  /-- the number of particles measured -/
  count : ℕ
  status : Status

/-- The measurement among the messages of a callback, if it published a pose. -/
def shown (warn : Vec3 ℝ) (o : List Out) : Option Shown :=
  match o.findSome? Out.poseCov, o.findSome? Out.particleCount, o.findSome? Out.statusMsg with
  | some cov, some n, some s => some ⟨warn, cov, n, s⟩
  | _, _, _ => none

/-- The thresholds after an event. -/
def warnAfter (warn : Vec3 ℝ) : Event → Vec3 ℝ
  | .reconfigure w => w
  | _ => warn

/-- The completed measurements of a run in order; `warn` are the thresholds at its beginning. -/
def measurements : Vec3 ℝ → History → List (List Out) → List Shown
  | _, [], _ => []
  | _, _ :: _, [] => []
  | warn, (ev, _) :: h, o :: os => (shown warn o).toList ++ measurements (warnAfter warn ev) h os

/-- The number of particles after a measurement of `n`. -/
def shrink (num n : ℕ) : ℕ := if num < n then max (3 * n / 4) num else n

/-- For how many measurements after the last reduction of particles global localization is reported. -/
noncomputable def globalPeriod (P : Params) : ℕ := (3 * ⌈P.lpfStep⌉).toNat

/-- Measurement `i` reduces the particles, or one at most `globalPeriod` before it did. -/
def inGlobalPeriod (P : Params) (ms : List Shown) (i : ℕ) : Prop :=
  ∃ j s, j ≤ i ∧ i ≤ j + globalPeriod P ∧ ms[j]? = some s ∧ P.numParticles < (s.count : ℤ)

/-- Global localization was reported by the measurement before `i`, and was not in its last measurement:
a measurement before `i`, at most `globalPeriod` before it, reduced the particles. -/
def stillGlobal (P : Params) (ms : List Shown) (i : ℕ) : Prop :=
  ∃ j s, j < i ∧ i ≤ j + globalPeriod P ∧ ms[j]? = some s ∧ P.numParticles < (s.count : ℤ)

/-- Some standard deviation of the published pose exceeds its threshold (x-y plane, z, yaw). -/
def Shown.large (s : Shown) : Prop :=
  s.warn.x < Real.sqrt (s.cov 0 0 + s.cov 1 1) ∨ s.warn.y < Real.sqrt (s.cov 2 2) ∨
    s.warn.z < Real.sqrt (s.cov 5 5)

/-- The deviations of position and orientation are below the thresholds for convergence. -/
def Shown.small (P : Params) (s : Shown) : Prop :=
  Real.sqrt (s.cov 0 0 + s.cov 1 1 + s.cov 2 2) < P.fixDist ∧
    Real.sqrt (s.cov 3 3 + s.cov 4 4 + s.cov 5 5) < P.fixAng

end Node
end Mcl3dl
