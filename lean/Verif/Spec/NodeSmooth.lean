import Verif.Spec.NodeStatus

/-!
# Specification of the smoothing of the published transform
-/

namespace Mcl3dl
namespace Node

variable {C : Type}

/-- A run as a sequence of the state before a callback, the state after it, and its messages. -/
noncomputable def trace (P : Params) (lib : Lib C) : Node C → History → List (Node C × Node C × List Out)
  | _, [] => []
  | n, (ev, env) :: h =>
    match step P lib env n ev with
    | .ok (n', o) => (n, n', o) :: trace P lib n' h
    | _ => []

/-- The estimate jumped: there are more particles than configured, or it moved or turned by more than the limits. -/
def EstimateJumped (P : Params) (particles : ℕ) (prev est : State6 ℝ) : Prop :=
  P.numParticles < (particles : ℤ) ∨ P.jumpDist < (est.pos - prev.pos).norm ∨
    P.jumpAng < |(est.rot.inv * prev.rot).getAxisAng.2|

/-- The rotation and translation from the map to the odometry frame that bring the odometry pose to the estimate. -/
noncomputable def correctionRot (odom est : State6 ℝ) : Quat ℝ := est.rot * odom.rot.inv
noncomputable def correctionPos (odom est : State6 ℝ) : Vec3 ℝ := est.pos - (correctionRot odom est).rotate odom.pos

/-- The unsmoothed corrections of the measurements of a run that published a pose, and whether the estimate jumped. -/
noncomputable def corrections (P : Params) (tr : List (Node C × Node C × List Out)) : List (Prop × Vec3 ℝ × Vec3 ℝ) :=
  tr.filterMap fun s =>
    if (s.2.2.findSome? Out.poseCov).isSome then
      some (EstimateJumped P s.1.loc.pf.particles.length s.1.loc.statePrev s.2.1.loc.statePrev,
        correctionPos s.1.odo.odom s.2.1.loc.statePrev, (correctionRot s.1.odo.odom s.2.1.loc.statePrev).getRPY)
    else none

/-- One step of the low-pass filter with time constant `T` (in measurements): `out` is its last output, `prev` its
last input, `v` the input. -/
noncomputable def lowPass (T out prev v : ℝ) : ℝ :=
  (2 * T - 1) / (2 * T + 1) * out + (6 * T + 1) / (2 * T + 1) ^ 2 * v - (2 * T - 1) / (2 * T + 1) ^ 2 * prev

/-- A smoothed coordinate: after the inputs `vs` a filter with last output and input `s` has those of `r`. A jump
sets it to the input. -/
inductive Smoothed (T : ℝ) : ℝ × ℝ → List (Prop × ℝ) → ℝ × ℝ → Prop
  | none (s) : Smoothed T s [] s
  | jump {s J v vs r} (h : J) : Smoothed T (v, v) vs r → Smoothed T s ((J, v) :: vs) r
  | move {s J v vs r} (h : ¬ J) : Smoothed T (lowPass T s.1 s.2 v, v) vs r → Smoothed T s ((J, v) :: vs) r

/-- A smoothed angle: the same, but each input is first taken as an equivalent angle at most half a turn from the
last output. -/
inductive SmoothedAngle (T : ℝ) : ℝ × ℝ → List (Prop × ℝ) → ℝ × ℝ → Prop
  | none (s) : SmoothedAngle T s [] s
  | jump {s J v vs r} (h : J) : SmoothedAngle T (v, v) vs r → SmoothedAngle T s ((J, v) :: vs) r
  | move {s J v vs r} (h : ¬ J) (k : ℤ) (hk : |v + k * (2 * Real.pi) - s.1| ≤ Real.pi) :
      SmoothedAngle T (lowPass T s.1 s.2 (v + k * (2 * Real.pi)), v + k * (2 * Real.pi)) vs r →
      SmoothedAngle T s ((J, v) :: vs) r

end Node
end Mcl3dl
