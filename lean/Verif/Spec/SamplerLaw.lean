import Verif.Model.Sampler
import Mathlib.Probability.ProductMeasure
import Mathlib.MeasureTheory.Measure.Lebesgue.Basic

/-!
# Specification of weighted sampling without replacement
-/

namespace Mcl3dl
namespace Sampler

open MeasureTheory

/-- Independent random numbers, uniformly distributed in [0, 1). -/
noncomputable def uniformStream : Measure (ℕ → ℝ) :=
  haveI : ∀ _ : ℕ, IsProbabilityMeasure (volume.restrict (Set.Ico (0 : ℝ) 1)) := fun _ => ⟨by simp⟩
  Measure.infinitePi fun _ : ℕ => volume.restrict (Set.Ico (0 : ℝ) 1)

/-- The weight at a position. -/
noncomputable def weightAt (ws : List ℝ) (i : ℕ) : ℝ := ws.getD i 0

/-- The probability of drawing the positions of the list one after the other, each time one of those left with a
probability proportional to its weight; `W` is the sum of the weights of those left. -/
noncomputable def successive (w : ℕ → ℝ) (W : ℝ) : List ℕ → ℝ
  | [] => 1
  | i :: l => w i / W * successive w (W - w i) l

/-- The probability of drawing the set `T`, in whatever order. -/
noncomputable def drawProb (w : ℕ → ℝ) (W : ℝ) (T : Finset ℕ) : ℝ := (T.toList.permutations.map (successive w W)).sum

/-- The weight of a point facing the principal axis, for particles spread with variances `e2` along that axis and `e1`
along the second one: 1 for a small ratio of the deviations, the maximal weight for a large one (or for `e1 = 0`) and
linear between. -/
noncomputable def axisWeight (p : Params ℝ) (e1 e2 : ℝ) : ℝ :=
  if e1 = 0 then p.maxWeight
  else if Real.sqrt (e2 / e1) < p.performWeightingRatio then 1
  else if p.maxWeightRatio < Real.sqrt (e2 / e1) then p.maxWeight
  else 1 + (p.maxWeight - 1) * ((Real.sqrt (e2 / e1) - p.performWeightingRatio) / (p.maxWeightRatio - p.performWeightingRatio))

/-- How much a surface with the normal `n` faces the axis: 1 if the normal is parallel to it, 0 if it is orthogonal,
linear in the angle. -/
noncomputable def faces (axis n : Vec3 ℝ) : ℝ :=
  1 - Real.arccos (min |n.x * axis.x + n.y * axis.y + n.z * axis.z| 1) / (Real.pi / 2)

/-- The weights of the points with the given normals, 1 for a point without; the principal axis is turned into the
frame of the robot. -/
noncomputable def weights (p : Params ℝ) (st : Stats ℝ) (normals : List (Option (Vec3 ℝ))) : List ℝ :=
  normals.map fun n => match n with
    | none => 1
    | some n => 1 + (axisWeight p st.eval1 st.eval2 - 1) * faces (st.meanRot.inv.rotate st.evec2) n

end Sampler
end Mcl3dl
