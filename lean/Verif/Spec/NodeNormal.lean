import Verif.Spec.NodeCovariance
import Verif.Model.Sampler

/-! # Specification for the node with the sampler that uses normals -/

namespace Mcl3dl
namespace Node

/-- The entries that count for a mean: all up to the one with which the sum of the weights exceeds 1 (if the
weights sum up to 1: all). -/
noncomputable def counted {α : Type} : ℝ → List (ℝ × α) → List (ℝ × α)
  | _, [] => []
  | acc, a :: l => a :: if 1 < acc + a.1 then [] else counted (acc + a.1) l

/-- `used` may be the particles from which the spread of `all` is computed if `num` particles are configured: those
that count, or, if there are more particles than configured, a part of these. -/
def UsedFor (num : ℤ) (all used : List (ℝ × Pose)) : Prop :=
  used.Subperm (counted 0 all) ∧
  ((all.length : ℤ) ≤ num → used = counted 0 all) ∧
  (num < all.length →
    used.length = ⌊((counted 0 all).length : ℝ) * max (1 / 10) ((num : ℝ) / all.length)⌋₊)

/-- The covariance of the positions of `used`, with weights, around `m`. -/
noncomputable def spread (m : Vec3 ℝ) (used : List (ℝ × Pose)) (i j : Fin 3) : ℝ :=
  (used.map fun a => a.1 * ((a.2.1.get i - m.get i) * (a.2.1.get j - m.get j))).sum / (used.map Prod.fst).sum

/-- `st` are the statistics of the particles `all` (weights and poses) which the sampler is to be given: their mean
orientation, and eigenvalues and eigenvectors of the absolute values of the position covariances. -/
def StatisticsOf (num : ℤ) (all : List (ℝ × Pose)) (st : Sampler.Stats ℝ) : Prop :=
  ∃ (mean : Pose) (used : List (ℝ × Pose)) (vals : Fin 3 → ℝ) (vecs : Matrix (Fin 3) (Fin 3) ℝ),
    MeanPose (counted 0 all) mean ∧ UsedFor num all used ∧
    Sampler.EigenSolved (Matrix.of fun i j => |spread mean.1 used i j|) vals vecs ∧
    st = ⟨mean.2, vals 1, vals 2, ⟨vecs 0 2, vecs 1 2, vecs 2 2⟩⟩

/-- The particles do not tell an axis: those used for the spread are all at the same place, or the mean
orientation is undefined since the sums of the forward and of the upward directions are parallel. -/
def NoAxis (num : ℤ) (all : List (ℝ × Pose)) : Prop :=
  (∃ used, UsedFor num all used ∧ ∀ a ∈ used, ∀ b ∈ used, a.2.1 = b.2.1) ∨
  (weightedSum ((counted 0 all).map fun a => (a.1, a.2.2.rotate ⟨1, 0, 0⟩))).cross
    (weightedSum ((counted 0 all).map fun a => (a.1, a.2.2.rotate ⟨0, 0, 1⟩))) = ⟨0, 0, 0⟩

/-- `out` are `num` different points of `pts` (all if there are not more). -/
def DistinctFrom {α : Type} (num : ℕ) (pts out : List α) : Prop :=
  out.length = min num pts.length ∧ (pts.length ≤ num → out = pts) ∧
  ∃ ids : List ℕ, ids.Nodup ∧ List.Forall₂ (fun i x => pts[i]? = some x) ids out

end Node
end Mcl3dl
