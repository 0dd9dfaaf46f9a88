import Verif.Model.ChunkFloat
import Verif.Spec.KdSearch

/-! # Specification for C182: rounding in the chunked kd-tree -/

namespace Mcl3dl
namespace ChunkedKdtree

/-- The rounding has the relative error `u` and the absolute error `η` (for results in the subnormal range); `pos_to_chunk_`
is the reciprocal of the chunk length, rounded (from double, so up to two errors). -/
structure FloatCfg.Rounds (M : FloatCfg) (u η : ℝ) : Prop where
  unit_nonneg : 0 ≤ u
  unit_le : u ≤ 1 / 100
  abs_nonneg : 0 ≤ η
  fl : ∀ x, |M.fl x - x| ≤ u * |x| + η
  inv : |M.posToChunk * M.chunkLength - 1| ≤ 2 * u

/-- No coordinate is larger than `b`. -/
def Within (b : ℝ) (p : Vec3 ℝ) : Prop := |p.x| ≤ b ∧ |p.y| ≤ b ∧ |p.z| ≤ b

/-- Both points are less than `ρ` apart along every axis. -/
def AxisNear (ρ : ℝ) (q p : Vec3 ℝ) : Prop := |p.x - q.x| < ρ ∧ |p.y - q.y| < ρ ∧ |p.z - q.z| < ρ

/-- What rounding may cost, for coordinates up to `b` and chunks of length `L`. -/
def roundingLoss (u η b L : ℝ) : ℝ := 12 * u * (b + L) + 6 * η * (L + 1)

end ChunkedKdtree
end Mcl3dl
