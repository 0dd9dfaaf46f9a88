import Verif.Model.ChunkedKdtree
import Mathlib.Data.Real.Basic
import Mathlib.Algebra.Order.Archimedean.Real.Basic

/-!
# `mcl_3dl::ChunkedKdtree` with rounding

Source: /repo/include/mcl_3dl/chunked_kdtree.h.

`Model/ChunkedKdtree` computes exactly.  Here every operation on floats is followed by a rounding function `fl`, about which
nothing is assumed in the model.  A float is given by the real number it stands for.  The conversions and sums of `int` are
taken to be in range (see `Model/ChunkRange`).
-/

namespace Mcl3dl
namespace ChunkedKdtree

/-- chunked_kdtree.h:90-101: the parameters, `pos_to_chunk_` as stored in a float, and the rounding of float operations. -/
structure FloatCfg where
  chunkLength : ℝ
  maxSearchRadius : ℝ
  posToChunk : ℝ
  fl : ℝ → ℝ

namespace FloatCfg
variable (M : FloatCfg)

/-- chunked_kdtree.h:258-263 along one axis. -/
noncomputable def axisId (x : ℝ) : ℤ := ⌊M.fl (x * M.posToChunk)⌋

/-- chunked_kdtree.h:258-263 `getChunkId`. -/
noncomputable def chunkId (p : Vec3 ℝ) : ChunkId := ⟨M.axisId p.x, M.axisId p.y, M.axisId p.z⟩

/-- chunked_kdtree.h:139-158 `p.x - chunk_id.x_ * chunk_length_`: the `int` becomes a float, then the product and the
difference are rounded. -/
noncomputable def inChunk (x : ℝ) (c : ℤ) : ℝ := M.fl (x - M.fl (M.fl (c : ℝ) * M.chunkLength))

open Classical in
/-- chunked_kdtree.h:139-158: on which side the point is close to the border of its chunk. -/
noncomputable def bound (x : ℝ) (c : ℤ) : ℤ :=
  if M.inChunk x c < M.maxSearchRadius then -1
  else if M.fl (M.chunkLength - M.maxSearchRadius) < M.inChunk x c then 1
  else 0

/-- chunked_kdtree.h:135-201: the chunks a point is pushed to, in order. -/
noncomputable def targets (p : Vec3 ℝ) : List ChunkId :=
  let c := M.chunkId p
  let xb := M.bound p.x c.x
  let yb := M.bound p.y c.y
  let zb := M.bound p.z c.z
  [c]
    ++ (if xb ≠ 0 ∧ yb ≠ 0 ∧ zb ≠ 0 then [c + ⟨xb, yb, zb⟩] else [])
    ++ (if xb ≠ 0 ∧ yb ≠ 0 then [c + ⟨xb, yb, 0⟩] else [])
    ++ (if yb ≠ 0 ∧ zb ≠ 0 then [c + ⟨0, yb, zb⟩] else [])
    ++ (if zb ≠ 0 ∧ xb ≠ 0 then [c + ⟨xb, 0, zb⟩] else [])
    ++ (if xb ≠ 0 then [c + ⟨xb, 0, 0⟩] else [])
    ++ (if yb ≠ 0 then [c + ⟨0, yb, 0⟩] else [])
    ++ (if zb ≠ 0 then [c + ⟨0, 0, zb⟩] else [])

/-- chunked_kdtree.h:132-203 the loop over the input cloud from index `i`. -/
noncomputable def fill : ℕ → List (Vec3 ℝ) → Chunks ℝ → Chunks ℝ
  | _, [], m => m
  | i, p :: ps, m => fill (i + 1) ps ((M.targets p).foldl (fun m c => pushTo m i p c) m)

/-- chunked_kdtree.h:124-216 `setInputCloud`: all old chunks are discarded first. -/
noncomputable def setInputCloud (cloud : List (Vec3 ℝ)) : Chunks ℝ := M.fill 0 cloud fun _ => []

open Classical in
/-- chunked_kdtree.h:217-237 `radiusSearch`, as `ChunkedKdtree.radiusSearch`. -/
noncomputable def radiusSearch (chunks : Chunks ℝ) (search : List (Vec3 ℝ) → Vec3 ℝ → ℝ → ℕ → List (ℕ × ℝ))
    (p : Vec3 ℝ) (r : ℝ) (num : ℕ) : Outcome (List (ℕ × ℝ)) :=
  if M.chunkLength < r then .throws "ChunkedKdtree: radius must be <chunk_length"
  else
    let chunk := chunks (M.chunkId p)
    if chunk = [] then .ok []
    else
      let res := search (chunk.map Prod.snd) p r num
      if ∀ e ∈ res, e.1 < chunk.length then
        .ok (res.filterMap fun e => (chunk[e.1]?).map fun ip => (ip.1, e.2))
      else .ub "original_ids_[i] out of range"

end FloatCfg
end ChunkedKdtree
end Mcl3dl
