import Verif.Model.Outcome
import Verif.Model.Quat
import Mathlib.Algebra.Order.Floor.Defs
import Mathlib.Algebra.Order.Floor.Ring

/-!
# Model of `mcl_3dl::ChunkedKdtree`

Source: /repo/include/mcl_3dl/chunked_kdtree.h.

The number type is an ordered field with floor (exact arithmetic).  `static_cast<int>` of the floor
is taken to be in range (see `Model/ChunkRange`).  The per-chunk `pcl::KdTreeFLANN` is a parameter: a search function.
`setEpsilon`, `setPointRepresentation` and `getChunkKdtree` are not modelled; a point representation
shows up as the distance function given to the search.
-/

namespace Mcl3dl

/-- chunked_kdtree.h:51-88. -/
@[ext] structure ChunkId where
  x : ℤ
  y : ℤ
  z : ℤ
  deriving DecidableEq

/-- chunked_kdtree.h:68-71. -/
instance : Add ChunkId := ⟨fun a b => ⟨a.x + b.x, a.y + b.y, a.z + b.z⟩⟩

/-- `a << n` on `int` in C++14 ([expr.shift]): undefined for negative `a` and when `a * 2^n` does not
fit `unsigned int`; otherwise the value converted to `int`, given here before conversion. -/
def shl (a : ℤ) (n : ℕ) : Outcome ℤ :=
  if a < 0 then .ub "left shift of a negative value"
  else if a * 2 ^ n < 2 ^ 32 then .ok (a * 2 ^ n)
  else .ub "left shift out of range"

/-- chunked_kdtree.h:72-75 the hash function; only its definedness is modelled (the value does not
influence the behaviour of `std::unordered_map`). -/
def ChunkId.hashDefined (c : ChunkId) : Outcome Unit :=
  (shl c.y 11).bind fun _ => (shl c.z 22).bind fun _ => .ok ()

namespace ChunkedKdtree
variable {K : Type*} [Field K] [LinearOrder K] [FloorRing K]

/-- chunked_kdtree.h:90-101. -/
structure Cfg (K : Type*) where
  chunkLength : K
  maxSearchRadius : K
  keepClouds : Bool

/-- chunked_kdtree.h:258-263 with `pos_to_chunk_ = 1.0 / chunk_length` (line 94). -/
def chunkId (cfg : Cfg K) (p : Vec3 K) : ChunkId :=
  ⟨⌊p.x * (1 / cfg.chunkLength)⌋, ⌊p.y * (1 / cfg.chunkLength)⌋, ⌊p.z * (1 / cfg.chunkLength)⌋⟩

/-- chunked_kdtree.h:139-144 (and 146-151, 153-158): on which side the point is close to the border
of its chunk. -/
def bound (cfg : Cfg K) (x : K) (c : ℤ) : ℤ :=
  let inChunk := x - c * cfg.chunkLength
  if inChunk < cfg.maxSearchRadius then -1
  else if cfg.chunkLength - cfg.maxSearchRadius < inChunk then 1
  else 0

/-- chunked_kdtree.h:135-201: the chunks a point is pushed to, in order. -/
def targets (cfg : Cfg K) (p : Vec3 K) : List ChunkId :=
  let c := chunkId cfg p
  let xb := bound cfg p.x c.x
  let yb := bound cfg p.y c.y
  let zb := bound cfg p.z c.z
  [c]
    ++ (if xb ≠ 0 ∧ yb ≠ 0 ∧ zb ≠ 0 then [c + ⟨xb, yb, zb⟩] else [])
    ++ (if xb ≠ 0 ∧ yb ≠ 0 then [c + ⟨xb, yb, 0⟩] else [])
    ++ (if yb ≠ 0 ∧ zb ≠ 0 then [c + ⟨0, yb, zb⟩] else [])
    ++ (if zb ≠ 0 ∧ xb ≠ 0 then [c + ⟨xb, 0, zb⟩] else [])
    ++ (if xb ≠ 0 then [c + ⟨xb, 0, 0⟩] else [])
    ++ (if yb ≠ 0 then [c + ⟨0, yb, 0⟩] else [])
    ++ (if zb ≠ 0 then [c + ⟨0, 0, zb⟩] else [])

/-- Content of the maps `clouds` and `ids` (chunked_kdtree.h:130-131): per chunk the points pushed to
it with their index in the input cloud.  A chunk exists iff something was pushed to it. -/
abbrev Chunks (K : Type*) := ChunkId → List (ℕ × Vec3 K)

/-- `clouds[id].push_back(p); ids[id].push_back(i)`. -/
def pushTo (m : Chunks K) (i : ℕ) (p : Vec3 K) (c : ChunkId) : Chunks K :=
  Function.update m c (m c ++ [(i, p)])

/-- chunked_kdtree.h:132-203 the loop over the input cloud from index `i`. -/
def fill (cfg : Cfg K) : ℕ → List (Vec3 K) → Chunks K → Chunks K
  | _, [], m => m
  | i, p :: ps, m => fill cfg (i + 1) ps ((targets cfg p).foldl (fun m c => pushTo m i p c) m)

/-- chunked_kdtree.h:124-216 `setInputCloud`: all old chunks are discarded first. -/
def setInputCloud (cfg : Cfg K) (cloud : List (Vec3 K)) : Chunks K := fill cfg 0 cloud fun _ => []

/-- chunked_kdtree.h:217-237 `radiusSearch`.  `search pts p r num` is the search of the chunk's
kd-tree over the chunk's points: pairs of an index into `pts` and a squared distance.  The result is
the list of ids with squared distances; its length is the returned count.  When the chunk does not
exist the function returns `false` (0) and leaves the output vectors alone: here the empty list. -/
def radiusSearch (cfg : Cfg K) (chunks : Chunks K)
    (search : List (Vec3 K) → Vec3 K → K → ℕ → List (ℕ × K)) (p : Vec3 K) (r : K) (num : ℕ) :
    Outcome (List (ℕ × K)) :=
  if cfg.chunkLength < r then .throws "ChunkedKdtree: radius must be <chunk_length"
  else
    let chunk := chunks (chunkId cfg p)
    if chunk = [] then .ok []
    else
      let res := search (chunk.map Prod.snd) p r num
      if ∀ e ∈ res, e.1 < chunk.length then
        .ok (res.filterMap fun e => (chunk[e.1]?).map fun ip => (ip.1, e.2))
      else .ub "original_ids_[i] out of range"

/-- chunked_kdtree.h:252-257 `getChunkCloud(const ChunkId&)`; `none` is the null pointer. -/
def getChunkCloud (cfg : Cfg K) (chunks : Chunks K) (c : ChunkId) : Option (List (Vec3 K)) :=
  if cfg.keepClouds = false ∨ chunks c = [] then none else some ((chunks c).map Prod.snd)

end ChunkedKdtree
end Mcl3dl
