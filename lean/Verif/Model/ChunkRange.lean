import Verif.Model.ChunkedKdtree
import Verif.Model.XR

/-!
# Model of `mcl_3dl::ChunkedKdtree` with its integer conversions

Source: /repo/include/mcl_3dl/chunked_kdtree.h.

`Model/ChunkedKdtree` takes coordinates to be real numbers, and all conversions to and sums of `int` and the hash of a
chunk id to be defined. Here coordinates may be NaN or infinite, and each conversion, sum and hash is checked. With
`cpp14 = true` the shifts in the hash function follow C++14, otherwise C++20 (always defined).
-/

namespace Mcl3dl
namespace ChunkedKdtree

/-- The value fits `int`. -/
def fitsInt (i : ℤ) : Bool := decide (-2 ^ 31 ≤ i ∧ i < 2 ^ 31)

/-- chunked_kdtree.h:260-262 `static_cast<int>(std::floor(x))`. -/
noncomputable def floorToInt : XR → Outcome ℤ
  | .fin r => if fitsInt ⌊r⌋ then .ok ⌊r⌋ else .ub "value out of the range of int"
  | _ => .ub "NaN or infinity converted to int"

/-- chunked_kdtree.h:258-263 `getChunkId`; the chunk length is a non-zero real number. -/
noncomputable def getChunkId (cfg : Cfg ℝ) (p : Vec3 XR) : Outcome ChunkId :=
  (floorToInt (p.x * .fin (1 / cfg.chunkLength))).bind fun x =>
  (floorToInt (p.y * .fin (1 / cfg.chunkLength))).bind fun y =>
  (floorToInt (p.z * .fin (1 / cfg.chunkLength))).bind fun z => .ok ⟨x, y, z⟩

/-- chunked_kdtree.h:68-71 `operator+`, with the overflow of `int`. -/
def addIds (a b : ChunkId) : Outcome ChunkId :=
  if fitsInt (a.x + b.x) && fitsInt (a.y + b.y) && fitsInt (a.z + b.z) then .ok (a + b)
  else .ub "signed integer overflow"

/-- Any access to the maps hashes the id (chunked_kdtree.h:72-75). -/
def hashed (cpp14 : Bool) (c : ChunkId) : Outcome Unit := if cpp14 then c.hashDefined else .ok ()

/-- The value of a finite number (chunked_kdtree.h:139-158 is reached only with finite coordinates). -/
def realOf : XR → ℝ
  | .fin r => r
  | _ => 0

/-- The point with real coordinates. -/
def realPoint (p : Vec3 XR) : Vec3 ℝ := ⟨realOf p.x, realOf p.y, realOf p.z⟩

/-- chunked_kdtree.h:160-201: the offsets of the other chunks a point is pushed to, in order. -/
def offsets (xb yb zb : ℤ) : List ChunkId :=
  (if xb ≠ 0 ∧ yb ≠ 0 ∧ zb ≠ 0 then [⟨xb, yb, zb⟩] else [])
    ++ (if xb ≠ 0 ∧ yb ≠ 0 then [⟨xb, yb, 0⟩] else [])
    ++ (if yb ≠ 0 ∧ zb ≠ 0 then [⟨0, yb, zb⟩] else [])
    ++ (if zb ≠ 0 ∧ xb ≠ 0 then [⟨xb, 0, zb⟩] else [])
    ++ (if xb ≠ 0 then [⟨xb, 0, 0⟩] else [])
    ++ (if yb ≠ 0 then [⟨0, yb, 0⟩] else [])
    ++ (if zb ≠ 0 then [⟨0, 0, zb⟩] else [])

/-- chunked_kdtree.h:160-201: pushing to the neighbours. -/
def pushNeighbours (cpp14 : Bool) (i : ℕ) (q : Vec3 ℝ) (c : ChunkId) : List ChunkId → Chunks ℝ → Outcome (Chunks ℝ)
  | [], m => .ok m
  | o :: os, m =>
    (addIds c o).bind fun d => (hashed cpp14 d).bind fun _ => pushNeighbours cpp14 i q c os (pushTo m i q d)

/-- chunked_kdtree.h:133-202: one turn of the loop over the input cloud. -/
noncomputable def pushPoint (cpp14 : Bool) (cfg : Cfg ℝ) (i : ℕ) (p : Vec3 XR) (m : Chunks ℝ) : Outcome (Chunks ℝ) :=
  (getChunkId cfg p).bind fun c =>
  (hashed cpp14 c).bind fun _ =>
    let q := realPoint p
    pushNeighbours cpp14 i q c (offsets (bound cfg q.x c.x) (bound cfg q.y c.y) (bound cfg q.z c.z)) (pushTo m i q c)

/-- chunked_kdtree.h:132-203: the loop over the input cloud. -/
noncomputable def fillChecked (cpp14 : Bool) (cfg : Cfg ℝ) : ℕ → List (Vec3 XR) → Chunks ℝ → Outcome (Chunks ℝ)
  | _, [], m => .ok m
  | i, p :: ps, m => (pushPoint cpp14 cfg i p m).bind fun m' => fillChecked cpp14 cfg (i + 1) ps m'

/-- chunked_kdtree.h:124-216 `setInputCloud`. -/
noncomputable def setInputCloudChecked (cpp14 : Bool) (cfg : Cfg ℝ) (cloud : List (Vec3 XR)) : Outcome (Chunks ℝ) :=
  fillChecked cpp14 cfg 0 cloud fun _ => []

/-- chunked_kdtree.h:217-237 `radiusSearch`. -/
noncomputable def radiusSearchChecked (cpp14 : Bool) (cfg : Cfg ℝ) (chunks : Chunks ℝ)
    (search : List (Vec3 ℝ) → Vec3 ℝ → ℝ → ℕ → List (ℕ × ℝ)) (p : Vec3 XR) (r : ℝ) (num : ℕ) :
    Outcome (List (ℕ × ℝ)) :=
  if cfg.chunkLength < r then .throws "ChunkedKdtree: radius must be <chunk_length"
  else (getChunkId cfg p).bind fun c => (hashed cpp14 c).bind fun _ =>
    let chunk := chunks c
    if chunk = [] then .ok []
    else
      let res := search (chunk.map Prod.snd) (realPoint p) r num
      if ∀ e ∈ res, e.1 < chunk.length then
        .ok (res.filterMap fun e => (chunk[e.1]?).map fun ip => (ip.1, e.2))
      else .ub "original_ids_[i] out of range"

end ChunkedKdtree
end Mcl3dl
