import Verif.Model.ChunkedKdtree

/-!
# Model of the settings of `mcl_3dl::ChunkedKdtree`

Source: /repo/include/mcl_3dl/chunked_kdtree.h.  The point representation is its axis weights.  Each chunk holds
its own kd-tree, which has its own input cloud, its own point representation and its own epsilon; they are set
one by one.
-/

namespace Mcl3dl
namespace ChunkedKdtree

variable {K : Type*} [Field K] [LinearOrder K] [FloorRing K]

/-- chunked_kdtree.h:266-277 `Chunk`: the kd-tree of a chunk with its settings (`none`: pcl's default), and the
original ids with the points.  pcl rebuilds the tree when the representation is set after the cloud. -/
structure Chunk (K : Type*) where
  rep : Option (Vec3 K)
  epsilon : Option K
  content : List (ℕ × Vec3 K)

/-- chunked_kdtree.h:279-292 the members of the class; `chunks c = none`: `chunks_.find(c) == chunks_.end()`. -/
structure Obj (K : Type*) where
  rep : Option (Vec3 K)
  epsilon : Option K
  input : List (Vec3 K)
  chunks : ChunkId → Option (Chunk K)

/-- chunked_kdtree.h:90-102 the constructor. -/
def Obj.new : Obj K := ⟨none, none, [], fun _ => none⟩

/-- chunked_kdtree.h:103-111 `setEpsilon`. -/
def Obj.setEpsilon (o : Obj K) (e : K) : Obj K :=
  { o with epsilon := some e, chunks := fun c => (o.chunks c).map fun k => { k with epsilon := some e } }

/-- chunked_kdtree.h:112-120 `setPointRepresentation`. -/
def Obj.setPointRepresentation (o : Obj K) (w : Vec3 K) : Obj K :=
  { o with rep := some w, chunks := fun c => (o.chunks c).map fun k => { k with rep := some w } }

/-- chunked_kdtree.h:125-216 `setInputCloud`: the old chunks are discarded, the new ones get the
representation and the epsilon if these have been set. -/
def Obj.setInputCloud (cfg : Cfg K) (o : Obj K) (cloud : List (Vec3 K)) : Obj K :=
  let content := ChunkedKdtree.setInputCloud cfg cloud
  { o with
    input := cloud
    chunks := fun c => if content c = [] then none else some ⟨o.rep, o.epsilon, content c⟩ }

/-- chunked_kdtree.h:217-237 `radiusSearch`; `search rep epsilon pts p r num` is the search of a kd-tree with that
representation and epsilon. -/
def Obj.radiusSearch (cfg : Cfg K)
    (search : Option (Vec3 K) → Option K → List (Vec3 K) → Vec3 K → K → ℕ → List (ℕ × K)) (o : Obj K)
    (p : Vec3 K) (r : K) (num : ℕ) : Outcome (List (ℕ × K)) :=
  if cfg.chunkLength < r then .throws "ChunkedKdtree: radius must be <chunk_length"
  else
    match o.chunks (chunkId cfg p) with
    | none => .ok []
    | some k =>
      let res := search k.rep k.epsilon (k.content.map Prod.snd) p r num
      if ∀ e ∈ res, e.1 < k.content.length then
        .ok (res.filterMap fun e => (k.content[e.1]?).map fun ip => (ip.1, e.2))
      else .ub "original_ids_[i] out of range"

/-- The calls that change the object. -/
inductive Call (K : Type*)
  | epsilon (e : K)
  | rep (w : Vec3 K)
  | cloud (pts : List (Vec3 K))

/-- The effect of a call. -/
def Obj.call (cfg : Cfg K) (o : Obj K) : Call K → Obj K
  | .epsilon e => o.setEpsilon e
  | .rep w => o.setPointRepresentation w
  | .cloud pts => o.setInputCloud cfg pts

end ChunkedKdtree
end Mcl3dl
