import Verif.Model.Node

/-!
# Model of the headers of the published map

Source: /repo/src/mcl_3dl.cpp.  `Model/Node` keeps the stamps and the points of the map clouds; here the
`frame_id`s of the same objects are kept beside them.
-/

namespace Mcl3dl
namespace Node

variable {C : Type}

/-- The `header.frame_id`s of the clouds in `MapSt.heap`, in the same order. -/
abbrev Frames := List String

/-- The header of a published map: the frame and the stamp in microseconds (`pcl::toROSMsg` copies both,
mcl_3dl.cpp:1371-1373). -/
structure MapHeader where
  frame : String
  stamp : ℕ

/-- mcl_3dl.cpp:1350-1378 `cbMapUpdateTimer`: `*pc_map2_ = *pc_map_ + *pc_update_` gives the object of `pc_map2_`
(a new one with an empty frame if there is none) the frame of the left operand. -/
def framesTimer (m : MapSt) (fr : Frames) : Frames :=
  if m.hasMap then
    match m.update with
    | some _ =>
      let fr' : Frames := match m.merged with
        | some _ => fr
        | none => fr ++ [""]
      match m.base.bind fun b => fr'[b]? with
      | none => fr'
      | some f => fr'.set (m.merged.getD m.heap.length) f
    | none => fr
  else fr

/-- mcl_3dl.cpp:1150-1170 `loadMapCloud`: `VoxelGrid::filter` copies the header of its input to the new cloud. -/
def framesLoad (m : MapSt) (fr : Frames) (frame : String) : Frames :=
  framesTimer { m with hasMap := true, heap := m.heap ++ [⟨0, []⟩], base := some m.heap.length, merged := none,
                       update := none } (fr ++ [frame])

/-- mcl_3dl.cpp:127-153, 1172-1192, 1350-1378: the frames after a callback; `frame` is the `header.frame_id` of the
message. -/
def framesStep (P : Params) (n : Node C) (fr : Frames) (ev : Event) (frame : String) : Frames :=
  match ev with
  | .mapcloud _ msg => if (Conv.fromROSMsg msg []).1 then framesLoad n.map fr frame else fr
  | .loadPcd (some _) => framesLoad n.map fr P.mapFrame
  | .timer => framesTimer n.map fr
  | _ => fr

/-- mcl_3dl.cpp:1371-1373: the header of the map published at the end of a callback that publishes one. -/
def mapHeader (m : MapSt) (fr : Frames) : Option MapHeader :=
  m.merged.bind fun r => (fr[r]?).bind fun f => (m.heap[r]?).bind fun c => some ⟨f, c.stamp⟩

/-- Running a history of events, each with the frame of its message: the node and the frames. -/
noncomputable def framesRun (P : Params) (lib : Lib C) :
    Node C → Frames → List ((Event × Env) × String) → Outcome (Node C × Frames)
  | n, fr, [] => .ok (n, fr)
  | n, fr, e :: es =>
    (step P lib e.1.2 n e.1.1).bind fun r => framesRun P lib r.1 (framesStep P n fr e.1.1 e.2) es

end Node
end Mcl3dl
