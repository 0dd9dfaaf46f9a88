import Verif.Model.NodeTypes

/-!
# Specification of the node's map

What map the node should be using, from the sequence of events alone.
-/

namespace Mcl3dl
namespace Node

/-- A cloud message with coordinates and at least one point. -/
def validCloud (m : Conv.Msg) : Bool := m.has "x" && m.has "y" && m.has "z" && decide (m.size ≠ 0)

/-- The points of a message. -/
def cloudPoints (m : Conv.Msg) : List Point := (Conv.fromROSMsg m []).2.map fun p => ⟨p.pos, p.label⟩

/-- An initial pose that is accepted: its orientation is a unit quaternion up to 0.1 in the squared
norm, and it can be transformed to the map frame. -/
def accepted (P : Params) (env : Env) (m : PoseMsg) : Prop :=
  |m.rot.dot m.rot - 1| ≤ 1 / 10 ∧ env.tf P.mapFrame m.frame m.stamp ≠ none

/-- Is a map available after an event, if one was (`b`) before: the last attempt to load a map decides. -/
def mapAvailable (b : Bool) : Event → Bool
  | .mapcloud _ m => validCloud m
  | .loadPcd f => f.isSome
  | _ => b

/-- The map as a user sees it. -/
structure MapView where
  available : Bool
  /-- an update that has been received but not merged -/
  pending : Option (List Point)
  /-- the points used for localization -/
  active : List Point

/-- Before anything has happened. -/
def MapView.init : MapView := ⟨false, none, []⟩

open Classical in
/-- What each event should do to the map. -/
noncomputable def MapView.step (P : Params) (v : MapView) (e : Event × Env) : MapView :=
  match e.1 with
  | .mapcloud _ m =>
    if validCloud m then ⟨true, none, e.2.voxel P.mapDownsample (cloudPoints m)⟩
    else { v with available := false }
  | .loadPcd (some pts) => ⟨true, none, e.2.voxel P.mapDownsample pts⟩
  | .loadPcd none => { v with available := false }
  | .mapcloudUpdate m =>
    if validCloud m then { v with pending := some (e.2.voxel P.updateDownsample (cloudPoints m)) } else v
  | .timer =>
    if v.available then { v with pending := none, active := v.active ++ v.pending.getD [] } else v
  | .initialpose m => if accepted P e.2 m then { v with pending := none } else v
  | _ => v

/-- The map after a history. -/
noncomputable def mapView (P : Params) (h : List (Event × Env)) : MapView :=
  h.foldl (MapView.step P) MapView.init

end Node
end Mcl3dl
