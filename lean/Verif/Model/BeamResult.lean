import Verif.Model.NodeMeasure

/-!
# The cast result behind a beam status

`Model/Lidar` leaves out where the ray was stopped (`CastResult::pos_`), which only the markers show.  Here the same
functions carry the whole result.
-/

namespace Mcl3dl
namespace Lidar

/-- raycast.h:44-65 `CastResult`, whole. -/
structure FullCast where
  pos : Vec3 ℝ
  collision : Bool
  sinAngle : ℝ
  point : Option (Vec3 ℝ × ℕ)

/-- raycast.h:52-58, the default constructor. -/
def FullCast.default : FullCast := ⟨⟨0, 0, 0⟩, false, 0, none⟩

/-- What the beam model looks at. -/
def FullCast.plain (r : FullCast) : Cast := ⟨r.collision, r.sinAngle, r.point⟩

/-- raycast.h:40-76 the interface `Raycast` with whole results.  `next` returns `none` where
`getNextCastResult` returns false, which leaves its argument as it is (raycast_using_dda.h:106-147,
raycast_using_kdtree.h:68-71). -/
structure FullCaster (C : Type) where
  setRay : C → Vec3 ℝ → Vec3 ℝ → Outcome C
  next : C → Outcome (Option FullCast × C)

/-- The caster as the beam model sees it. -/
def FullCaster.plain {C : Type} (f : FullCaster C) : Caster C where
  setRay := f.setRay
  next := fun c => (f.next c).bind fun r => .ok (r.1.map FullCast.plain, r.2)

open Classical in
/-- raycast_using_dda.h:87-159 over the kd-tree's input cloud, as `ddaCaster`. -/
noncomputable def ddaFull (cfg : DDA.Cfg) (cloud : Option DDA.Cloud) : FullCaster DDA.St where
  setRay := fun c b e => DDA.setRay cfg c cloud b e
  next := fun c =>
    if DDA.readsReleased cloud c then .ub "points_ points into a released cloud"
    else (DDA.getNext cfg c).bind fun r =>
      .ok (r.1.map fun x => ⟨x.pos, x.collision, x.sinAngle, x.point.map fun p => (p.pos, p.label)⟩, r.2)

/-- raycast_using_kdtree.h:58-107 over a kd-tree holding `pts`, as `kdCaster`. -/
noncomputable def kdFull (cfg : KDRay.Cfg) (search : Vec3 ℝ → ℝ → Outcome (List (ℕ × ℝ)))
    (pts : List (Vec3 ℝ × ℕ)) : FullCaster (Option KDRay.St) where
  setRay := fun _ b e => (KDRay.setRay cfg b e).bind fun s => .ok (some s)
  next := fun c =>
    match c with
    | none => .ub "count_ read before initialisation"
    | some s => (KDRay.getNext cfg search pts.length s).bind fun r =>
      .ok (r.1.map fun x => ⟨x.pos, x.collision, x.sinAngle, x.point.bind fun i => pts[i]?⟩, some r.2)

open Classical in
/-- lidar_measurement_model_beam.cpp:164-190: one round of the loop; the state holds the caller's `result`. -/
noncomputable def resultRound {C : Type} (b : Beam) (caster : FullCaster C) (scan : Vec3 ℝ) (c : FullCast × C) :
    Outcome ((FullCast × C) ⊕ (BeamStatus × FullCast × C)) :=
  (caster.next c.2).bind fun r =>
  match r.1 with
  | none => .ok (.inr (.long, c.1, r.2))
  | some res =>
    if !res.collision then .ok (.inl (res, r.2))
    else
      match res.point with
      | none => .ub "null point dereferenced"
      | some (p, label) =>
        if label > b.params.filterLabelMax then .ok (.inl (res, r.2))
        else if res.sinAngle > b.sinTotalRef then
          let distSq := (scan.x - p.x) ^ 2 + (scan.y - p.y) ^ 2 + (scan.z - p.z) ^ 2
          if distSq < b.hitRangeSq then .ok (.inr (.hit, res, r.2)) else .ok (.inr (.short, res, r.2))
        else .ok (.inr (.totalReflection, res, r.2))

/-- lidar_measurement_model_beam.cpp:157-192 `getBeamStatus` with its out-parameter `result`. -/
noncomputable def getBeamResult {C : Type} (b : Beam) (caster : FullCaster C) (lidar scan : Vec3 ℝ) (result : FullCast)
    (c : C) : Outcome (BeamStatus × FullCast × C) :=
  (caster.setRay c lidar scan).bind fun c => loopO (resultRound b caster scan) (result, c)

end Lidar

namespace Node

variable {C : Type}

/-- mcl_3dl.cpp:468-595: the markers of the rays with the positions of the collisions (lines 488-490). -/
noncomputable def fullRayMarkers (b : Lidar.Beam) (c : Lidar.FullCaster C) (origins : List (Vec3 ℝ)) (e : State6 ℝ) :
    List Point → ℕ → C → Outcome (List Marker × C)
  | [], _, w => .ok ([], w)
  | p :: ps, id, w =>
    match origins[p.attr]? with
    | none => .ub "origins[beam_header_id] out of range"
    | some o =>
      let pos := e.pos + e.rot.rotate o
      (Lidar.getBeamResult b c pos p.pos Lidar.FullCast.default w).bind fun r =>
      let hit : List Marker :=
        if r.1 = .long then [] else [⟨id, .collision, [r.2.1.pos], [collisionColor r.1]⟩]
      (fullRayMarkers b c origins e ps (id + hit.length + 1) r.2.2).bind fun rest =>
      .ok (hit ++ ⟨id + hit.length, .ray, [pos, p.pos], rayColors r.1⟩ :: rest.1, rest.2)

end Node
end Mcl3dl
