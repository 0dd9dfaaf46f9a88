import Verif.Model.Loop
import Verif.Model.DDA
import Verif.Model.KDRay
import Verif.Model.State6DOF
import Mathlib.Analysis.SpecialFunctions.Pow.Real

/-!
# Models of the two lidar measurement models

Source: /repo/src/lidar_measurement_model_beam.cpp, /repo/src/lidar_measurement_model_likelihood.cpp,
/repo/include/mcl_3dl/lidar_measurement_model_base.h and the two headers in
/repo/include/mcl_3dl/lidar_measurement_models/.

Numbers are real numbers (the clip filter is also given over any number type, so that NaN can be
studied).  `PointXYZIL` is a position with its label (`attr`); the intensity is not used by this code.
Parameters are read when used, like `params_->…`; they are assumed not to be modified behind the
object's back between `refreshParameters` and use.
-/

namespace Mcl3dl
namespace Lidar

/-- lidar_measurement_model_base.h:46-61 `LidarMeasurementResult`. -/
structure Result where
  likelihood : ℝ
  quality : ℝ

/-- The members of both parameter structs (parameters.h) that bound the scan. -/
structure Clip (F : Type) where
  near : F
  far : F
  zMin : F
  zMax : F

/-- lidar_measurement_model_beam.cpp:103-112 and lidar_measurement_model_likelihood.cpp:84-93 (the same
text): `true` if the point is to be removed.  `nearSq`, `farSq` are `clip_near_sq_`, `clip_far_sq_`. -/
def rejected {F : Type} [Add F] [Mul F] [LT F] [DecidableLT F] (c : Clip F) (nearSq farSq : F)
    (p : Vec3 F) : Bool :=
  if farSq < p.x * p.x + p.y * p.y then true
  else if p.x * p.x + p.y * p.y < nearSq then true
  else if p.z < c.zMin ∨ c.zMax < p.z then true
  else false

/-- lidar_measurement_model_beam.cpp:113-121, lidar_measurement_model_likelihood.cpp:94-102 `filter`:
`remove_if` + `erase`, then the sampler is asked for `numPoints` points. -/
def filter {F A R : Type} [Add F] [Mul F] [LT F] [DecidableLT F] (c : Clip F) (nearSq farSq : F)
    (numPoints : ℕ) (sampler : List (Pt F A) → ℕ → R) (pc : List (Pt F A)) : R :=
  sampler (pc.filter fun p => !rejected c nearSq farSq p.pos) numPoints

/-- lidar_measurement_model_beam.cpp:82-96, lidar_measurement_model_likelihood.cpp:63-77
`setGlobalLocalizationStatus`: the new `num_points_`.  `size_t` is 64 bit. -/
def globalNumPoints (numDefault numGlobal numParticles current : ℕ) : ℕ :=
  if current ≤ numParticles then numDefault
  else
    let num := (numDefault * numParticles % 2 ^ 64) / current
    if num < numGlobal then numGlobal else num

/-! ## Beam model -/

/-- raycast.h:44-65 `CastResult` as the beam model uses it: the position and label of the map point. -/
structure Cast where
  collision : Bool
  sinAngle : ℝ
  point : Option (Vec3 ℝ × ℕ)

/-- raycast.h:40-76 the interface `Raycast` with a given kd-tree; `C` is the state of the caster. -/
structure Caster (C : Type) where
  setRay : C → Vec3 ℝ → Vec3 ℝ → Outcome C
  next : C → Outcome (Option Cast × C)

open Classical in
/-- `RaycastUsingDDA` (raycast_using_dda.h) over the kd-tree's input cloud.  The pointers it keeps are into the
cloud that was the input when the grid was built; the kd-tree holds only its present input cloud, so pointers into
any other cloud are dangling. -/
noncomputable def ddaCaster (cfg : DDA.Cfg) (cloud : Option DDA.Cloud) : Caster DDA.St where
  setRay := fun c b e => DDA.setRay cfg c cloud b e
  next := fun c =>
    if DDA.readsReleased cloud c then .ub "points_ points into a released cloud"
    else (DDA.getNext cfg c).bind fun r =>
      .ok (r.1.map fun x => ⟨x.collision, x.sinAngle, x.point.map fun p => (p.pos, p.label)⟩, r.2)

/-- `RaycastUsingKDTree` (raycast_using_kdtree.h) over a kd-tree holding `pts`; `none` is the state
before the first `setRay`. -/
noncomputable def kdCaster (cfg : KDRay.Cfg) (search : Vec3 ℝ → ℝ → Outcome (List (ℕ × ℝ)))
    (pts : List (Vec3 ℝ × ℕ)) : Caster (Option KDRay.St) where
  setRay := fun _ b e => (KDRay.setRay cfg b e).bind fun s => .ok (some s)
  next := fun c =>
    match c with
    | none => .ub "count_ read before initialisation"
    | some s => (KDRay.getNext cfg search pts.length s).bind fun r =>
      .ok (r.1.map fun x => ⟨x.collision, x.sinAngle, x.point.bind fun i => pts[i]?⟩, some r.2)

/-- parameters.h `LidarMeasurementModelBeamParameters` (the members used outside the casters).
`filterLabelMax` is a `uint32_t`. -/
structure BeamParams where
  numDefault : ℕ
  numGlobal : ℕ
  clip : Clip ℝ
  likelihoodMin : ℝ
  angTotalRef : ℝ
  hitRange : ℝ
  shortOnly : Bool
  filterLabelMax : ℕ

/-- lidar_measurement_model_beam.h:54-62 the members. -/
structure Beam where
  params : BeamParams
  numPoints : ℕ
  clipFarSq : ℝ
  clipNearSq : ℝ
  beamLikelihood : ℝ
  sinTotalRef : ℝ
  hitRangeSq : ℝ

/-- lidar_measurement_model_beam.cpp:66.  For `num_points_ = 0` the exponent is infinite: the power is
0 below 1 and 1 at 1 (a minimum above 1, where it would be infinite, is not modelled). -/
noncomputable def beamRoot (lmin : ℝ) (n : ℕ) : ℝ :=
  if n = 0 then (if lmin = 1 then 1 else 0) else lmin ^ (1 / (n : ℝ))

/-- lidar_measurement_model_beam.cpp:51-80 constructor and `refreshParameters` (without the caster,
whose construction is `ddaCaster`/`kdCaster`). -/
noncomputable def Beam.make (p : BeamParams) : Beam where
  params := p
  numPoints := p.numDefault
  clipFarSq := p.clip.far * p.clip.far
  clipNearSq := p.clip.near * p.clip.near
  beamLikelihood := beamRoot p.likelihoodMin p.numDefault
  sinTotalRef := Real.sin p.angTotalRef
  hitRangeSq := p.hitRange ^ 2

/-- lidar_measurement_model_beam.cpp:82-96. -/
def Beam.setGlobalLocalizationStatus (b : Beam) (numParticles current : ℕ) : Beam :=
  { b with numPoints := globalNumPoints b.params.numDefault b.params.numGlobal numParticles current }

/-- lidar_measurement_model_beam.cpp:98-122. -/
noncomputable def Beam.filter {A R : Type} (b : Beam) (sampler : List (Pt ℝ A) → ℕ → R) (pc : List (Pt ℝ A)) : R :=
  Lidar.filter b.params.clip b.clipNearSq b.clipFarSq b.numPoints sampler pc

/-- lidar_measurement_model_beam.h:65-71. -/
inductive BeamStatus
  | short | hit | long | totalReflection
  deriving DecidableEq

open Classical in
/-- lidar_measurement_model_beam.cpp:164-190: one round of the loop. -/
noncomputable def beamRound {C : Type} (b : Beam) (caster : Caster C) (scan : Vec3 ℝ) (c : C) :
    Outcome (C ⊕ (BeamStatus × C)) :=
  (caster.next c).bind fun r =>
  match r.1 with
  | none => .ok (.inr (.long, r.2))
  | some res =>
    if !res.collision then .ok (.inl r.2)
    else
      match res.point with
      | none => .ub "null point dereferenced"
      | some (p, label) =>
        if label > b.params.filterLabelMax then .ok (.inl r.2)
        else if res.sinAngle > b.sinTotalRef then
          let distSq := (scan.x - p.x) ^ 2 + (scan.y - p.y) ^ 2 + (scan.z - p.z) ^ 2
          if distSq < b.hitRangeSq then .ok (.inr (.hit, r.2)) else .ok (.inr (.short, r.2))
        else .ok (.inr (.totalReflection, r.2))

/-- lidar_measurement_model_beam.cpp:157-192 `getBeamStatus`. -/
noncomputable def getBeamStatus {C : Type} (b : Beam) (caster : Caster C) (lidar scan : Vec3 ℝ) (c : C) :
    Outcome (BeamStatus × C) :=
  (caster.setRay c lidar scan).bind fun c => loopO (beamRound b caster scan) c

/-- lidar_measurement_model_beam.cpp:146. -/
def Beam.penalises (b : Beam) (st : BeamStatus) : Bool :=
  st == .short || (!b.params.shortOnly && st == .long)

/-- lidar_measurement_model_beam.cpp:140-150: the loop over the (transformed) points.  Reading
`origins` out of range is undefined (a label from 2^31 on becomes a negative index). -/
noncomputable def beamLoop {C : Type} (b : Beam) (caster : Caster C) (origins : List (Vec3 ℝ)) (s : State6 ℝ) :
    List (Pt ℝ ℕ) → ℝ → C → Outcome (ℝ × C)
  | [], score, c => .ok (score, c)
  | p :: ps, score, c =>
    match origins[p.attr]? with
    | none => .ub "origins[beam_header_id] out of range"
    | some o =>
      (getBeamStatus b caster (s.pos + s.rot.rotate o) p.pos c).bind fun r =>
      beamLoop b caster origins s ps (if b.penalises r.1 then score * b.beamLikelihood else score) r.2

/-- lidar_measurement_model_beam.cpp:124-155 `measure`; `pc = none` is a null pointer. -/
noncomputable def Beam.measure {C : Type} (b : Beam) (caster : Caster C) (pc : Option (List (Pt ℝ ℕ)))
    (origins : List (Vec3 ℝ)) (s : State6 ℝ) (c : C) : Outcome (Result × C) :=
  match pc with
  | none => .ok (⟨1, 0⟩, c)
  | some pc =>
    if pc.length = 0 then .ok (⟨1, 0⟩, c)
    else
      (beamLoop b caster origins s (s.transform pc) 1 c).bind fun r =>
      let score := if r.1 < b.params.likelihoodMin then b.params.likelihoodMin else r.1
      .ok (⟨score, 1⟩, r.2)

/-! ## Likelihood-field model -/

/-- parameters.h `LidarMeasurementModelLikelihoodParameters`. -/
structure LikeParams where
  numDefault : ℕ
  numGlobal : ℕ
  clip : Clip ℝ
  matchWeight : ℝ
  matchDistMin : ℝ
  matchDistFlat : ℝ

/-- lidar_measurement_model_likelihood.h the members. -/
structure Like where
  params : LikeParams
  numPoints : ℕ
  clipFarSq : ℝ
  clipNearSq : ℝ

/-- lidar_measurement_model_likelihood.cpp:49-61. -/
noncomputable def Like.make (p : LikeParams) : Like where
  params := p
  numPoints := p.numDefault
  clipFarSq := p.clip.far * p.clip.far
  clipNearSq := p.clip.near * p.clip.near

/-- lidar_measurement_model_likelihood.cpp:63-77. -/
def Like.setGlobalLocalizationStatus (l : Like) (numParticles current : ℕ) : Like :=
  { l with numPoints := globalNumPoints l.params.numDefault l.params.numGlobal numParticles current }

/-- lidar_measurement_model_likelihood.cpp:79-103. -/
noncomputable def Like.filter {A R : Type} (l : Like) (sampler : List (Pt ℝ A) → ℕ → R) (pc : List (Pt ℝ A)) : R :=
  Lidar.filter l.params.clip l.clipNearSq l.clipFarSq l.numPoints sampler pc

open Classical in
/-- lidar_measurement_model_likelihood.cpp:124-135: the loop, from score and count. -/
noncomputable def likeLoop {A : Type} (p : LikeParams) (search : Vec3 ℝ → ℝ → Outcome (List (ℕ × ℝ))) :
    List (Pt ℝ A) → ℝ → ℕ → Outcome (ℝ × ℕ)
  | [], score, num => .ok (score, num)
  | q :: qs, score, num =>
    (search q.pos p.matchDistMin).bind fun r =>
    match r with
    | [] => likeLoop p search qs score num
    | (_, sq) :: _ =>
      let dist := p.matchDistMin - max (Real.sqrt sq) p.matchDistFlat
      if dist < 0 then likeLoop p search qs score num
      else likeLoop p search qs (score + dist * p.matchWeight) (num + 1)

/-- lidar_measurement_model_likelihood.cpp:105-139 `measure`. -/
noncomputable def Like.measure {A : Type} (l : Like) (search : Vec3 ℝ → ℝ → Outcome (List (ℕ × ℝ)))
    (pc : Option (List (Pt ℝ A))) (s : State6 ℝ) : Outcome Result :=
  match pc with
  | none => .ok ⟨1, 0⟩
  | some pc =>
    if pc.length = 0 then .ok ⟨1, 0⟩
    else
      (likeLoop l.params search (s.transform pc) 0 0).bind fun r =>
      .ok ⟨r.1, (r.2 : ℝ) / ((s.transform pc).length : ℝ)⟩

end Lidar
end Mcl3dl
