import Verif.Model.NodeTypes

/-!
# Model of `MCL3dlNode::measure`

Source: /repo/src/mcl_3dl.cpp:304-898, split into the steps of the function in order.  The assertions
on finiteness, the log output and the two timers used for it are left out.
-/

namespace Mcl3dl
namespace Node

variable {C : Type}

/-! ## Small helpers of the callbacks -/

/-- One draw from `std::normal_distribution(m, s)`; the engine is the number of draws made so far. -/
noncomputable def Env.gauss (env : Env) (call : ℕ) (m s : ℝ) (e : ℕ) : ℝ × ℕ :=
  (m + s * env.normal call e, e + 1)

/-- `n` noise states of a diagonal generator (pf.h:169-239 with state_6dof.h:226-248). -/
noncomputable def Env.noiseStates (env : Env) (call : ℕ) (mean sigma : State6 ℝ) (n : ℕ) :
    Outcome (List (State6 ℝ)) :=
  (State6.generateN (State6.diagonalGen (env.gauss call) mean sigma) n 0).bind fun r => .ok r.1

/-- A list of noise states as the function the filter model takes. -/
noncomputable def pickNoise (l : List (State6 ℝ)) (i : ℕ) : State6 ℝ := l.getD i State6.default

/-- `pf_->resample(sigma)`, pf.h:182-223.  The number drawn from `[0, pstep)` is `unit * pstep`.
Simplification: a noise state is drawn in every iteration (the code draws only where it uses one). -/
noncomputable def resampleFilter (env : Env) (call : ℕ) (sigma : State6 ℝ) (f : Filter) : Outcome Filter :=
  (env.noiseStates call State6.default sigma f.particles.length).bind fun ns =>
  f.resample (env.sort (PF.accumulate 0 f.particles))
    (env.unit * (PF.total f.particles / (f.particles.length : ℝ))) (pickNoise ns)

/-- `pf_->noise(sigma)`, pf.h:224-239. -/
noncomputable def addNoise (env : Env) (call : ℕ) (sigma : State6 ℝ) (f : Filter) : Outcome Filter :=
  (env.noiseStates call State6.default sigma f.particles.length).bind fun ns =>
  .ok (f.noise (pickNoise ns))

/-- `pf_->resizeParticle(n)`, pf.h:399-437; a negative `int` becomes a `size_t` that no vector can
have. -/
noncomputable def resizeFilter (env : Env) (f : Filter) (n : ℤ) : Outcome Filter :=
  if n < 0 then .throws "std::length_error"
  else f.resize State6.default env.junk n.toNat (env.sort (PF.accumulate 0 f.particles))

/-- mcl_3dl.cpp:190-194 and 653-657 `integ_reset_func`. -/
def resetInteg (s : State6 ℝ) : State6 ℝ := { s with integLin := 0, integAng := 0 }

/-- `pf_->measure(f)` (pf.h:254-281) when the likelihoods of the particles have been computed in turn;
`ls` are their values.  (`PF.Filter.measure` is the case of a likelihood without side effects.) -/
noncomputable def measureWith (f : Filter) (ls : List ℝ) : Filter :=
  let ps1 := List.zipWith (fun (p : Particle) l => { p with prob := p.prob * l }) f.particles ls
  if 0 < PF.total ps1 then
    let ps2 := ps1.map fun p => { p with prob := p.prob / PF.total ps1 }
    { particles := ps2, entropy := some (PF.entropyOf Real.log ps2) }
  else f

/-- `pf_->covariance(1.0, max(0.1, num_particles / size))` (mcl_3dl.cpp:372-373, 706-709;
pf.h:306-362). -/
noncomputable def covarianceOf (P : Params) (env : Env) (call : ℕ) (f : Filter) :
    Outcome (ℕ → ℕ → ℝ) :=
  let ratio := cmax (1 / 10) ((P.numParticles : ℝ) / (f.particles.length : ℝ))
  let pNum := PF.passCount 1 0 f.particles
  let indices := env.covIdx call pNum (decide (ratio < 1)) ⌊(pNum : ℝ) * ratio⌋₊
  (f.covariance State6.meanQuat (fun s e j k => (State6.covElement s e j k).getD 0) 1 f.particles
    indices).bind fun r => .ok r.1

/-- The time stamp of published transforms and particles, mcl_3dl.cpp:662-666 and 1104-1107. -/
def outStamp (P : Params) (odo : OdoSt) (tolBase now : ℝ) : ℝ :=
  (if odo.has then odo.last else now) + tolBase + P.tfTolerance

/-- mcl_3dl.cpp:1101-1125 `publishParticles`; `getParticle(i)` is in range. -/
noncomputable def publishParticles (P : Params) (odo : OdoSt) (tolBase now : ℝ) (f : Filter) : Out :=
  .particles (outStamp P odo tolBase now)
    (f.particles.map fun p => (p.state.pos, p.state.rot.normalized))

/-- mcl_3dl.cpp:1127-1148 `diagnoseStatus`, called by `force_update`. -/
def publishStatus (s : Status) (f : Filter) : Out := .status s f.entropy s.level

/-- The kd-tree's parameters, mcl_3dl.cpp:1320-1329; the search range of the beam model is
lidar_measurement_model_beam.cpp:61. -/
noncomputable def kdCfg (P : Params) : ChunkedKdtree.Cfg ℝ where
  chunkLength := P.mapChunk
  maxSearchRadius :=
    cmax (cmax 0 (max (max P.mapDownsample.x P.mapDownsample.y) P.mapDownsample.z * 4))
      P.like.matchDistMin
  keepClouds := false

/-- `kdtree_->radiusSearch(p, r, id, sqdist, 1)`. -/
noncomputable def search (P : Params) (lib : Lib C) (m : MapSt) (p : Vec3 ℝ) (r : ℝ) :
    Outcome (List (ℕ × ℝ)) :=
  ChunkedKdtree.radiusSearch (kdCfg P) m.kd lib.flann p r 1

/-- `kdtree_->getInputCloud()` (chunked_kdtree.h:121-124), identified by the version of its contents. -/
def MapSt.input (m : MapSt) : Option DDA.Cloud :=
  m.kdCloud.bind fun r => (m.heap[r]?).map fun c =>
    ⟨m.version, c.stamp, c.points.map fun p => (p.pos, p.attr)⟩

/-- The ray caster with the node's kd-tree. -/
noncomputable def caster (P : Params) (lib : Lib C) (m : MapSt) : Lidar.Caster C :=
  lib.caster m.input (search P lib m)

/-! ## Preparation: mcl_3dl.cpp:312-391 -/

/-- The local variables when the particles are about to be weighted. -/
structure Prep where
  /-- `pc_local_accum_` in the base frame -/
  cloud : List Point
  origins : List (Vec3 ℝ)
  full : List Point
  stats : Option (Sampler.Stats ℝ)
  beam : Lidar.Beam
  like : Lidar.Like
  beamPc : List Point
  likePc : List Point

/-- How the preparation ends. -/
inductive Prepared
  /-- the local cloud could not be transformed -/
  | noTf
  /-- the local cloud has been transformed, but a sensor origin is not available -/
  | noOrigin (cloud : List Point)
  | ready (p : Prep)

/-- mcl_3dl.cpp:343-359: the positions of the sensors; `none` if a transform is not available. -/
def originsOf (P : Params) (env : Env) (stamp : ℝ) : List Header → Option (List (Vec3 ℝ))
  | [] => some []
  | h :: hs =>
    match env.tfFull P.baseFrame stamp h.frame h.stamp P.odomFrame with
    | none => none
    | some t => (originsOf P env stamp hs).map fun os => t.trans :: os

/-- mcl_3dl.cpp:369-375: `setParticleStatistics`. -/
noncomputable def particleStats (P : Params) (lib : Lib C) (env : Env) (f : Filter)
    (old : Option (Sampler.Stats ℝ)) : Outcome (Option (Sampler.Stats ℝ)) :=
  if P.useNormalSampler then
    (covarianceOf P env 0 f).bind fun cov =>
    .ok (some (Sampler.setParticleStatistics lib.solve3
      (f.expectation State6.meanQuat 1 f.particles).1.rot (Matrix.of fun (i j : Fin 3) => cov i j)))
  else .ok old

/-- `sampler_->sample(pc, num)` (mcl_3dl.cpp:1302-1309 chooses the sampler).  The sampler with normals
computes with infinities and NaN (no spread across the principal axis, or no spread at all), so it is run on
`XR`; its inputs are finite. -/
noncomputable def sample (P : Params) (env : Env) (call : ℕ) (stats : Option (Sampler.Stats ℝ))
    (pts : List Point) (num : ℕ) : Outcome (List Point) :=
  if P.useNormalSampler then
    (Sampler.sampleWithNormal (Sampler.finP ⟨P.samplerPerform, P.samplerMaxRatio, P.samplerMaxWeight⟩)
      (stats.map Sampler.finS) (fun l => (env.normals l).map (Option.map Sampler.finV))
      (fun k => .fin (env.canon call k)) env.order ⟨(), pts⟩ num).bind fun c => .ok c.points
  else (Sampler.uniform (env.index call pts.length) ⟨(), pts⟩ num).bind fun c => .ok c.points

/-- mcl_3dl.cpp:319-383 from the transform of the local cloud to the filtered clouds; the models are
visited in the order of their names.  A null `pc_local_accum_` is undefined behaviour. -/
noncomputable def prepare (P : Params) (lib : Lib C) (env : Env) (acc : AccSt) (loc : LocSt C)
    (header : Header) : Outcome Prepared :=
  match acc.cloud with
  | none => .ub "null pc_local_accum_"
  | some pts =>
    match env.tf P.baseFrame P.odomFrame header.stamp with
    | none => .ok .noTf
    | some t =>
      let cloud := pts.map fun p => { p with pos := t.point p.pos }
      match originsOf P env header.stamp acc.headers with
      | none => .ok (.noOrigin cloud)
      | some origins =>
        let full := env.voxel P.downsample cloud
        (particleStats P lib env loc.pf loc.stats).bind fun stats =>
        let n := loc.pf.particles.length
        let beam := loc.beam.setGlobalLocalizationStatus (Params.toSize P.numParticles) n
        (beam.filter (sample P env 0 stats) full).bind fun beamPc =>
        let like := loc.like.setGlobalLocalizationStatus (Params.toSize P.numParticles) n
        (like.filter (sample P env 1 stats) full).bind fun likePc =>
        .ok (.ready ⟨cloud, origins, full, stats, beam, like, beamPc, likePc⟩)

/-! ## Weights: mcl_3dl.cpp:398-462 -/

/-- What the likelihood function changes: the caster and the extreme match ratios. -/
structure WeighSt (C : Type) where
  caster : C
  ratioMin : ℝ
  ratioMax : ℝ

/-- mcl_3dl.cpp:402-425 `measure_func`. -/
noncomputable def particleLikelihood (P : Params) (lib : Lib C) (m : MapSt) (p : Prep) (s : State6 ℝ)
    (w : WeighSt C) : Outcome (ℝ × WeighSt C) :=
  (p.beam.measure (caster P lib m) (some p.beamPc) p.origins s w.caster).bind fun rb =>
  (p.like.measure (search P lib m) (some p.likePc) s).bind fun rl =>
  let odomError := (NormalLikelihood.make P.integLinSigma).eval s.integLin.norm
  .ok (1 * rb.1.likelihood * rl.likelihood * odomError,
    { caster := rb.2
      ratioMin := if rl.quality < w.ratioMin then rl.quality else w.ratioMin
      ratioMax := if w.ratioMax < rl.quality then rl.quality else w.ratioMax })

/-- The likelihoods of the particles in turn, pf.h:258-262. -/
noncomputable def weighLoop (P : Params) (lib : Lib C) (m : MapSt) (p : Prep) :
    List Particle → WeighSt C → Outcome (List ℝ × WeighSt C)
  | [], w => .ok ([], w)
  | q :: qs, w =>
    (particleLikelihood P lib m p q.state w).bind fun r =>
    (weighLoop P lib m p qs r.2).bind fun rest => .ok (r.1 :: rest.1, rest.2)

/-- mcl_3dl.cpp:428-450: the bias. -/
noncomputable def biasFilter (P : Params) (prev : State6 ℝ) (f : Filter) : Filter :=
  if P.numParticles < (f.particles.length : ℤ) then f.bias fun _ _ => 1
  else f.bias fun s _ =>
    (NormalLikelihood.make P.biasVarDist).eval ((s.pos - prev.pos).norm) *
      (NormalLikelihood.make P.biasVarAng).eval ((s.rot * prev.rot.inv).getAxisAng.2) + 1 / 1000000

/-- mcl_3dl.cpp:451 and 462: the estimate. -/
noncomputable def estimate (f : Filter) : State6 ℝ := (f.expectationBiased State6.meanQuat).normalize

/-! ## Markers: mcl_3dl.cpp:464-628 -/

/-- mcl_3dl.cpp:500-522: the colour of a collision marker (the default constructed one is black and
transparent; LONG beams get no marker). -/
noncomputable def collisionColor : Lidar.BeamStatus → Rgba
  | .hit => ⟨0, 1, 0, 8 / 10⟩
  | .short => ⟨1, 0, 0, 8 / 10⟩
  | .totalReflection => ⟨0, 1, 0, 2 / 10⟩
  | .long => ⟨0, 0, 0, 0⟩

/-- mcl_3dl.cpp:552-593: the colours of the two ends of a ray. -/
noncomputable def rayColors : Lidar.BeamStatus → List Rgba
  | .hit => [⟨0, 1, 0, 5 / 10⟩, ⟨0, 1, 0, 8 / 10⟩]
  | .short => [⟨1, 0, 0, 5 / 10⟩, ⟨1, 0, 0, 8 / 10⟩]
  | .long => [⟨0, 0, 1, 5 / 10⟩, ⟨0, 0, 1, 8 / 10⟩]
  | .totalReflection => [⟨0, 1, 0, 2 / 10⟩, ⟨0, 1, 0, 2 / 10⟩]

/-- mcl_3dl.cpp:468-595, the rays from marker number `id` on.  `origins[label]` out of range is
undefined. -/
noncomputable def rayMarkers (b : Lidar.Beam) (c : Lidar.Caster C) (origins : List (Vec3 ℝ)) (e : State6 ℝ) :
    List Point → ℕ → C → Outcome (List Marker × C)
  | [], _, w => .ok ([], w)
  | p :: ps, id, w =>
    match origins[p.attr]? with
    | none => .ub "origins[beam_header_id] out of range"
    | some o =>
      let pos := e.pos + e.rot.rotate o
      (Lidar.getBeamStatus b c pos p.pos w).bind fun r =>
      let hit : List Marker := if r.1 = .long then [] else [⟨id, .collision, [], [collisionColor r.1]⟩]
      (rayMarkers b c origins e ps (id + hit.length + 1) r.2).bind fun rest =>
      .ok (hit ++ ⟨id + hit.length, .ray, [pos, p.pos], rayColors r.1⟩ :: rest.1, rest.2)

/-- mcl_3dl.cpp:597-625: the sample points. -/
noncomputable def sampleMarkers : List Point → ℕ → List Marker
  | [], _ => []
  | p :: ps, id => ⟨id, .sample, [p.pos], [⟨1, 0, 1, 1⟩]⟩ :: sampleMarkers ps (id + 1)

/-- mcl_3dl.cpp:464-628. -/
noncomputable def markersOf (P : Params) (lib : Lib C) (m : MapSt) (p : Prep) (e : State6 ℝ) (w : C) :
    Outcome (List Marker × C) :=
  (rayMarkers p.beam (caster P lib m) p.origins e (e.transform p.beamPc) 0 w).bind fun r =>
  .ok (r.1 ++ sampleMarkers (e.transform p.likePc) r.1.length, r.2)

/-! ## Jump, smoothing, transform: mcl_3dl.cpp:630-702 -/

/-- mcl_3dl.cpp:635-661: did the pose jump, and are the error integrals reset. -/
noncomputable def jumpOf (P : Params) (n : ℕ) (prev e : State6 ℝ) : Bool × Bool :=
  if P.numParticles < (n : ℤ) then (true, false)
  else if P.jumpDist < (e.pos - prev.pos).norm ∨
      P.jumpAng < |(e.rot.inv * prev.rot).getAxisAng.2| then (true, true)
  else (false, false)

/-- The result of the smoothing. -/
structure Smooth where
  fPos : FiltVec3 ℝ
  fAng : FiltVec3 ℝ
  mapPos : Vec3 ℝ
  mapRot : Quat ℝ
  /-- the published pose -/
  pos : Vec3 ℝ
  rot : Quat ℝ

/-- mcl_3dl.cpp:630-633, 669-676 and 683-684. -/
noncomputable def smooth (odom : State6 ℝ) (fPos fAng : FiltVec3 ℝ) (e : State6 ℝ) (jump : Bool) : Smooth :=
  let mapPos := e.pos - (e.rot * odom.rot.inv).rotate odom.pos
  let rpy := (e.rot * odom.rot.inv).getRPY
  let fAng := (if jump then fAng.set rpy else fAng).input rpy
  let fPos := (if jump then fPos.set mapPos else fPos).input mapPos
  let mapRot := Quat.ofRPY fAng.x
  ⟨fPos, fAng, fPos.x, mapRot, fPos.x + mapRot.rotate odom.pos, mapRot * odom.rot⟩

/-- mcl_3dl.cpp:662-699: the transforms. -/
def transformsOf (P : Params) (stamp : ℝ) (s : Smooth) : List TfMsg :=
  [⟨stamp, P.mapFrame, P.odomFrame, ⟨s.mapPos, s.mapRot⟩⟩,
   ⟨stamp, P.mapFrame, P.floorFrame, ⟨⟨0, 0, s.pos.z⟩, 1⟩⟩]

/-! ## Convergence and match output: mcl_3dl.cpp:727-805 -/

/-- mcl_3dl.cpp:727-751; `cov j k` is entry `j * 6 + k` of the published covariance. -/
noncomputable def convergenceOf (P : Params) (warn : Vec3 ℝ) (fixCnt : ℕ) (cov : ℕ → ℕ → ℝ)
    (old : Convergence) : Convergence :=
  let c1 :=
    if fixCnt = 0 ∧ (warn.x < Real.sqrt (cov 0 0 + cov 1 1) ∨ warn.y < Real.sqrt (cov 2 2) ∨
        warn.z < Real.sqrt (cov 5 5)) then .largeStd
    else old
  if c1 ≠ .largeStd ∧ Real.sqrt (cov 0 0 + cov 1 1 + cov 2 2) < P.fixDist ∧
      |Real.sqrt (cov 3 3 + cov 4 4 + cov 5 5)| < P.fixAng then .converged
  else c1

/-- mcl_3dl.cpp:778-788: the points without a map point near, and those with a near one. -/
noncomputable def splitMatch (P : Params) (lib : Lib C) (m : MapSt) :
    List Point → Outcome (List (Vec3 ℝ) × List (Vec3 ℝ))
  | [] => .ok ([], [])
  | p :: ps =>
    (search P lib m p.pos P.unmatchOutputDist).bind fun r =>
    (splitMatch P lib m ps).bind fun rest =>
    match r with
    | [] => .ok (rest.1, p.pos :: rest.2)
    | (_, sq) :: _ =>
      if sq < P.matchOutputDist * P.matchOutputDist then .ok (p.pos :: rest.1, rest.2)
      else .ok rest

/-- mcl_3dl.cpp:761-805: the new `match_output_last_` and the messages. -/
noncomputable def matchOutput (P : Params) (lib : Lib C) (env : Env) (m : MapSt) (stamp last : ℝ)
    (pts : List Point) : Outcome (ℝ × List Out) :=
  if (last + P.matchOutputInterval < stamp ∨ stamp + 1 < last) ∧ (env.subMatched ∨ env.subUnmatched) then
    (splitMatch P lib m pts).bind fun r =>
    .ok (stamp, (if env.subMatched then [.matched stamp r.1] else []) ++
      (if env.subUnmatched then [.unmatched stamp r.2] else []))
  else .ok (last, [])

/-- mcl_3dl.cpp:753-759: `*pc_all_accum_ += …`. -/
def accumAll (P : Params) (old : Option (List Point)) (pts : List Point) : Outcome (Option (List Point)) :=
  if P.outputPcd then
    match old with
    | none => .ub "null pc_all_accum_"
    | some a => .ok (some (a ++ pts))
  else .ok old

/-! ## Update of the particles and of the status: mcl_3dl.cpp:809-897 -/

/-- mcl_3dl.cpp:817-825 `update_noise_func`, for each particle. -/
noncomputable def driftFilter (P : Params) (env : Env) (f : Filter) : Filter :=
  { f with particles := f.particles.mapIdx fun i p => { p with state := { p.state with
      noiseLL := (env.driftNoise i).1 * P.errLinLin
      noiseLA := (env.driftNoise i).2.1 * P.errLinAng
      noiseAA := (env.driftNoise i).2.2.1 * P.errAngAng
      noiseAL := (env.driftNoise i).2.2.2 * P.errAngLin } } }

/-- mcl_3dl.cpp:853-864: expansion resetting. -/
noncomputable def expandFilter (P : Params) (env : Env) (ratioMax : ℝ) (f : Filter) : Outcome Filter :=
  if ratioMax < P.matchRatioThresh then addNoise env 1 P.expansionVar f else .ok f

/-- mcl_3dl.cpp:866-871: the time since the last localization, between 0 and 1. -/
noncomputable def clampDt (dt : ℝ) : ℝ := if 1 < dt then 1 else if dt < 0 then 0 else dt

/-- mcl_3dl.cpp:875-888: the number of particles after global localization.  The result of
`getParticleSize() * 0.75` is truncated. -/
noncomputable def reduceFilter (P : Params) (env : Env) (f : Filter) : Outcome Filter :=
  if P.numParticles < (f.particles.length : ℤ) then
    let reduced : ℤ := ((3 * f.particles.length / 4 : ℕ) : ℤ)
    resizeFilter env f (if P.numParticles < reduced then reduced else P.numParticles)
  else .ok f

/-- mcl_3dl.cpp:887: `1 + std::ceil(lpf_step) * 3.0` as a `size_t`; converting a negative number is
undefined. -/
noncomputable def fixCount (P : Params) : Outcome ℕ :=
  if 1 + ⌈P.lpfStep⌉ * 3 < 0 then .ub "negative double converted to size_t"
  else .ok (1 + ⌈P.lpfStep⌉ * 3).toNat

/-- mcl_3dl.cpp:875-891: the new `global_localization_fix_cnt_`; `n` is the number of particles. -/
noncomputable def newFixCount (P : Params) (n fixCnt : ℕ) : Outcome ℕ :=
  if P.numParticles < (n : ℤ) then fixCount P else .ok fixCnt

/-- mcl_3dl.cpp:853-893: which status code is published. -/
noncomputable def statusCode (P : Params) (ratioMax : ℝ) (fixCnt : ℕ) (old : StatusCode) : StatusCode :=
  if fixCnt ≠ 0 then .globalLocalization
  else if ratioMax < P.matchRatioThresh then .expansionResetting
  else old

/-- mcl_3dl.cpp:398-897: the part of `measure` after the preparation. -/
noncomputable def localize (P : Params) (lib : Lib C) (env : Env) (m : MapSt) (odo : OdoSt) (warn : Vec3 ℝ)
    (loc : LocSt C) (header : Header) (p : Prep) : Outcome (LocSt C × List Out) :=
  (weighLoop P lib m p loc.pf.particles ⟨loc.caster, 1, 0⟩).bind fun w =>
  let pf1 := biasFilter P loc.statePrev (measureWith loc.pf w.1)
  let e := estimate pf1
  pf1.max.bind fun _ =>
  (markersOf P lib m p e w.2.caster).bind fun mk =>
  let j := jumpOf P pf1.particles.length loc.statePrev e
  let pf2 := if j.2 then pf1.predict resetInteg else pf1
  let s := smooth odo.odom loc.fPos loc.fAng e j.1
  let tfs := transformsOf P (outStamp P odo loc.tolBase (env.now 1)) s
  (covarianceOf P env 1 pf2).bind fun cov =>
  let conv := convergenceOf P warn loc.fixCnt cov loc.status.convergence
  let final : State6 ℝ := { e with pos := s.pos, rot := s.rot }
  (accumAll P loc.allAccum (final.transform p.likePc)).bind fun allAccum =>
  (matchOutput P lib env m header.stamp loc.matchLast (final.transform p.full)).bind fun mo =>
  (resampleFilter env 0 P.resampleVar pf2).bind fun pf3 =>
  let pf4 := driftFilter P env pf3
  (expandFilter P env w.2.ratioMax pf4).bind fun pf5 =>
  let rate := loc.rate.input (clampDt (env.now 3 - loc.localizedLast))
  (reduceFilter P env pf5).bind fun pf6 =>
  (newFixCount P pf5.particles.length loc.fixCnt).bind fun fix =>
  let status : Status :=
    { loc.status with
      convergence := conv
      status := statusCode P w.2.ratioMax fix loc.status.status
      matchRatio := w.2.ratioMax
      particleSize := pf6.particles.length }
  .ok (
    { pf := pf6
      statePrev := e
      fPos := s.fPos
      fAng := s.fAng
      rate := rate
      localizedLast := env.now 3
      tolBase := rate.out
      fixCnt := fix - 1
      status := status
      matchLast := mo.1
      beam := p.beam
      like := p.like
      caster := mk.2
      allAccum := allAccum
      stats := p.stats },
    [.markers mk.1] ++ (if P.publishTf then [.transforms tfs] else []) ++
      [.pose header.stamp P.mapFrame s.pos s.rot cov] ++ mo.2 ++
      [publishParticles P odo loc.tolBase (env.now 2) pf2, publishStatus status pf6])

/-- mcl_3dl.cpp:306-391 and the rest: `measure` on the members it reads and writes.  The result: the new
counter, local cloud, localization members and the output. -/
noncomputable def measureCore (P : Params) (lib : Lib C) (env : Env) (m : MapSt) (odo : OdoSt) (warn : Vec3 ℝ)
    (acc : AccSt) (loc : LocSt C) (cnt : ℕ) :
    Outcome (ℕ × Option (List Point) × LocSt C × List Out) :=
  let cnt := (cnt + 1) % 2 ^ 64
  if Params.toSize P.skipMeasure = 0 then .ub "integer division by zero"
  else if cnt % Params.toSize P.skipMeasure ≠ 0 then .ok (cnt, acc.cloud, loc, [.batch false])
  else
    match acc.headers.getLast? with
    | none => .ok (cnt, acc.cloud, loc, [.batch true])
    | some header =>
      (prepare P lib env acc loc header).bind fun r =>
      match r with
      | .noTf => .ok (cnt, acc.cloud, loc, [.batch true])
      | .noOrigin cloud => .ok (cnt, some cloud, loc, [.batch true])
      | .ready p =>
        if p.likePc.length = 0 then
          -- mcl_3dl.cpp:385-391
          let status := { loc.status with error := .pointsNotFound }
          .ok (cnt, some p.cloud, { loc with status := status, beam := p.beam, like := p.like, stats := p.stats },
            [.batch true, publishStatus status loc.pf])
        else
          (localize P lib env m odo warn loc header p).bind fun r =>
          .ok (cnt, some p.cloud, r.1, .batch true :: r.2)

end Node
end Mcl3dl
