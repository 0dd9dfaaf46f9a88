import Verif.Model.NodeMeasure

/-!
# Model of the callbacks of `MCL3dlNode`

Source: /repo/src/mcl_3dl.cpp.
-/

namespace Mcl3dl
namespace Node

variable {C : Type}

/-! ## Map: mcl_3dl.cpp:127-153, 1150-1192, 1350-1378 -/

/-- The points of a converted message. -/
def pointsOf (l : List Conv.Point) : List Point := l.map fun p => ⟨p.pos, p.label⟩

/-- `pcl_conversions::toPCL(stamp)`: microseconds. -/
noncomputable def pclStamp (t : ℝ) : ℕ := ⌊t * 1000000⌋₊

/-- mcl_3dl.cpp:1350-1378 `cbMapUpdateTimer`. -/
noncomputable def mapTimer (P : Params) (env : Env) (m : MapSt) : Outcome (MapSt × List Out) :=
  if m.hasMap then
    match m.update with
    | some u =>
      -- lines 1357-1358: a new object if pc_map2_ is null
      let heap : List MapCloud := match m.merged with
        | some _ => m.heap
        | none => m.heap ++ [⟨0, []⟩]
      let r := m.merged.getD m.heap.length
      match m.base.bind fun b => heap[b]? with
      | none => .ub "null pc_map_"
      | some b =>
        let cloud : MapCloud := ⟨pclStamp (env.now 0), b.points ++ u⟩
        .ok ({ m with heap := heap.set r cloud, merged := some r, update := none,
                      kd := ChunkedKdtree.setInputCloud (kdCfg P) (cloud.points.map Pt.pos),
                      kdCloud := some r, version := m.version + 1 },
          [.updatedMap cloud.points])
    | none =>
      match m.merged with
      | some _ => .ok (m, [])
      | none =>
        match m.base with
        | none => .ub "null pc_map_"
        | some b =>
          match m.heap[b]? with
          | none => .ub "dangling pc_map_"
          | some c =>
            .ok ({ m with merged := some b,
                          kd := ChunkedKdtree.setInputCloud (kdCfg P) (c.points.map Pt.pos),
                          kdCloud := some b, version := m.version + 1 },
              [.updatedMap c.points])
  else .ok (m, [])

/-- mcl_3dl.cpp:267-272 `accumClear`. -/
def accumClear (a : AccSt) : AccSt := { a with cloud := some [], headers := [] }

/-- mcl_3dl.cpp:1150-1170 `loadMapCloud`. -/
noncomputable def loadMapCloud (P : Params) (env : Env) (n : Node C) (stamp : ℕ) (pts : List Point) :
    Outcome (Node C × List Out) :=
  let cloud : MapCloud := ⟨stamp, env.voxel P.mapDownsample pts⟩
  let map : MapSt :=
    { n.map with hasMap := true, heap := n.map.heap ++ [cloud], base := some n.map.heap.length,
                 merged := none, update := none }
  (mapTimer P env map).bind fun r =>
  .ok ({ n with map := r.1, acc := { accumClear n.acc with logic := CloudAccum.reset n.acc.logic },
                loc := { n.loc with allAccum := some [] } }, r.2)

/-- mcl_3dl.cpp:127-140 `cbMapcloud`. -/
noncomputable def cbMapcloud (P : Params) (env : Env) (n : Node C) (stamp : ℝ) (msg : Conv.Msg) :
    Outcome (Node C × List Out) :=
  match Conv.fromROSMsg msg [] with
  | (false, _) => .ok ({ n with map := { n.map with hasMap := false } }, [])
  | (true, pts) => loadMapCloud P env n (pclStamp (if stamp ≠ 0 then stamp else env.now 1)) (pointsOf pts)

/-- mcl_3dl.cpp:141-153 `cbMapcloudUpdate`. -/
noncomputable def cbMapcloudUpdate (P : Params) (env : Env) (n : Node C) (msg : Conv.Msg) : Node C :=
  match Conv.fromROSMsg msg [] with
  | (false, _) => n
  | (true, pts) => { n with map := { n.map with update := some (env.voxel P.updateDownsample (pointsOf pts)) } }

/-- mcl_3dl.cpp:1172-1192 `cbLoadPCD`. -/
noncomputable def cbLoadPcd (P : Params) (env : Env) (n : Node C) (file : Option (List Point)) :
    Outcome (Node C × List Out) :=
  match file with
  | none => .ok ({ n with map := { n.map with hasMap := false } }, [.response false])
  | some pts =>
    (loadMapCloud P env n (pclStamp (env.now 1)) pts).bind fun r => .ok (r.1, r.2 ++ [.response true])

/-! ## Clouds: mcl_3dl.cpp:248-302 -/

/-- `tf2::doTransform` on a `PointCloud2`: the first fields named x, y, z are read and rewritten as
floats; a missing field throws `std::runtime_error` (not a `tf2::TransformException`). -/
def transformMsg (t : Tf) (m : Conv.Msg) : Outcome Conv.Msg :=
  match m.fields.findIdx? (fun f => f.name == "x"), m.fields.findIdx? (fun f => f.name == "y"),
      m.fields.findIdx? (fun f => f.name == "z") with
  | some x, some y, some z =>
    .ok { m with asFloat := fun i f =>
      let p := t.point ⟨m.asFloat i x, m.asFloat i y, m.asFloat i z⟩
      if f = x then p.x else if f = y then p.y else if f = z then p.z else m.asFloat i f }
  | _, _, _ => .throws "std::runtime_error: Field does not exist"

/-- mcl_3dl.cpp:274-302 `accumCloud`: the result and the new accumulation members. -/
def accumCloud (P : Params) (env : Env) (header : Header) (msg : Conv.Msg) (a : AccSt) :
    Outcome (Bool × AccSt) :=
  match env.tf P.odomFrame header.frame header.stamp with
  | none => .ok (false, a)
  | some t =>
    (transformMsg t msg).bind fun m =>
    match Conv.fromROSMsg m [] with
    | (false, _) => .ok (false, a)
    | (true, pts) =>
      match a.cloud with
      | none => .ub "null pc_local_accum_"
      | some c =>
        .ok (true, { a with
          cloud := some (c ++ (pointsOf pts).map fun p => { p with attr := a.headers.length % 2 ^ 32 })
          headers := a.headers ++ [header] })

/-- mcl_3dl.cpp:304-898 `measure` on the node. -/
noncomputable def measure (P : Params) (lib : Lib C) (env : Env) (n : Node C) : Outcome (Node C × List Out) :=
  (measureCore P lib env n.map n.odo n.stdWarn n.acc n.loc n.cnt).bind fun r =>
  .ok ({ n with cnt := r.1, acc := { n.acc with cloud := r.2.1 }, loc := r.2.2.1 }, r.2.2.2)

/-- What the callbacks given to the accumulation logic work on: the node and the output so far. -/
abbrev World (C : Type) := Outcome (Node C × List Out)

/-- mcl_3dl.cpp:259-264: the callbacks.  After an exception or undefined behaviour nothing runs any
more. -/
noncomputable def callbacks (P : Params) (lib : Lib C) (env : Env) (header : Header) :
    CloudAccum.Callbacks (World C) Conv.Msg where
  process := fun w => w.bind fun n => (measure P lib env n.1).bind fun r => .ok (r.1, n.2 ++ r.2)
  accumulate := fun msg w =>
    match w with
    | .ok n =>
      match accumCloud P env header msg n.1.acc with
      | .ok (b, a) => (b, .ok ({ n.1 with acc := a }, n.2))
      | .throws e => (false, .throws e)
      | .ub e => (false, .ub e)
    | .throws e => (false, .throws e)
    | .ub e => (false, .ub e)
  clear := fun w => w.bind fun n => .ok ({ n.1 with acc := accumClear n.1.acc }, n.2)

/-- The accumulation parameters, mcl_3dl.cpp:1291-1295. -/
def accCfg (P : Params) : CloudAccum.Cfg := ⟨Params.toSize P.accumCloud, Params.toSize P.totalAccumCloudMax⟩

/-- mcl_3dl.cpp:248-265 `cbCloud`; which accumulation logic is used is decided in lines 1291-1295. -/
noncomputable def cbCloud (P : Params) (lib : Lib C) (env : Env) (n : Node C) (header : Header)
    (msg : Conv.Msg) : Outcome (Node C × List Out) :=
  let n : Node C := { n with loc := { n.loc with status := Status.fresh (env.now 0) } }
  if n.map.hasMap then
    if P.accumCloud = 0 then
      CloudAccum.pushPassThrough msg (callbacks P lib env header) (.ok (n, []))
    else
      (CloudAccum.push (accCfg P) n.acc.logic header.frame msg (callbacks P lib env header)
        (.ok (n, []))).bind fun r =>
      r.2.bind fun w => .ok ({ w.1 with acc := { w.1.acc with logic := r.1 } }, w.2)
  else .ok (n, [])

/-! ## Odometry and IMU: mcl_3dl.cpp:200-247, 941-1018 -/

/-- mcl_3dl.cpp:200-247 `cbOdom` up to a possible call of `cbImu`: the new node and the message for that
call. -/
noncomputable def odomCore (P : Params) (n : Node C) (msg : OdomMsg) : Node C × Option ImuMsg :=
  let odom := State6.ofQuat msg.pos msg.rot
  if n.odo.has then
    let dt := msg.stamp - n.odo.last
    if dt < 0 ∨ 5 < dt then ({ n with odo := { n.odo with odom := odom, has := false } }, none)
    else
      let n :=
        if 1 / 20 < dt then
          let motion := n.odo.motion.setOdoms n.odo.prev odom dt
          { n with
            odo := { n.odo with odom := odom, motion := motion, last := msg.stamp, prev := odom }
            loc := { n.loc with pf := n.loc.pf.predict motion.predict } }
        else { n with odo := { n.odo with odom := odom } }
      (n, if P.fakeImu then some ⟨msg.stamp, msg.frame, odom.rot.rotate ⟨0, 0, 1⟩, msg.rot⟩ else none)
  else ({ n with odo := { n.odo with odom := odom, prev := odom, last := msg.stamp, has := true } }, none)

/-- mcl_3dl.cpp:941-1018 `cbImu` up to a possible call of `cbOdom`. -/
noncomputable def imuCore (P : Params) (env : Env) (n : Node C) (msg : ImuMsg) : Node C × Option OdomMsg :=
  let facc := n.imu.facc.input msg.acc
  if n.imu.has then
    let dt := msg.stamp - n.imu.last
    let n := { n with imu := { n.imu with facc := facc } }
    if dt < 0 ∨ 5 < dt then ({ n with imu := { n.imu with has := false } }, none)
    else if 1 / 20 < dt then
      match env.tf P.baseFrame msg.frame 0 with
      | none => (n, none)
      | some t =>
        let acc := t.rot.rotate facc.x.normalized
        let quat := Quat.ofAxisAng (t.rot.rotate msg.rot.getAxisAng.1) msg.rot.getAxisAng.2
        let model := GravityModel.make P.accVar acc
        ({ n with
            imu := { n.imu with last := msg.stamp, quat := quat }
            loc := { n.loc with pf := n.loc.pf.measure Real.log model.measure } },
         if P.fakeOdom then some ⟨msg.stamp, P.baseFrame, 0, quat⟩ else none)
    else (n, none)
  else ({ n with imu := { n.imu with facc := facc.set 0, last := msg.stamp, has := true } }, none)

/-- The mutual recursion of `cbOdom` and `cbImu`, at most `fuel` calls deep. -/
noncomputable def sensor (P : Params) (env : Env) : ℕ → Node C → OdomMsg ⊕ ImuMsg → Outcome (Node C × List Out)
  | 0, _, _ => .ub "recursion does not end"
  | fuel + 1, n, .inl msg =>
    match odomCore P n msg with
    | (n', none) => .ok (n', [])
    | (n', some im) => (sensor P env fuel n' (.inr im)).bind fun r => .ok (r.1, .synthImu :: r.2)
  | fuel + 1, n, .inr msg =>
    match imuCore P env n msg with
    | (n', none) => .ok (n', [])
    | (n', some om) => (sensor P env fuel n' (.inl om)).bind fun r => .ok (r.1, .synthOdom :: r.2)

/-- Depth given to `sensor`; `sensor_fuel` (Proofs) shows that more is never needed. -/
def depth : ℕ := 4

/-! ## Initial pose, landmark: mcl_3dl.cpp:155-198, 899-940 -/

/-- mcl_3dl.cpp:155-198 `cbPosition`.  Simplification: `tf2::doTransform` of the pose is taken as the product of
the two quaternions (the library goes through a rotation matrix, which may change the sign and, for an
orientation that is not exactly a unit, the length). -/
noncomputable def cbPosition (P : Params) (lib : Lib C) (env : Env) (n : Node C) (msg : PoseMsg) :
    Outcome (Node C × List Out) :=
  if 1 / 10 < |msg.rot.dot msg.rot - 1| then .ok (n, [])
  else
    match env.tf P.mapFrame msg.frame msg.stamp with
    | none => .ok (n, [])
    | some t =>
      let mean := State6.ofQuat (t.point msg.pos) (t.rot * msg.rot)
      let gen := MultiNoise.gen (env.gauss 0 0 1) lib.solve6 mean.meanVec
        (fun i => if h : i < 36 then msg.cov ⟨i, h⟩ else 0)
      (State6.generateN gen n.loc.pf.particles.length 0).bind fun r =>
      let pf := (n.loc.pf.init (pickNoise r.1)).predict resetInteg
      .ok ({ n with map := { n.map with update := none }, loc := { n.loc with pf := pf } },
        [publishParticles P n.odo n.loc.tolBase (env.now 0) pf])

/-- mcl_3dl.cpp:899-940 `cbLandmark`. -/
noncomputable def cbLandmark (P : Params) (env : Env) (n : Node C) (msg : PoseMsg) :
    Outcome (Node C × List Out) :=
  let measured := State6.ofQuat msg.pos msg.rot
  (resampleFilter env 0 P.resampleVar
    (n.loc.pf.measure Real.log (landmarkLikelihood msg.cov measured))).bind fun pf =>
  .ok ({ n with loc := { n.loc with pf := pf } }, [publishParticles P n.odo n.loc.tolBase (env.now 0) pf])

/-! ## Services: mcl_3dl.cpp:1019-1099 -/

/-- mcl_3dl.cpp:1019-1025 `cbResizeParticle`. -/
noncomputable def cbResize (P : Params) (env : Env) (n : Node C) (size : ℤ) : Outcome (Node C × List Out) :=
  (resizeFilter env n.loc.pf size).bind fun pf =>
  .ok ({ n with loc := { n.loc with pf := pf } },
    [publishParticles P n.odo n.loc.tolBase (env.now 0) pf, .response true])

/-- mcl_3dl.cpp:1026-1038 `cbExpansionReset`. -/
noncomputable def cbExpansionReset (P : Params) (env : Env) (n : Node C) : Outcome (Node C × List Out) :=
  (addNoise env 0 P.expansionVar n.loc.pf).bind fun pf =>
  .ok ({ n with loc := { n.loc with pf := pf } },
    [publishParticles P n.odo n.loc.tolBase (env.now 0) pf, .response true])

/-- mcl_3dl.cpp:1076-1096: the loop over the particles.  `cnt` is the number of the direction, `pts` the
points from `pit` on; going past the last point is undefined (an assertion). -/
noncomputable def place (dir : ℤ) (prob : ℝ) (imu : Quat ℝ) :
    List Particle → ℤ → List Point → Outcome (List Particle)
  | [], _, _ => .ok []
  | _ :: _, _, [] => .ub "pit past the end"
  | p :: ps, cnt, pt :: pts =>
    let state := State6.ofQuat pt.pos
      ((Quat.ofRPY ⟨0, 0, 2 * Real.pi * (cnt : ℝ) / (dir : ℝ)⟩ * imu).normalized)
    (if dir ≤ cnt + 1 then place dir prob imu ps 0 pts else place dir prob imu ps (cnt + 1) (pt :: pts)).bind
      fun rest => .ok ({ p with state := state, prob := prob, bias := 1 } :: rest)

/-- mcl_3dl.cpp:1048-1074: the points on which particles are placed. -/
noncomputable def standingPoints (P : Params) (lib : Lib C) (env : Env) (pts : List Point) : List Point :=
  let grid := env.voxel ⟨P.globalGrid, P.globalGrid, P.globalGrid⟩ pts
  grid.filter fun p =>
    (lib.flann (grid.map Pt.pos) ⟨p.pos.x, p.pos.y, p.pos.z + (1 / 100 + P.globalGrid)⟩ P.globalGrid 1).isEmpty

/-- mcl_3dl.cpp:1039-1099 `cbGlobalLocalization`. -/
noncomputable def cbGlobalLocalization (P : Params) (lib : Lib C) (env : Env) (n : Node C) :
    Outcome (Node C × List Out) :=
  if n.map.hasMap then
    match n.map.base.bind fun b => n.map.heap[b]? with
    | none => .ub "null pc_map_"
    | some c =>
      let points := standingPoints P lib env c.points
      (resizeFilter env n.loc.pf (points.length * P.divYaw)).bind fun pf =>
      (place P.divYaw (1 / (points.length : ℝ)) n.imu.quat pf.particles 0 points).bind fun ps =>
      .ok ({ n with loc := { n.loc with pf := { pf with particles := ps } } }, [.response true])
  else .ok (n, [.response false])

/-! ## The node -/

/-- One callback. -/
noncomputable def step (P : Params) (lib : Lib C) (env : Env) (n : Node C) : Event → Outcome (Node C × List Out)
  | .mapcloud stamp msg => cbMapcloud P env n stamp msg
  | .mapcloudUpdate msg => .ok (cbMapcloudUpdate P env n msg, [])
  | .loadPcd file => cbLoadPcd P env n file
  | .timer => (mapTimer P env n.map).bind fun r => .ok ({ n with map := r.1 }, r.2)
  | .cloud header msg => cbCloud P lib env n header msg
  | .odom msg => sensor P env depth n (.inl msg)
  | .imu msg => sensor P env depth n (.inr msg)
  | .initialpose msg => cbPosition P lib env n msg
  | .landmark msg => cbLandmark P env n msg
  | .resize size => cbResize P env n size
  | .expansionReset => cbExpansionReset P env n
  | .globalLocalization => cbGlobalLocalization P lib env n
  | .reconfigure w => .ok ({ n with stdWarn := w }, [])

/-- mcl_3dl.cpp:1195-1203, 1272-1318 constructor and `configure`: the initial state.  `motion0` holds the uninitialised members of the
motion model; a negative number of particles is a `size_t` that no vector can have. -/
noncomputable def start (P : Params) (lib : Lib C) (env : Env) (motion0 : Motion ℝ) : Outcome (Node C) :=
  if P.numParticles < 0 then .throws "std::length_error"
  else
    let f : Filter := PF.Filter.new State6.default env.junk P.numParticles.toNat
    (env.noiseStates 0 P.initialPose P.initialPoseStd P.numParticles.toNat).bind fun ns =>
    .ok
      { map := ⟨false, [], none, none, none, fun _ => [], none, 0⟩
        acc := ⟨CloudAccum.St.init, none, []⟩
        odo := ⟨false, State6.default, State6.default, 0,
          { motion0 with linTc := P.integLinTc, angTc := P.integAngTc }⟩
        imu := ⟨false, 0, 1, FiltVec3.new .lpf ⟨P.accLpfStep, P.accLpfStep, P.accLpfStep⟩ 0 false⟩
        loc :=
          { pf := f.init (pickNoise ns)
            statePrev := State6.default
            fPos := FiltVec3.new .lpf ⟨P.lpfStep, P.lpfStep, P.lpfStep⟩ 0 false
            fAng := FiltVec3.new .lpf ⟨P.lpfStep, P.lpfStep, P.lpfStep⟩ 0 true
            rate := Filt.new .lpf 5 0 false
            localizedLast := 0
            tolBase := 0
            fixCnt := 0
            status := Status.fresh 0
            matchLast := 0
            beam := Lidar.Beam.make P.beam
            like := Lidar.Like.make P.like
            caster := lib.caster0
            allAccum := none
            stats := none }
        cnt := 0
        stdWarn := P.stdWarn }

/-- A history: the events with what each callback got from outside. -/
abbrev History := List (Event × Env)

/-- Running a history: the final state and the output of each callback. -/
noncomputable def run (P : Params) (lib : Lib C) (n : Node C) : History → Outcome (Node C × List (List Out))
  | [] => .ok (n, [])
  | (ev, env) :: h =>
    (step P lib env n ev).bind fun r => (run P lib r.1 h).bind fun s => .ok (s.1, r.2 :: s.2)

/-! ## The library objects the node really uses -/

/-- The state of either caster. -/
abbrev CastSt := DDA.St ⊕ Option KDRay.St

/-- mcl_3dl.cpp:1340-1348 the destructor: the points written to `mcl_3dl.pcd`, or `none` if no file is
written.  What the library does with an empty cloud (some versions throw) is not modelled. -/
def shutdown {C : Type} (P : Params) (n : Node C) : Option (List Point) :=
  if P.outputPcd then n.loc.allAccum else none

/-- lidar_measurement_model_beam.cpp:69-79: the caster chosen by the parameters. -/
noncomputable def realCaster (P : Params) (cloud : Option DDA.Cloud)
    (search : Vec3 ℝ → ℝ → Outcome (List (ℕ × ℝ))) : Lidar.Caster CastSt :=
  let g := P.mapDownsample
  let dda := Lidar.ddaCaster ⟨g.x, g.y, g.z, P.ddaGridSize, P.rayAngleHalf, P.beam.hitRange⟩ cloud
  let kd := Lidar.kdCaster ⟨g.x, g.y, g.z, P.beam.hitRange⟩ search ((cloud.map DDA.Cloud.pts).getD [])
  { setRay := fun c b e =>
      match c with
      | .inl c => (dda.setRay c b e).bind fun c => .ok (.inl c)
      | .inr c => (kd.setRay c b e).bind fun c => .ok (.inr c)
    next := fun c =>
      match c with
      | .inl c => (dda.next c).bind fun r => .ok (r.1, .inl r.2)
      | .inr c => (kd.next c).bind fun r => .ok (r.1, .inr r.2) }

/-- The library of the node with parameters `P`; the kd-tree search and the eigen solvers remain
parameters. -/
noncomputable def realLib (P : Params) (flann : List (Vec3 ℝ) → Vec3 ℝ → ℝ → ℕ → List (ℕ × ℝ))
    (solve3 : Matrix (Fin 3) (Fin 3) ℝ → (Fin 3 → ℝ) × Matrix (Fin 3) (Fin 3) ℝ)
    (solve6 : (Fin 6 → Fin 6 → ℝ) → (Fin 6 → ℝ) × (Fin 6 → Fin 6 → ℝ)) : Lib CastSt where
  flann := flann
  caster := realCaster P
  caster0 := if P.useDda then .inl DDA.St.fresh else .inr none
  solve3 := solve3
  solve6 := solve6

end Node
end Mcl3dl
