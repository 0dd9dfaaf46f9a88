import Verif.Model.Lidar
import Mathlib.Algebra.Order.Round

/-!
# Model of the parameters and of the compatibility layer

Source: /repo/src/parameters.cpp, /repo/include/mcl_3dl/parameters.h,
/repo/include/mcl_3dl_compat/compatibility.h.

The parameter server is a partial function from resolved names (relative to the node's private
namespace) to typed values.  `nh.getParam` converts between int and double as roscpp does and fails on
any other type.  Decimal literals are exact; the narrowing of `double` to `float` is not modelled.
-/

namespace Mcl3dl

/-- An XML-RPC value (the types the code asks for). -/
inductive PVal
  | bool (b : Bool)
  | int (i : ℤ)
  | dbl (r : ℝ)
  | str (s : String)

/-- The parameter server. -/
abbrev Server := String → Option PVal

namespace Server

/-- `nh.getParam(name, double&)` of roscpp; `none` is failure. -/
noncomputable def getDouble (s : Server) (name : String) : Option ℝ :=
  match s name with
  | some (.int i) => some i
  | some (.dbl r) => some r
  | _ => none

/-- roscpp's conversion of a double value to `int`: `if (fmod(d, 1.0) < 0.5) d = floor(d); else d = ceil(d);`. -/
noncomputable def toInt (d : ℝ) : ℤ :=
  let trunc : ℤ := if 0 ≤ d then ⌊d⌋ else ⌈d⌉
  if d - trunc < 1 / 2 then ⌊d⌋ else ⌈d⌉

/-- `nh.getParam(name, int&)` of roscpp. -/
noncomputable def getInt (s : Server) (name : String) : Option ℤ :=
  match s name with
  | some (.int i) => some i
  | some (.dbl r) => some (toInt r)
  | _ => none

/-- `nh.getParam(name, bool&)`. -/
def getBool (s : Server) (name : String) : Option Bool :=
  match s name with
  | some (.bool b) => some b
  | _ => none

/-- `nh.getParam(name, std::string&)`. -/
def getStr (s : Server) (name : String) : Option String :=
  match s name with
  | some (.str b) => some b
  | _ => none

/-- `nh.param(name, var, default)` for `double` and `float`. -/
noncomputable def dblD (s : Server) (name : String) (d : ℝ) : ℝ := (s.getDouble name).getD d
/-- `nh.param(name, var, default)` for `int`. -/
noncomputable def intD (s : Server) (name : String) (d : ℤ) : ℤ := (s.getInt name).getD d
/-- `nh.param(name, var, default)` for `bool`. -/
def boolD (s : Server) (name : String) (d : Bool) : Bool := (s.getBool name).getD d
/-- `nh.param(name, var, default)` for `std::string`. -/
def strD (s : Server) (name : String) (d : String) : String := (s.getStr name).getD d

/-- `nh.setParam(name, value)`. -/
def set (s : Server) (name : String) (v : PVal) : Server := fun n => if n = name then some v else s n

end Server

namespace Compat

/-- compatibility.h:47-49. -/
def currentLevel : ℤ := 1
/-- compatibility.h:47-49. -/
def supportedLevel : ℤ := 0
/-- compatibility.h:47-49. -/
def defaultLevel : ℤ := supportedLevel

/-- compatibility.h:55-61 `getCompat`. -/
noncomputable def getCompat (s : Server) : ℤ := s.intD "compatible" defaultLevel

/-- compatibility.h:62-91 `checkCompatMode`. -/
noncomputable def checkCompatMode (s : Server) : Outcome Unit :=
  if getCompat s < supportedLevel then .throws "outdated configuration"
  else if getCompat s > currentLevel then .throws "futuredated configuration"
  else .ok ()

/-- A topic or service name: in the node's public or private namespace. -/
structure Name where
  isPrivate : Bool
  name : String
  deriving DecidableEq

/-- compatibility.h:99-150 `subscribe`, 151-174 `advertise`, 175-198 `advertiseService`: which name is
used. -/
noncomputable def choose (s : Server) (new old : Name) : Name :=
  if getCompat s ≠ currentLevel then old else new

/-- compatibility.h:200-224 `paramRename<double>`.  `junk` is the value of the uninitialised local
variable, which is what gets written when the old parameter is not a number. -/
noncomputable def paramRename (junk : ℝ) (s : Server) (new old : String) : Server :=
  match s old with
  | none => s
  | some _ =>
    match s new with
    | some _ => s
    | none => s.set new (.dbl ((s.getDouble old).getD junk))

end Compat

/-- The members of `Parameters` (parameters.h:137-212) and of the three parameter classes it points to
(parameters.h:48-134).  Integers keep their type; conversions to `size_t` are done where the code does
them. -/
structure Params where
  fakeImu : Bool
  fakeOdom : Bool
  mapFrame : String
  baseFrame : String
  odomFrame : String
  floorFrame : String
  mapDownsample : Vec3 ℝ
  downsample : Vec3 ℝ
  updateDownsample : Vec3 ℝ
  mapGridMin : ℝ
  mapGridMax : ℝ
  mapUpdateInterval : ℝ
  distWeight : Vec3 ℝ
  globalGrid : ℝ
  divYaw : ℤ
  numParticles : ℤ
  resampleVar : State6 ℝ
  expansionVar : State6 ℝ
  matchRatioThresh : ℝ
  errLinLin : ℝ
  errLinAng : ℝ
  errAngLin : ℝ
  errAngAng : ℝ
  integLinTc : ℝ
  integLinSigma : ℝ
  integAngTc : ℝ
  integAngSigma : ℝ
  lpfStep : ℝ
  accLpfStep : ℝ
  accVar : ℝ
  jumpDist : ℝ
  jumpAng : ℝ
  fixDist : ℝ
  fixAng : ℝ
  biasVarDist : ℝ
  biasVarAng : ℝ
  skipMeasure : ℤ
  accumCloud : ℤ
  totalAccumCloudMax : ℤ
  matchOutputInterval : ℝ
  tfTolerance : ℝ
  matchOutputDist : ℝ
  unmatchOutputDist : ℝ
  publishTf : Bool
  outputPcd : Bool
  stdWarn : Vec3 ℝ
  mapChunk : ℝ
  initialPose : State6 ℝ
  initialPoseStd : State6 ℝ
  useNormalSampler : Bool
  samplerPerform : ℝ
  samplerMaxRatio : ℝ
  samplerMaxWeight : ℝ
  samplerRange : ℝ
  like : Lidar.LikeParams
  beam : Lidar.BeamParams
  useDda : Bool
  rayAngleHalf : ℝ
  ddaGridSize : ℝ

namespace Params

/-- Conversion of an `int` to `size_t` (64 bit). -/
def toSize (i : ℤ) : ℕ := (i % 2 ^ 64).toNat

/-- Conversion of an `int` to `uint32_t`. -/
def toU32 (i : ℤ) : ℕ := (i % 2 ^ 32).toNat

/-- `std::lround`: nearest integer, halves away from zero. -/
noncomputable def lround (x : ℝ) : ℤ := if 0 ≤ x then ⌊x + 1 / 2⌋ else -⌊-x + 1 / 2⌋

/-- parameters.cpp:67-83, the renamed parameters in order: new name, old name. -/
def renames : List (String × String) :=
  [("likelihood/clip_near", "clip_near"), ("likelihood/clip_far", "clip_far"),
   ("likelihood/clip_z_min", "clip_z_min"), ("likelihood/clip_z_max", "clip_z_max"),
   ("likelihood/match_dist_min", "match_dist_min"), ("likelihood/match_dist_flat", "match_dist_flat"),
   ("likelihood/match_weight", "match_weight"), ("likelihood/num_points", "num_points"),
   ("likelihood/num_points_global", "num_points_global"),
   ("beam/clip_near", "clip_beam_near"), ("beam/clip_far", "clip_beam_far"),
   ("beam/clip_z_min", "clip_beam_z_min"), ("beam/clip_z_max", "clip_beam_z_max"),
   ("beam/num_points", "num_points_beam"), ("beam/beam_likelihood", "beam_likelihood"),
   ("beam/ang_total_ref", "ang_total_ref")]

/-- parameters.cpp:67-83: the server after the renaming. -/
noncomputable def rename (junk : String → ℝ) (s : Server) : Server :=
  renames.foldl (fun s r => Compat.paramRename (junk r.1) s r.1 r.2) s

/-- parameters.cpp:212-245. -/
noncomputable def loadLike (s : Server) : Lidar.LikeParams where
  numDefault := toSize (s.intD "likelihood/num_points" 96)
  numGlobal := toSize (s.intD "likelihood/num_points_global" 8)
  clip :=
    { near := s.dblD "likelihood/clip_near" (1 / 2)
      far := s.dblD "likelihood/clip_far" 10
      zMin := s.dblD "likelihood/clip_z_min" (-2)
      zMax := s.dblD "likelihood/clip_z_max" 2 }
  matchWeight := s.dblD "likelihood/match_weight" 5
  matchDistMin := s.dblD "likelihood/match_dist_min" (1 / 5)
  matchDistFlat := s.dblD "likelihood/match_dist_flat" (1 / 20)

/-- parameters.cpp:247-287 without the casters' parameters. -/
noncomputable def loadBeam (s : Server) : Lidar.BeamParams where
  numDefault := toSize (s.intD "beam/num_points" 3)
  numGlobal := toSize (s.intD "beam/num_points_global" 0)
  clip :=
    { near := s.dblD "beam/clip_near" (1 / 2)
      far := s.dblD "beam/clip_far" 4
      zMin := s.dblD "beam/clip_z_min" (-2)
      zMax := s.dblD "beam/clip_z_max" 2 }
  likelihoodMin := s.dblD "beam/beam_likelihood" (1 / 5)
  angTotalRef := s.dblD "beam/ang_total_ref" (Real.pi / 6)
  -- static_cast<int>(0xFFFFFFFF) is -1
  filterLabelMax := toU32 (s.intD "beam/filter_label_max" (-1))
  shortOnly := s.boolD "beam/add_penalty_short_only_mode" true
  hitRange := s.dblD "beam/hit_range" (3 / 10)

open Classical in
/-- parameters.cpp:289-310: the grid size of the DDA caster; the default of parameters.h:110 if it is
not used. -/
noncomputable def loadDdaGrid (s : Server) (grid : Vec3 ℝ) : ℝ :=
  if s.boolD "beam/use_raycast_using_dda" false then
    let size := s.dblD "beam/dda_grid_size" (1 / 5)
    let gridMax := max (max grid.x grid.y) grid.z
    if size < gridMax then gridMax else size
  else 1 / 5

/-- `dynamic_reconfigure`: the configuration value of a threshold (cfg/MCL3DLParams.cfg: default and
maximum `sys.float_info.max`, minimum 0), as the initial callback gets it. -/
noncomputable def configThresh (s : Server) (name : String) : ℝ :=
  let dblMax : ℝ := (2 - 2 ^ (-52 : ℤ)) * 2 ^ 1023
  max 0 (min dblMax (s.dblD name dblMax))

/-- src/parameters.cpp:62-65 and 85-311: the parameters read from the server after the renaming. -/
noncomputable def loadFrom (junk : String → ℝ) (s : Server) (fakeImu fakeOdom : Bool) : Params :=
  let grid : Vec3 ℝ := ⟨s.dblD "map_downsample_x" (1 / 10), s.dblD "map_downsample_y" (1 / 10),
    s.dblD "map_downsample_z" (1 / 10)⟩
  let gridAng := s.dblD "global_localization_grid_ang" (524 / 1000)
  let accum := s.intD "accum_cloud" 1
  let useNormal := s.boolD "use_random_sampler_with_normal" false
  let useDda := s.boolD "beam/use_raycast_using_dda" false
  { fakeImu := fakeImu
    fakeOdom := fakeOdom
    mapFrame := s.strD "map_frame" "map"
    baseFrame := s.strD "robot_frame" "base_link"
    odomFrame := s.strD "odom_frame" "odom"
    floorFrame := s.strD "floor_frame" "floor"
    mapDownsample := grid
    downsample := ⟨s.dblD "downsample_x" (1 / 10), s.dblD "downsample_y" (1 / 10),
      s.dblD "downsample_z" (1 / 20)⟩
    updateDownsample := ⟨s.dblD "update_downsample_x" (3 / 10), s.dblD "update_downsample_y" (3 / 10),
      s.dblD "update_downsample_z" (3 / 10)⟩
    mapGridMin := min (min grid.x grid.y) grid.z
    mapGridMax := max (max grid.x grid.y) grid.z
    mapUpdateInterval := s.dblD "map_update_interval_interval" 2
    distWeight := ⟨s.dblD "dist_weight_x" 1, s.dblD "dist_weight_y" 1, s.dblD "dist_weight_z" 5⟩
    globalGrid := s.dblD "global_localization_grid_lin" (3 / 10)
    divYaw := if gridAng = 0 then ⌊junk "lround"⌋ else lround (2 * Real.pi / gridAng)
    numParticles := s.intD "num_particles" 64
    resampleVar := State6.ofRPY
      ⟨s.dblD "resample_var_x" (1 / 20), s.dblD "resample_var_y" (1 / 20), s.dblD "resample_var_z" (1 / 20)⟩
      ⟨s.dblD "resample_var_roll" (1 / 20), s.dblD "resample_var_pitch" (1 / 20),
      s.dblD "resample_var_yaw" (1 / 20)⟩
    expansionVar := State6.ofRPY
      ⟨s.dblD "expansion_var_x" (1 / 5), s.dblD "expansion_var_y" (1 / 5), s.dblD "expansion_var_z" (1 / 5)⟩
      ⟨s.dblD "expansion_var_roll" (1 / 20), s.dblD "expansion_var_pitch" (1 / 20),
      s.dblD "expansion_var_yaw" (1 / 20)⟩
    matchRatioThresh := s.dblD "match_ratio_thresh" 0
    errLinLin := s.dblD "odom_err_lin_lin" (1 / 10)
    errLinAng := s.dblD "odom_err_lin_ang" (1 / 20)
    errAngLin := s.dblD "odom_err_ang_lin" (1 / 20)
    errAngAng := s.dblD "odom_err_ang_ang" (1 / 20)
    integLinTc := s.dblD "odom_err_integ_lin_tc" 10
    integLinSigma := s.dblD "odom_err_integ_lin_sigma" 100
    integAngTc := s.dblD "odom_err_integ_ang_tc" 10
    integAngSigma := s.dblD "odom_err_integ_ang_sigma" 100
    lpfStep := s.dblD "lpf_step" 16
    accLpfStep := s.dblD "acc_lpf_step" 128
    accVar := s.dblD "acc_var" (Real.pi / 4)
    jumpDist := s.dblD "jump_dist" 1
    jumpAng := s.dblD "jump_ang" (157 / 100)
    fixDist := s.dblD "fix_dist" (1 / 5)
    fixAng := s.dblD "fix_ang" (1 / 10)
    biasVarDist := s.dblD "bias_var_dist" 2
    biasVarAng := s.dblD "bias_var_ang" (157 / 100)
    skipMeasure := s.intD "skip_measure" 1
    accumCloud := accum
    totalAccumCloudMax := s.intD "total_accum_cloud_max" (accum * 10)
    matchOutputInterval := s.dblD "match_output_interval_interval" (1 / 5)
    tfTolerance := s.dblD "tf_tolerance" (1 / 20)
    matchOutputDist := s.dblD "match_output_dist" (1 / 10)
    unmatchOutputDist := s.dblD "unmatch_output_dist" (1 / 2)
    publishTf := s.boolD "publish_tf" true
    outputPcd := s.boolD "output_pcd" false
    stdWarn := ⟨configThresh s "std_warn_thresh_xy", configThresh s "std_warn_thresh_z",
      configThresh s "std_warn_thresh_yaw"⟩
    mapChunk := s.dblD "map_chunk" 20
    initialPose := State6.ofQuat ⟨s.dblD "init_x" 0, s.dblD "init_y" 0, s.dblD "init_z" 0⟩
      (Quat.ofRPY ⟨s.dblD "init_roll" 0, s.dblD "init_pitch" 0, s.dblD "init_yaw" 0⟩)
    initialPoseStd := State6.ofRPY
      ⟨s.dblD "init_var_x" 2, s.dblD "init_var_y" 2, s.dblD "init_var_z" (1 / 2)⟩
      ⟨s.dblD "init_var_roll" (1 / 10), s.dblD "init_var_pitch" (1 / 10), s.dblD "init_var_yaw" (1 / 2)⟩
    useNormalSampler := useNormal
    samplerPerform :=
      if useNormal then s.dblD "random_sampler_with_normal/perform_weighting_ratio" 2 else 2
    samplerMaxRatio := if useNormal then s.dblD "random_sampler_with_normal/max_weight_ratio" 5 else 5
    samplerMaxWeight := if useNormal then s.dblD "random_sampler_with_normal/max_weight" 5 else 5
    samplerRange :=
      if useNormal then s.dblD "random_sampler_with_normal/normal_search_range" (2 / 5) else 2 / 5
    like := loadLike s
    beam := loadBeam s
    useDda := useDda
    rayAngleHalf :=
      if useDda then s.dblD "beam/ray_angle_half" (1 / 4 * Real.pi / 180) else 1 / 4 * Real.pi / 180
    ddaGridSize := loadDdaGrid s grid }

/-- src/parameters.cpp:52-318 `Parameters::load`; `none` is the result `false`.  `junk` are
indeterminate values: of `value` in `paramRename`, and of `std::lround` of an infinity (name "lround")
when the angular grid is 0.  The thresholds `std_warn_thresh_*` are finally overwritten by the initial
`dynamic_reconfigure` callback (parameters.cpp:313-325). -/
noncomputable def load (junk : String → ℝ) (s0 : Server) : Option Params :=
  let fakeImu := s0.boolD "fake_imu" false
  let fakeOdom := s0.boolD "fake_odom" false
  if fakeImu && fakeOdom then none
  else some (loadFrom junk (rename junk s0) fakeImu fakeOdom)

end Params

/-- The endpoints `configure` opens, mcl_3dl.cpp:1214-1268. -/
inductive Endpoint
  | odom | imu | cloud | mapcloud | mapcloudUpdate | initialpose | landmark
  | resizeParticle | globalLocalization | expansionResetting | loadPcd
  deriving DecidableEq

namespace Endpoint

/-- mcl_3dl.cpp:1214-1268: the new and the old name of an endpoint (`load_pcd` has only one). -/
def names : Endpoint → Compat.Name × Compat.Name
  | odom => (⟨false, "odom"⟩, ⟨true, "odom"⟩)
  | imu => (⟨false, "imu/data"⟩, ⟨true, "imu"⟩)
  | cloud => (⟨false, "cloud"⟩, ⟨true, "cloud"⟩)
  | mapcloud => (⟨false, "mapcloud"⟩, ⟨true, "mapcloud"⟩)
  | mapcloudUpdate => (⟨false, "mapcloud_update"⟩, ⟨true, "mapcloud_update"⟩)
  | initialpose => (⟨false, "initialpose"⟩, ⟨true, "initialpose"⟩)
  | landmark => (⟨false, "mcl_measurement"⟩, ⟨true, "landmark"⟩)
  | resizeParticle => (⟨false, "resize_mcl_particle"⟩, ⟨true, "resize_particle"⟩)
  | globalLocalization => (⟨false, "global_localization"⟩, ⟨true, "global_localization"⟩)
  | expansionResetting => (⟨false, "expansion_resetting"⟩, ⟨true, "expansion_resetting"⟩)
  | loadPcd => (⟨false, "load_pcd"⟩, ⟨false, "load_pcd"⟩)

/-- mcl_3dl.cpp:1214-1234: odometry is not subscribed when it is faked, nor the IMU. -/
def opened (p : Params) : List Endpoint :=
  (if p.fakeOdom then [] else [odom]) ++ (if p.fakeImu then [] else [imu]) ++
    [cloud, mapcloud, mapcloudUpdate, initialpose, landmark, resizeParticle, globalLocalization,
      expansionResetting, loadPcd]

end Endpoint

/-- mcl_3dl.cpp:1204-1268: the first part of `configure`; `throws` if the level is not supported,
`none` if it returns `false`, otherwise the parameters and the endpoints with the names used. -/
noncomputable def configureIface (junk : String → ℝ) (s : Server) :
    Outcome (Option (Params × List (Endpoint × Compat.Name))) :=
  (Compat.checkCompatMode s).bind fun _ =>
  match Params.load junk s with
  | none => .ok none
  | some p =>
    .ok (some (p, (Endpoint.opened p).map fun e =>
      (e, Compat.choose (Params.rename junk s) e.names.1 e.names.2)))

end Mcl3dl
