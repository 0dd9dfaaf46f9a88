import Verif.Model.Params
import Verif.Model.Conv
import Verif.Model.CloudAccum
import Verif.Model.Filter
import Verif.Model.Motion
import Verif.Model.MultiNoise
import Verif.Model.Sampler
import Verif.Model.ChunkedKdtree

/-!
# Types of the node model

Source: /repo/src/mcl_3dl.cpp.  `ros::spin()` runs the callbacks one after the other, so the node is a
state machine: `Node` is the state between callbacks.  Numbers and times are real numbers.  Everything
the code gets from outside (transforms, clock, random numbers, voxel grid, sort, shuffle, normal
estimation) is in `Env`, one per callback; library objects that live as long as the node are in `Lib`.
-/

namespace Mcl3dl
namespace Node

/-- `std_msgs/Header` (without the sequence number). -/
structure Header where
  frame : String
  stamp : ℝ

/-- `geometry_msgs/Transform`. -/
structure Tf where
  trans : Vec3 ℝ
  rot : Quat ℝ

/-- Applying a transform to a point; the rotation is taken to be a unit quaternion. -/
def Tf.point (t : Tf) (v : Vec3 ℝ) : Vec3 ℝ := t.rot.rotate v + t.trans

/-- The point type `PointXYZIL` without its intensity: position and label. -/
abbrev Point := Pt ℝ ℕ

/-- The node's particle filter. -/
abbrev Filter := PF.Filter (State6 ℝ) ℝ

/-- A particle of the node's filter. -/
abbrev Particle := PF.Particle (State6 ℝ) ℝ

/-- `mcl_3dl_msgs/Status.status`. -/
inductive StatusCode
  | normal | globalLocalization | expansionResetting
  deriving DecidableEq

/-- `mcl_3dl_msgs/Status.error`. -/
inductive ErrorCode
  | normal | pointsNotFound
  deriving DecidableEq

/-- `mcl_3dl_msgs/Status.convergence_status`. -/
inductive Convergence
  | normal | converged | largeStd
  deriving DecidableEq

/-- `mcl_3dl_msgs/Status` except the entropy, which is filled in when it is published. -/
structure Status where
  stamp : ℝ
  status : StatusCode
  error : ErrorCode
  convergence : Convergence
  matchRatio : ℝ
  particleSize : ℕ

/-- mcl_3dl.cpp:250-254: the status a cloud callback starts with. -/
def Status.fresh (stamp : ℝ) : Status := ⟨stamp, .normal, .normal, .normal, 0, 0⟩

/-- Level of the published diagnostics. -/
inductive Level
  | ok | error
  deriving DecidableEq

/-- mcl_3dl.cpp:1129-1140: the level in `diagnoseStatus`. -/
def Status.level (s : Status) : Level :=
  if s.error = .pointsNotFound then .error
  else if s.convergence = .largeStd then .error
  else .ok

/-- Namespaces of the debug markers. -/
inductive MarkerNs
  | collision | ray | sample
  deriving DecidableEq

/-- `std_msgs/ColorRGBA`. -/
structure Rgba where
  r : ℝ
  g : ℝ
  b : ℝ
  a : ℝ

/-- `visualization_msgs/Marker`: id, namespace, points, colours.  Shape, size and life time are not modelled;
the position of collision markers is not part of this record but of `Model/BeamResult`. -/
structure Marker where
  id : ℕ
  ns : MarkerNs
  pts : List (Vec3 ℝ)
  colors : List Rgba

/-- `geometry_msgs/TransformStamped`. -/
structure TfMsg where
  stamp : ℝ
  parent : String
  child : String
  tf : Tf

/-- What the node does to the outside.  The last three are not messages: they record that a batch was
completed (and whether it passed the skip gate), and that a callback called another one with a
synthetic message. -/
inductive Out
  | particles (stamp : ℝ) (poses : List (Vec3 ℝ × Quat ℝ))
  | pose (stamp : ℝ) (frame : String) (pos : Vec3 ℝ) (rot : Quat ℝ) (cov : ℕ → ℕ → ℝ)
  | transforms (l : List TfMsg)
  | status (s : Status) (entropy : Option ℝ) (level : Level)
  | matched (stamp : ℝ) (pts : List (Vec3 ℝ))
  | unmatched (stamp : ℝ) (pts : List (Vec3 ℝ))
  | updatedMap (pts : List Point)
  | markers (l : List Marker)
  | response (success : Bool)
  | batch (measured : Bool)
  | synthImu
  | synthOdom

/-- A `pcl::PointCloud` object: header stamp (microseconds) and points. -/
structure MapCloud where
  stamp : ℕ
  points : List Point

/-- The members about the map.  Clouds are held by shared pointers, and `pc_map2_` may point to the same
object as `pc_map_` (mcl_3dl.cpp:1367), so the objects live in a heap and the members are references
into it.  `pc_update_` is never shared.  `kd` and `kdCloud` are the chunks and the input cloud pointer
of the kd-tree; `version` counts the contents given to it, since the buffer of points behind an object is replaced
when the object is assigned to (mcl_3dl.cpp:1359; a pcl version that copies into a large enough old buffer would
keep pointers valid, here they count as dangling). -/
structure MapSt where
  hasMap : Bool
  heap : List MapCloud
  base : Option ℕ
  merged : Option ℕ
  update : Option (List Point)
  kd : ChunkedKdtree.Chunks ℝ
  kdCloud : Option ℕ
  version : ℕ

/-- The members about cloud accumulation: `accum_`, `pc_local_accum_`, `pc_accum_header_`. -/
structure AccSt where
  logic : CloudAccum.St String
  cloud : Option (List Point)
  headers : List Header

/-- The members about odometry. -/
structure OdoSt where
  has : Bool
  odom : State6 ℝ
  prev : State6 ℝ
  last : ℝ
  motion : Motion ℝ

/-- The members about the IMU. -/
structure ImuSt where
  has : Bool
  last : ℝ
  quat : Quat ℝ
  facc : FiltVec3 ℝ

/-- The members written by `measure` (besides the counter and the local cloud): the filter, the
smoothing filters, tolerance, status and the measurement models.  `C` is the state of the ray caster. -/
structure LocSt (C : Type) where
  pf : Filter
  statePrev : State6 ℝ
  fPos : FiltVec3 ℝ
  fAng : FiltVec3 ℝ
  rate : Filt ℝ
  localizedLast : ℝ
  tolBase : ℝ
  fixCnt : ℕ
  status : Status
  matchLast : ℝ
  beam : Lidar.Beam
  like : Lidar.Like
  caster : C
  allAccum : Option (List Point)
  stats : Option (Sampler.Stats ℝ)

/-- mcl_3dl.cpp:1408-1450 the data members (publishers, subscribers and constants left out).  `stdWarn`
is the member of the parameters that dynamic reconfigure changes. -/
structure _root_.Mcl3dl.Node (C : Type) where
  map : MapSt
  acc : AccSt
  odo : OdoSt
  imu : ImuSt
  loc : LocSt C
  cnt : ℕ
  stdWarn : Vec3 ℝ

/-- Library objects: the kd-tree search of one chunk (with the distance weights of the point
representation), the ray caster made by the beam model for an input cloud and a search, its initial
state, and the eigen solvers. -/
structure Lib (C : Type) where
  flann : List (Vec3 ℝ) → Vec3 ℝ → ℝ → ℕ → List (ℕ × ℝ)
  caster : Option DDA.Cloud → (Vec3 ℝ → ℝ → Outcome (List (ℕ × ℝ))) → Lidar.Caster C
  caster0 : C
  solve3 : Matrix (Fin 3) (Fin 3) ℝ → (Fin 3 → ℝ) × Matrix (Fin 3) (Fin 3) ℝ
  solve6 : (Fin 6 → Fin 6 → ℝ) → (Fin 6 → ℝ) × (Fin 6 → Fin 6 → ℝ)

/-- What one callback gets from outside.  Functions with a leading number take the number of the call
site, so that repeated calls may give different answers. -/
structure Env where
  /-- `ros::Time::now()` -/
  now : ℕ → ℝ
  /-- `pcl::VoxelGrid` with a leaf size -/
  voxel : Vec3 ℝ → List Point → List Point
  /-- `lookupTransform(target, source, stamp)`; `none` is an exception -/
  tf : String → String → ℝ → Option Tf
  /-- `lookupTransform(target, target stamp, source, source stamp, fixed)` -/
  tfFull : String → ℝ → String → ℝ → String → Option Tf
  /-- `std::sort` of the particles -/
  sort : List Particle → List Particle
  /-- the indices `covariance` uses: call, number of particles, sampling, sample size -/
  covIdx : ℕ → ℕ → Bool → ℕ → List ℕ
  /-- a number from [0, 1) -/
  unit : ℝ
  /-- standard normal numbers -/
  normal : ℕ → ℕ → ℝ
  /-- the four standard normal numbers of mcl_3dl.cpp:820-823 for each particle -/
  driftNoise : ℕ → ℝ × ℝ × ℝ × ℝ
  /-- indices below the given size: call, size, draw -/
  index : ℕ → ℕ → ℕ → ℕ
  /-- numbers from [0, 1) -/
  canon : ℕ → ℕ → ℝ
  /-- normal estimation -/
  normals : List Point → List (Option (Vec3 ℝ))
  /-- iteration order of an `unordered_set` -/
  order : List ℕ → List ℕ
  /-- does anybody subscribe to the matched / unmatched topic -/
  subMatched : Bool
  subUnmatched : Bool
  /-- uninitialised memory -/
  junk : ℕ → ℝ

/-- The assumptions on the outside: what the documentation of the library functions promises. -/
structure Env.Valid (env : Env) : Prop where
  /-- a voxel's label lies between labels of its points (it is their average or one of them) -/
  voxel : ∀ leaf pts, ∀ q ∈ env.voxel leaf pts, ∃ p ∈ pts, q.attr ≤ p.attr
  sort : ∀ ps, PF.IsSorted ps (env.sort ps)
  covIdx : ∀ call n sampling num, PF.CovIndices n sampling num (env.covIdx call n sampling num)
  unit : 0 ≤ env.unit ∧ env.unit < 1
  index : ∀ call size k, 0 < size → env.index call size k < size
  canon : ∀ call k, 0 ≤ env.canon call k ∧ env.canon call k < 1
  normals : ∀ pts, (env.normals pts).length = pts.length
  order : ∀ l, (env.order l).Perm l

/-- `nav_msgs/Odometry`: the parts used. -/
structure OdomMsg where
  stamp : ℝ
  frame : String
  pos : Vec3 ℝ
  rot : Quat ℝ

/-- `sensor_msgs/Imu`: the parts used. -/
structure ImuMsg where
  stamp : ℝ
  frame : String
  acc : Vec3 ℝ
  rot : Quat ℝ

/-- `geometry_msgs/PoseWithCovarianceStamped`. -/
structure PoseMsg where
  stamp : ℝ
  frame : String
  pos : Vec3 ℝ
  rot : Quat ℝ
  cov : Fin 36 → ℝ

/-- The events the node reacts to.  `loadPcd none` is a file that cannot be read. -/
inductive Event
  | mapcloud (stamp : ℝ) (msg : Conv.Msg)
  | mapcloudUpdate (msg : Conv.Msg)
  | loadPcd (file : Option (List Point))
  | timer
  | cloud (header : Header) (msg : Conv.Msg)
  | odom (msg : OdomMsg)
  | imu (msg : ImuMsg)
  | initialpose (msg : PoseMsg)
  | landmark (msg : PoseMsg)
  | resize (size : ℤ)
  | expansionReset
  | globalLocalization
  | reconfigure (stdWarn : Vec3 ℝ)

end Node
end Mcl3dl
