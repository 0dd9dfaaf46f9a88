import Verif.Model.Quat
import Verif.Model.Outcome
import Mathlib.Data.Real.Basic

/-!
# Model of `mcl_3dl::fromROSMsg`

Source: /repo/include/mcl_3dl/point_conversion.h, /repo/include/mcl_3dl/point_types.h.

`pcl::fromROSMsg` and `pcl::copyPointCloud` are library functions; they are modelled as documented: a
field of the point type is read from the first message field with the same name and datatype and keeps
its default otherwise; `copyPointCloud` resizes the target and copies the fields both types have.
-/

namespace Mcl3dl
namespace Conv

/-- Datatypes of `sensor_msgs/PointField`. -/
inductive DType
  | i8 | u8 | i16 | u16 | i32 | u32 | f32 | f64
  deriving DecidableEq

/-- `sensor_msgs/PointField` (offset and count are not modelled: `count` is 1 and the data are read
where the offset says). -/
structure Field where
  name : String
  type : DType
  deriving DecidableEq

/-- `sensor_msgs/PointCloud2`: the fields, the number of points (`width * height`) and the data, as the
value of field number `f` of point number `i` read as a `float` or as a `uint32_t`. -/
structure Msg where
  fields : List Field
  size : ℕ
  asFloat : ℕ → ℕ → ℝ
  asUInt : ℕ → ℕ → ℕ

/-- point_types.h:41-57 `PointXYZIL`. -/
@[ext] structure Point where
  pos : Vec3 ℝ
  intensity : ℝ
  label : ℕ

/-- point_types.h:47-53, the default constructor. -/
def Point.default : Point := ⟨⟨0, 0, 0⟩, 0, 0⟩

/-- `getPointCloud2FieldIndex(msg, name) != -1`: some field has the name, whatever its datatype. -/
def Msg.has (m : Msg) (name : String) : Bool := m.fields.any fun f => f.name == name

/-- The field pcl reads for a member `name` of the given datatype. -/
def Msg.index (m : Msg) (name : String) (t : DType) : Option ℕ :=
  m.fields.findIdx? fun f => f.name == name && f.type == t

/-- A `float` member of point `i`, 0 if no field matches. -/
def Msg.float (m : Msg) (name : String) (i : ℕ) : ℝ :=
  match m.index name .f32 with
  | some f => m.asFloat i f
  | none => 0

/-- A `uint32_t` member of point `i`, 0 if no field matches. -/
def Msg.uint (m : Msg) (name : String) (i : ℕ) : ℕ :=
  match m.index name .u32 with
  | some f => m.asUInt i f
  | none => 0

/-- Which members the intermediate point type has besides x, y, z
(`pcl::PointXYZ`, `PointXYZI`, `PointXYZL`, `PointXYZIL`). -/
structure Kind where
  intensity : Bool
  label : Bool

/-- `pcl::fromROSMsg` of one point into the intermediate type; members the type does not have are
irrelevant (here 0). -/
def rawPoint (m : Msg) (k : Kind) (i : ℕ) : Point :=
  ⟨⟨m.float "x" i, m.float "y" i, m.float "z" i⟩,
   if k.intensity then m.float "intensity" i else 0, if k.label then m.uint "label" i else 0⟩

/-- `pcl::copyPoint` onto an existing point: the members of the intermediate type. -/
def copyPoint (k : Kind) (src dst : Point) : Point :=
  ⟨src.pos, if k.intensity then src.intensity else dst.intensity, if k.label then src.label else dst.label⟩

/-- point_conversion.h:49-61 `fromROSMsgImpl`: the result and the new content of the target. -/
def fromROSMsgImpl (m : Msg) (k : Kind) (pc : List Point) : Bool × List Point :=
  if m.size = 0 then (false, pc)
  else
    -- `resize` keeps existing points and appends default constructed ones
    let resized := pc.take m.size ++ List.replicate (m.size - pc.length) Point.default
    (true, resized.mapIdx fun i dst => copyPoint k (rawPoint m k i) dst)

/-- point_conversion.h:64-92 `fromROSMsg`. -/
def fromROSMsg (m : Msg) (pc : List Point) : Bool × List Point :=
  if !m.has "x" || !m.has "y" || !m.has "z" then (false, pc)
  else if m.has "intensity" then
    if m.has "label" then fromROSMsgImpl m ⟨true, true⟩ pc
    else fromROSMsgImpl m ⟨true, false⟩ pc
  else if m.has "label" then fromROSMsgImpl m ⟨false, true⟩ pc
  else fromROSMsgImpl m ⟨false, false⟩ pc

end Conv
end Mcl3dl
