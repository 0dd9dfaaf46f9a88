import Verif.Model.Num

/-!
# Model of `mcl_3dl::Vec3` and `mcl_3dl::Quat`

Source: /repo/include/mcl_3dl/vec3.h, /repo/include/mcl_3dl/quat.h.

The components are `float` in the code; here they are an abstract number type `F`.  The mixed
`float`/`double` intermediate types of single expressions are not distinguished.
-/

namespace Mcl3dl

/-- vec3.h:37-48. -/
@[ext] structure Vec3 (F : Type*) where
  x : F
  y : F
  z : F

/-- quat.h:40-54. -/
@[ext] structure Quat (F : Type*) where
  x : F
  y : F
  z : F
  w : F

namespace Vec3
variable {F : Type*}

/-- vec3.h:49-54 default constructor. -/
instance [Zero F] : Zero (Vec3 F) := ⟨⟨0, 0, 0⟩⟩

/-- vec3.h:55-90 `operator[]`; every index other than 0, 1, 2 yields `x_`. -/
def get (v : Vec3 F) (i : Nat) : F :=
  match i with
  | 0 => v.x
  | 1 => v.y
  | 2 => v.z
  | _ => v.x

/-- vec3.h:55-72 assignment through `operator[]`. -/
def set (v : Vec3 F) (i : Nat) (a : F) : Vec3 F :=
  match i with
  | 0 => { v with x := a }
  | 1 => { v with y := a }
  | 2 => { v with z := a }
  | _ => { v with x := a }

/-- vec3.h:99-102. -/
def add [Add F] (v q : Vec3 F) : Vec3 F := ⟨v.x + q.x, v.y + q.y, v.z + q.z⟩
/-- vec3.h:103-106. -/
def sub [Sub F] (v q : Vec3 F) : Vec3 F := ⟨v.x - q.x, v.y - q.y, v.z - q.z⟩
/-- vec3.h:107-110. -/
def neg [Neg F] (v : Vec3 F) : Vec3 F := ⟨-v.x, -v.y, -v.z⟩
/-- vec3.h:111-114. -/
def smul [Mul F] (v : Vec3 F) (s : F) : Vec3 F := ⟨v.x * s, v.y * s, v.z * s⟩
/-- vec3.h:115-118. -/
def sdiv [Div F] (v : Vec3 F) (s : F) : Vec3 F := ⟨v.x / s, v.y / s, v.z / s⟩
/-- vec3.h:139-142. -/
def dot [Add F] [Mul F] (v q : Vec3 F) : F := v.x * q.x + v.y * q.y + v.z * q.z
/-- vec3.h:143-148. -/
def cross [Sub F] [Mul F] (v q : Vec3 F) : Vec3 F :=
  ⟨v.y * q.z - v.z * q.y, v.z * q.x - v.x * q.z, v.x * q.y - v.y * q.x⟩
/-- vec3.h:149-152. -/
def times [Mul F] (v q : Vec3 F) : Vec3 F := ⟨v.x * q.x, v.y * q.y, v.z * q.z⟩
/-- vec3.h:153-156. -/
def norm [Add F] [Mul F] [Transc F] (v : Vec3 F) : F := Transc.sqrt (v.dot v)
/-- vec3.h:157-160. -/
def normalized [Add F] [Mul F] [Div F] [Transc F] (v : Vec3 F) : Vec3 F := v.sdiv v.norm

instance [Add F] : Add (Vec3 F) := ⟨add⟩
instance [Sub F] : Sub (Vec3 F) := ⟨sub⟩
instance [Neg F] : Neg (Vec3 F) := ⟨neg⟩

end Vec3

namespace Quat
variable {F : Type*}

/-- quat.h:80-86 default constructor (identity). -/
def one [Zero F] [One F] : Quat F := ⟨0, 0, 0, 1⟩

instance [Zero F] [One F] : One (Quat F) := ⟨one⟩

/-- quat.h:87-90. -/
def dot [Add F] [Mul F] (a q : Quat F) : F := a.x * q.x + a.y * q.y + a.z * q.z + a.w * q.w

/-- quat.h:91-94. -/
def norm [Add F] [Mul F] [Transc F] (a : Quat F) : F := Transc.sqrt (a.dot a)

/-- quat.h:103-114. -/
instance [Add F] : Add (Quat F) := ⟨fun a q => ⟨a.x + q.x, a.y + q.y, a.z + q.z, a.w + q.w⟩⟩

/-- quat.h:115-126. -/
instance [Sub F] : Sub (Quat F) := ⟨fun a q => ⟨a.x - q.x, a.y - q.y, a.z - q.z, a.w - q.w⟩⟩

/-- quat.h:127-130. -/
instance [Neg F] : Neg (Quat F) := ⟨fun a => ⟨-a.x, -a.y, -a.z, -a.w⟩⟩

/-- quat.h:131-138 quaternion product. -/
def mul [Add F] [Sub F] [Mul F] (a q : Quat F) : Quat F :=
  ⟨a.w * q.x + a.x * q.w + a.y * q.z - a.z * q.y,
   a.w * q.y + a.y * q.w + a.z * q.x - a.x * q.z,
   a.w * q.z + a.z * q.w + a.x * q.y - a.y * q.x,
   a.w * q.w - a.x * q.x - a.y * q.y - a.z * q.z⟩

instance [Add F] [Sub F] [Mul F] : Mul (Quat F) := ⟨mul⟩

/-- quat.h:183-186. -/
def conj [Neg F] (a : Quat F) : Quat F := ⟨-a.x, -a.y, -a.z, a.w⟩

/-- quat.h:139-143 rotation of a vector, `operator*(const Vec3&)`. -/
def rotate [Zero F] [Add F] [Sub F] [Mul F] [Neg F] (a : Quat F) (v : Vec3 F) : Vec3 F :=
  let ret := a * (⟨v.x, v.y, v.z, 0⟩ : Quat F) * a.conj
  ⟨ret.x, ret.y, ret.z⟩

/-- quat.h:144-147. -/
def smul [Mul F] (a : Quat F) (s : F) : Quat F := ⟨a.x * s, a.y * s, a.z * s, a.w * s⟩

/-- quat.h:148-151, `operator/` multiplies by `1.0 / s`. -/
def sdiv [One F] [Mul F] [Div F] (a : Quat F) (s : F) : Quat F := a.smul (1 / s)

/-- quat.h:175-182. -/
def normalized [One F] [Add F] [Mul F] [Div F] [Transc F] (a : Quat F) : Quat F := a.sdiv a.norm

/-- quat.h:187-190. -/
def inv [One F] [Neg F] [Add F] [Mul F] [Div F] (a : Quat F) : Quat F := a.conj.sdiv (a.dot a)

section Trig
variable [Zero F] [One F] [Neg F] [Add F] [Sub F] [Mul F] [Div F] [NatCast F]
  [LT F] [DecidableLT F] [LE F] [DecidableLE F] [Transc F]

/-- The literal `2.0`. -/
def two : F := ((2 : ℕ) : F)

/-- quat.h:191-201. -/
def getRPY (a : Quat F) : Vec3 F :=
  let ysq := a.y * a.y
  let t0 := -two * (ysq + a.z * a.z) + 1
  let t1 := two * (a.x * a.y + a.w * a.z)
  let t2 := cmax (-1) (cmin 1 (-two * (a.x * a.z - a.w * a.y)))
  let t3 := two * (a.y * a.z + a.w * a.x)
  let t4 := -two * (a.x * a.x + ysq) + 1
  ⟨Transc.atan2 t3 t4, Transc.asin t2, Transc.atan2 t1 t0⟩

/-- quat.h:202-215 `setRPY`, and the constructor `Quat(const Vec3& rpy)` quat.h:76-79. -/
def ofRPY (rpy : Vec3 F) : Quat F :=
  let t2 := Transc.cos (rpy.x / two)
  let t3 := Transc.sin (rpy.x / two)
  let t4 := Transc.cos (rpy.y / two)
  let t5 := Transc.sin (rpy.y / two)
  let t0 := Transc.cos (rpy.z / two)
  let t1 := Transc.sin (rpy.z / two)
  ⟨t0 * t3 * t4 - t1 * t2 * t5,
   t0 * t2 * t5 + t1 * t3 * t4,
   t1 * t2 * t4 - t0 * t3 * t5,
   t0 * t2 * t4 + t1 * t3 * t5⟩

/-- quat.h:216-225 `setAxisAng`, and the constructor `Quat(axis, ang)` quat.h:55-58. -/
def ofAxisAng (axis : Vec3 F) (ang : F) : Quat F :=
  let a := axis.sdiv axis.norm
  let s := Transc.sin (ang / two)
  normalized ⟨a.x * s, a.y * s, a.z * s, Transc.cos (ang / two)⟩

/-- quat.h:226-239 `getAxisAng`: the pair `(axis, ang)`. -/
def getAxisAng (a : Quat F) : Vec3 F × F :=
  if 1 - 1 / ((1000000 : ℕ) : F) ≤ cabs a.w then (⟨0, 0, 1⟩, 0)
  else
    let ang := Transc.acos a.w * two
    let ang' := if Transc.pi < ang then ang - two * Transc.pi else ang
    let wsq := 1 - a.w * a.w
    ((⟨a.x, a.y, a.z⟩ : Vec3 F).sdiv (Transc.sqrt wsq), ang')

/-- quat.h:168-174. -/
def weighted (a : Quat F) (s : F) : Quat F := ofAxisAng a.getAxisAng.1 (a.getAxisAng.2 * s)

/-- quat.h:240-246. -/
def rotateAxis (a r : Quat F) : Quat F := ofAxisAng (r.rotate a.getAxisAng.1) a.getAxisAng.2

/-- quat.h:59-75, look-at constructor `Quat(forward, up_raw)`. -/
def lookAt (forward upRaw : Vec3 F) : Quat F :=
  let xv := forward.normalized
  let yv := (upRaw.cross xv).normalized
  let zv := (xv.cross yv).normalized
  let w := Transc.sqrt (cmax 0 (1 + xv.x + yv.y + zv.z)) / two
  let x := Transc.sqrt (cmax 0 (1 + xv.x - yv.y - zv.z)) / two
  let y := Transc.sqrt (cmax 0 (1 - xv.x + yv.y - zv.z)) / two
  let z := Transc.sqrt (cmax 0 (1 - xv.x - yv.y + zv.z)) / two
  ⟨if 0 < zv.y - yv.z then -x else x,
   if 0 < xv.z - zv.x then -y else y,
   if 0 < yv.x - xv.y then -z else z,
   w⟩

end Trig
end Quat
end Mcl3dl
