import Verif.Model.Quat

/-! # Model of the compound assignments of `mcl_3dl::Quat`

Source: /repo/include/mcl_3dl/quat.h:107-167.  (Those of `Vec3`, vec3.h:119-138, are written with the operators.) -/

namespace Mcl3dl

namespace Quat
variable {F : Type*}

/-- quat.h:107-114 `operator+=`: four assignments one after the other.  `q` is a reference: `same` says whether it
is the quaternion itself, whose members change during the assignments. -/
def addAssign [Add F] (a q : Quat F) (same : Bool) : Quat F :=
  let a1 := { a with x := a.x + (if same then a else q).x }
  let a2 := { a1 with y := a1.y + (if same then a1 else q).y }
  let a3 := { a2 with z := a2.z + (if same then a2 else q).z }
  { a3 with w := a3.w + (if same then a3 else q).w }

/-- quat.h:119-126 `operator-=`. -/
def subAssign [Sub F] (a q : Quat F) (same : Bool) : Quat F :=
  let a1 := { a with x := a.x - (if same then a else q).x }
  let a2 := { a1 with y := a1.y - (if same then a1 else q).y }
  let a3 := { a2 with z := a2.z - (if same then a2 else q).z }
  { a3 with w := a3.w - (if same then a3 else q).w }

/-- quat.h:152-159 `operator*=`; the factor is passed by value. -/
def mulAssign [Mul F] (a : Quat F) (s : F) : Quat F :=
  let a1 := { a with x := a.x * s }
  let a2 := { a1 with y := a1.y * s }
  let a3 := { a2 with z := a2.z * s }
  { a3 with w := a3.w * s }

/-- quat.h:160-167 `operator/=`: unlike `operator/` it divides each member. -/
def divAssign [Div F] (a : Quat F) (s : F) : Quat F :=
  let a1 := { a with x := a.x / s }
  let a2 := { a1 with y := a1.y / s }
  let a3 := { a2 with z := a2.z / s }
  { a3 with w := a3.w / s }

end Quat

end Mcl3dl
