import Verif.Model.Quat
import Mathlib.Algebra.Order.Round
import Mathlib.Algebra.Ring.Int.Parity

/-!
# Model of `mcl_3dl::Filter` and `mcl_3dl::FilterVec3`

Source: /repo/include/mcl_3dl/filter.h, /repo/include/mcl_3dl/filter_vec3.h.
-/

namespace Mcl3dl

/-- C `remainder(x, y)`. -/
class HasRemainder (F : Type*) where
  remainder : F → F → F

open Classical in
/-- Nearest integer, ties to even (the rounding of `remainder`). -/
noncomputable def roundEven (t : ℝ) : ℤ :=
  if Int.fract t < 1 / 2 then ⌊t⌋
  else if 1 / 2 < Int.fract t then ⌊t⌋ + 1
  else if Even ⌊t⌋ then ⌊t⌋ else ⌊t⌋ + 1

/-- `remainder(x, y) = x - n * y` with `n` the integer nearest to `x / y`, ties to even. -/
noncomputable instance : HasRemainder ℝ where
  remainder := fun x y => x - roundEven (x / y) * y

/-- filter.h:41-45. -/
inductive FilterType where
  | hpf
  | lpf
  deriving DecidableEq

/-- filter.h:48-51. -/
structure Filt (F : Type*) where
  angle : Bool
  x : F
  out : F
  k0 : F
  k1 : F
  k2 : F
  k3 : F

namespace Filt
variable {F : Type*} [Zero F] [One F] [Neg F] [Add F] [Sub F] [Mul F] [Div F] [NatCast F]
  [Transc F] [HasRemainder F]

/-- filter.h:54-75 constructor. -/
def new (type : FilterType) (timeConst out0 : F) (angle : Bool) : Filt F :=
  match type with
  | .lpf =>
    let k3 := -1 / (1 + Quat.two * timeConst)
    let k2 := -k3
    let k1 := (1 - Quat.two * timeConst) * k3
    let k0 := -k1 - 1
    { angle := angle, x := (1 - k2) * out0 / k3, out := out0, k0 := k0, k1 := k1, k2 := k2, k3 := k3 }
  | .hpf =>
    let k3 := -1 / (1 + Quat.two * timeConst)
    let k2 := -k3 * Quat.two * timeConst
    let k1 := (1 - Quat.two * timeConst) * k3
    let k0 := Quat.two * timeConst * (-k1 + 1)
    { angle := angle, x := (1 - k2) * out0 / k3, out := out0, k0 := k0, k1 := k1, k2 := k2, k3 := k3 }

/-- filter.h:76-80 `set`. -/
def set (f : Filt F) (out0 : F) : Filt F :=
  { f with x := (1 - f.k2) * out0 / f.k3, out := out0 }

/-- filter.h:84-88 the value actually filtered. -/
def effective (f : Filt F) (v : F) : F :=
  if f.angle then f.out + HasRemainder.remainder (v - f.out) (Transc.pi * Quat.two) else v

/-- filter.h:81-94 `in`; the returned value is the new `out`.  Simplification: the finiteness
assertions are not modelled. -/
def input (f : Filt F) (v : F) : Filt F :=
  let t := f.effective v
  let x := f.k0 * t + f.k1 * f.x
  { f with x := x, out := f.k2 * t + f.k3 * x }

/-- filter.h:95-98 `get`. -/
def get (f : Filt F) : F := f.out

end Filt

/-- filter_vec3.h:42-44. -/
structure FiltVec3 (F : Type*) where
  x : Vec3 F
  fx : Filt F
  fy : Filt F
  fz : Filt F

namespace FiltVec3
variable {F : Type*} [Zero F] [One F] [Neg F] [Add F] [Sub F] [Mul F] [Div F] [NatCast F]
  [Transc F] [HasRemainder F]

/-- filter_vec3.h:47-57. -/
def new (type : FilterType) (timeConst out0 : Vec3 F) (angle : Bool) : FiltVec3 F :=
  ⟨out0, Filt.new type timeConst.x out0.x angle, Filt.new type timeConst.y out0.y angle,
    Filt.new type timeConst.z out0.z angle⟩

/-- filter_vec3.h:58-63. -/
def set (f : FiltVec3 F) (out0 : Vec3 F) : FiltVec3 F :=
  ⟨out0, f.fx.set out0.x, f.fy.set out0.y, f.fz.set out0.z⟩

/-- filter_vec3.h:64-69; the returned value is the new `x`. -/
def input (f : FiltVec3 F) (v : Vec3 F) : FiltVec3 F :=
  let fx := f.fx.input v.x
  let fy := f.fy.input v.y
  let fz := f.fz.input v.z
  ⟨⟨fx.out, fy.out, fz.out⟩, fx, fy, fz⟩

/-- filter_vec3.h:70-73. -/
def get (f : FiltVec3 F) : Vec3 F := f.x

end FiltVec3
end Mcl3dl
