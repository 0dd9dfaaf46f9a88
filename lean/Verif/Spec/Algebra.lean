import Mathlib.Analysis.Quaternion
import Mathlib.LinearAlgebra.CrossProduct
import Verif.Model.Quat

/-! # Specification of the arithmetic of vectors and quaternions: that of Mathlib -/

namespace Mcl3dl

/-- A vector as a function of its index. -/
def Vec3.coords (v : Vec3 ℝ) : Fin 3 → ℝ := ![v.x, v.y, v.z]

/-- A quaternion as an element of Mathlib's algebra of quaternions (real part first). -/
def Quat.ham (q : Quat ℝ) : Quaternion ℝ := ⟨q.w, q.x, q.y, q.z⟩

/-- The imaginary quaternion of a vector. -/
def Vec3.imag (v : Vec3 ℝ) : Quaternion ℝ := ⟨0, v.x, v.y, v.z⟩

end Mcl3dl
