import Verif.Spec.Algebra
import Verif.Model.QuatAssign
import Verif.Props.QuatAlgebra

/-! # C148: the operators are those of vector algebra and of the quaternions -/

set_option linter.unusedSectionVars false

namespace Mcl3dl

/-! ## The laws -/

/-- C148: vectors.  The operators are componentwise, `dot` and `cross` are the products of vector algebra, `norm` is the
Euclidean length. -/
theorem C148_vectors (v u : Vec3 ℝ) (s : ℝ) :
    (v + u).coords = v.coords + u.coords ∧ (v - u).coords = v.coords - u.coords ∧ (-v).coords = -v.coords ∧
    (v.smul s).coords = s • v.coords ∧ (v.sdiv s).coords = s⁻¹ • v.coords ∧ (v.times u).coords = v.coords * u.coords ∧
    v.dot u = v.coords ⬝ᵥ u.coords ∧ (v.cross u).coords = crossProduct v.coords u.coords ∧
    v.norm = ‖(WithLp.toLp 2 v.coords : EuclideanSpace ℝ (Fin 3))‖ ∧ (0 : Vec3 ℝ).coords = 0 := by
  refine ⟨?_, ?_, ?_, ?_, ?_, ?_, ?_, ?_, ?_, ?_⟩
  · ext i; fin_cases i <;> rfl
  · ext i; fin_cases i <;> rfl
  · ext i; fin_cases i <;> rfl
  · ext i; fin_cases i <;> simp [Vec3.coords, Vec3.smul, mul_comm]
  · ext i; fin_cases i <;> simp [Vec3.coords, Vec3.sdiv, div_eq_inv_mul]
  · ext i; fin_cases i <;> rfl
  · simp [Vec3.coords, Vec3.dot, dotProduct, Fin.sum_univ_three]
  · ext i; fin_cases i <;> simp [Vec3.coords, Vec3.cross, crossProduct]
  · rw [EuclideanSpace.norm_eq, Fin.sum_univ_three]
    show Real.sqrt (v.x * v.x + v.y * v.y + v.z * v.z) = _
    simp [Vec3.coords, pow_two]
  · ext i; fin_cases i <;> rfl

theorem Quat.ham_re (q : Quat ℝ) : q.ham.re = q.w := rfl
theorem Quat.ham_imI (q : Quat ℝ) : q.ham.imI = q.x := rfl
theorem Quat.ham_imJ (q : Quat ℝ) : q.ham.imJ = q.y := rfl
theorem Quat.ham_imK (q : Quat ℝ) : q.ham.imK = q.z := rfl

/-- C148: quaternions: the operators are those of Hamilton's quaternions, and rotating a vector is conjugation. -/
theorem C148_quaternions (a q : Quat ℝ) (s : ℝ) (v : Vec3 ℝ) :
    (a + q).ham = a.ham + q.ham ∧ (a - q).ham = a.ham - q.ham ∧ (-a).ham = -a.ham ∧ (a * q).ham = a.ham * q.ham ∧
    (a.smul s).ham = s • a.ham ∧ (a.sdiv s).ham = s⁻¹ • a.ham ∧ a.conj.ham = star a.ham ∧ a.inv.ham = a.ham⁻¹ ∧
    (1 : Quat ℝ).ham = 1 ∧ a.dot q = inner ℝ a.ham q.ham ∧ a.norm = ‖a.ham‖ ∧ a.normalized.ham = ‖a.ham‖⁻¹ • a.ham ∧
    (a.rotate v).imag = a.ham * v.imag * star a.ham := by
  have hdot : ∀ p q : Quat ℝ, p.dot q = inner ℝ p.ham q.ham := by
    intro p q
    show _ = (p.ham * star q.ham).re
    simp [Quat.dot, Quat.ham_re, Quat.ham_imI, Quat.ham_imJ, Quat.ham_imK]
    ring
  have hnorm : ∀ p : Quat ℝ, p.norm = ‖p.ham‖ := by
    intro p
    rw [norm_eq_sqrt_real_inner, ← hdot]
    rfl
  have hsmul : ∀ (p : Quat ℝ) (s : ℝ), (p.smul s).ham = s • p.ham := by
    intro p s
    ext <;> simp [Quat.ham_re, Quat.ham_imI, Quat.ham_imJ, Quat.ham_imK, Quat.smul, mul_comm]
  have hsdiv : ∀ (p : Quat ℝ) (s : ℝ), (p.sdiv s).ham = s⁻¹ • p.ham := by
    intro p s
    rw [Quat.sdiv, hsmul, one_div]
  have hconj : ∀ p : Quat ℝ, p.conj.ham = star p.ham := by
    intro p
    ext <;> simp [Quat.ham_re, Quat.ham_imI, Quat.ham_imJ, Quat.ham_imK, Quat.conj]
  have hmul : ∀ p q : Quat ℝ, (p * q).ham = p.ham * q.ham := by
    intro p q
    ext <;> simp [Quat.ham_re, Quat.ham_imI, Quat.ham_imJ, Quat.ham_imK, Quat.mul_x, Quat.mul_y, Quat.mul_z, Quat.mul_w] <;> ring
  refine ⟨?_, ?_, ?_, hmul _ _, hsmul _ _, hsdiv _ _, hconj _, ?_, ?_, hdot _ _, hnorm _, ?_, ?_⟩
  · ext <;> rfl
  · ext <;> rfl
  · ext <;> rfl
  · rw [Quat.inv, hsdiv, hconj, hdot]
    rw [Quaternion.inner_self]
    rfl
  · ext <;> rfl
  · rw [Quat.normalized, hsdiv, hnorm]
  · have h : ∀ v : Vec3 ℝ, v.imag = (⟨v.x, v.y, v.z, 0⟩ : Quat ℝ).ham := fun _ => rfl
    rw [h v, ← hconj, ← hmul, ← hmul]
    ext
    · show (0 : ℝ) = _
      simp [Quat.ham_re, Quat.mul_x, Quat.mul_y, Quat.mul_z, Quat.mul_w, Quat.conj]
      ring
    all_goals rfl

/-- C148: indices 0, 1, 2 are the components; reading and writing through any other index hits the first. -/
theorem C148_index (v : Vec3 ℝ) (a : ℝ) :
    (∀ i : Fin 3, v.get i = v.coords i ∧ (v.set i a).coords = Function.update v.coords i a) ∧
    ∀ i : ℕ, 3 ≤ i → v.get i = v.coords 0 ∧ (v.set i a).coords = Function.update v.coords 0 a := by
  refine ⟨fun i => ⟨by fin_cases i <;> rfl, ?_⟩, fun i hi => ?_⟩
  · ext j
    fin_cases i <;> fin_cases j <;> rfl
  · obtain ⟨k, rfl⟩ := Nat.exists_eq_add_of_le' hi
    refine ⟨rfl, ?_⟩
    ext j
    fin_cases j <;> rfl

/-- C148: equality. -/
theorem C148_equality (a q : Quat ℝ) (v u : Vec3 ℝ) : (a = q ↔ a.ham = q.ham) ∧ (v = u ↔ v.coords = u.coords) := by
  constructor
  · rw [Quat.ext_iff, Quaternion.ext_iff]
    simp only [Quat.ham]
    tauto
  · rw [Vec3.ext_iff, funext_iff, Fin.forall_fin_succ, Fin.forall_fin_two]
    simp [Vec3.coords]

/-- C148: the compound assignments give what the operators give, also where an operand is the assigned quaternion
itself. -/
theorem C148_assignments (a q : Quat ℝ) (s : ℝ) :
    a.addAssign q false = a + q ∧ a.addAssign a true = a + a ∧ a.subAssign q false = a - q ∧ a.subAssign a true = a - a ∧
    a.mulAssign s = a.smul s ∧ a.divAssign s = a.sdiv s := by
  refine ⟨rfl, rfl, rfl, rfl, rfl, ?_⟩
  ext <;> simp [Quat.divAssign, Quat.sdiv, Quat.smul, div_eq_mul_inv]

/-- C148 on concrete values: the product of i and j is k, and a half turn about z takes x to -x. -/
example : (⟨1, 0, 0, 0⟩ * ⟨0, 1, 0, 0⟩ : Quat ℝ) = ⟨0, 0, 1, 0⟩ ∧
    (⟨0, 0, 1, 0⟩ : Quat ℝ).rotate ⟨1, 0, 0⟩ = ⟨-1, 0, 0⟩ := by
  constructor
  · ext <;> simp [Quat.mul_x, Quat.mul_y, Quat.mul_z, Quat.mul_w]
  · ext <;> norm_num [Quat.rotate_x, Quat.rotate_y, Quat.rotate_z]

end Mcl3dl
