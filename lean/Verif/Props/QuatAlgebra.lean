import Verif.Model.Quat
import Verif.Model.XR
import Mathlib.Tactic

/-!
# C28 - C31: quaternion algebra

The algebraic laws hold in every commutative ring (exact arithmetic), `inv` in every field;
`normalized` is read over the reals.
-/

set_option linter.unusedSectionVars false

namespace Mcl3dl
namespace Quat

section Ring
variable {K : Type*} [CommRing K]

@[simp] theorem mul_x (a q : Quat K) : (a * q).x = a.w * q.x + a.x * q.w + a.y * q.z - a.z * q.y := rfl
@[simp] theorem mul_y (a q : Quat K) : (a * q).y = a.w * q.y + a.y * q.w + a.z * q.x - a.x * q.z := rfl
@[simp] theorem mul_z (a q : Quat K) : (a * q).z = a.w * q.z + a.z * q.w + a.x * q.y - a.y * q.x := rfl
@[simp] theorem mul_w (a q : Quat K) : (a * q).w = a.w * q.w - a.x * q.x - a.y * q.y - a.z * q.z := rfl
@[simp] theorem one_x : (1 : Quat K).x = 0 := rfl
@[simp] theorem one_y : (1 : Quat K).y = 0 := rfl
@[simp] theorem one_z : (1 : Quat K).z = 0 := rfl
@[simp] theorem one_w : (1 : Quat K).w = 1 := rfl
@[simp] theorem conj_x (a : Quat K) : a.conj.x = -a.x := rfl
@[simp] theorem conj_y (a : Quat K) : a.conj.y = -a.y := rfl
@[simp] theorem conj_z (a : Quat K) : a.conj.z = -a.z := rfl
@[simp] theorem conj_w (a : Quat K) : a.conj.w = a.w := rfl
@[simp] theorem smul_x (a : Quat K) (s : K) : (a.smul s).x = a.x * s := rfl
@[simp] theorem smul_y (a : Quat K) (s : K) : (a.smul s).y = a.y * s := rfl
@[simp] theorem smul_z (a : Quat K) (s : K) : (a.smul s).z = a.z * s := rfl
@[simp] theorem smul_w (a : Quat K) (s : K) : (a.smul s).w = a.w * s := rfl
@[simp] theorem neg_x (a : Quat K) : (-a).x = -a.x := rfl
@[simp] theorem neg_y (a : Quat K) : (-a).y = -a.y := rfl
@[simp] theorem neg_z (a : Quat K) : (-a).z = -a.z := rfl
@[simp] theorem neg_w (a : Quat K) : (-a).w = -a.w := rfl

theorem rotate_x (a : Quat K) (v : Vec3 K) : (a.rotate v).x =
    (a.w^2 + a.x^2 - a.y^2 - a.z^2) * v.x + 2 * (a.x * a.y - a.w * a.z) * v.y
      + 2 * (a.x * a.z + a.w * a.y) * v.z := by
  simp [rotate]; ring
theorem rotate_y (a : Quat K) (v : Vec3 K) : (a.rotate v).y =
    2 * (a.x * a.y + a.w * a.z) * v.x + (a.w^2 - a.x^2 + a.y^2 - a.z^2) * v.y
      + 2 * (a.y * a.z - a.w * a.x) * v.z := by
  simp [rotate]; ring
theorem rotate_z (a : Quat K) (v : Vec3 K) : (a.rotate v).z =
    2 * (a.x * a.z - a.w * a.y) * v.x + 2 * (a.y * a.z + a.w * a.x) * v.y
      + (a.w^2 - a.x^2 - a.y^2 + a.z^2) * v.z := by
  simp [rotate]; ring

theorem _root_.Mcl3dl.Vec3.add_x (u v : Vec3 K) : (u + v).x = u.x + v.x := rfl
theorem _root_.Mcl3dl.Vec3.add_y (u v : Vec3 K) : (u + v).y = u.y + v.y := rfl
theorem _root_.Mcl3dl.Vec3.add_z (u v : Vec3 K) : (u + v).z = u.z + v.z := rfl
theorem _root_.Mcl3dl.Vec3.sub_x (u v : Vec3 K) : (u - v).x = u.x - v.x := rfl
theorem _root_.Mcl3dl.Vec3.sub_y (u v : Vec3 K) : (u - v).y = u.y - v.y := rfl
theorem _root_.Mcl3dl.Vec3.sub_z (u v : Vec3 K) : (u - v).z = u.z - v.z := rfl
theorem _root_.Mcl3dl.Vec3.smul_x (u : Vec3 K) (s : K) : (u.smul s).x = u.x * s := rfl
theorem _root_.Mcl3dl.Vec3.smul_y (u : Vec3 K) (s : K) : (u.smul s).y = u.y * s := rfl
theorem _root_.Mcl3dl.Vec3.smul_z (u : Vec3 K) (s : K) : (u.smul s).z = u.z * s := rfl

/-- C28 (general form): the scalar product of rotated vectors is scaled by the squared quaternion
norm squared. -/
theorem C28_rotate_dot (q : Quat K) (u v : Vec3 K) :
    (q.rotate u).dot (q.rotate v) = (q.dot q) ^ 2 * u.dot v := by
  simp only [Vec3.dot, rotate_x, rotate_y, rotate_z, dot]; ring

/-- C28: a unit quaternion preserves dot products (hence lengths and angles). -/
theorem C28_unit_preserves_dot (q : Quat K) (hq : q.dot q = 1) (u v : Vec3 K) :
    (q.rotate u).dot (q.rotate v) = u.dot v := by
  rw [C28_rotate_dot, hq]; ring

/-- C28: a unit quaternion preserves cross products, i.e. orientation. -/
theorem C28_unit_preserves_cross (q : Quat K) (hq : q.dot q = 1) (u v : Vec3 K) :
    (q.rotate u).cross (q.rotate v) = q.rotate (u.cross v) := by
  have h : ∀ a : K, a = (q.dot q) * a := by intro a; rw [hq, one_mul]
  ext
  · rw [h (q.rotate (u.cross v)).x]
    simp only [Vec3.cross, rotate_x, rotate_y, rotate_z, dot]; ring
  · rw [h (q.rotate (u.cross v)).y]
    simp only [Vec3.cross, rotate_x, rotate_y, rotate_z, dot]; ring
  · rw [h (q.rotate (u.cross v)).z]
    simp only [Vec3.cross, rotate_x, rotate_y, rotate_z, dot]; ring

/-- C28: rotation by any quaternion is linear. -/
theorem C28_rotate_linear (q : Quat K) (u v : Vec3 K) (s : K) :
    q.rotate (u + v) = q.rotate u + q.rotate v ∧ q.rotate (u.smul s) = (q.rotate u).smul s := by
  constructor <;> ext <;>
    simp only [rotate_x, rotate_y, rotate_z, Vec3.add_x, Vec3.add_y, Vec3.add_z, Vec3.smul_x,
      Vec3.smul_y, Vec3.smul_z] <;> ring

/-- C28, lengths over the reals: `‖q * v‖ = ‖q‖² ‖v‖`. -/
theorem C28_rotate_norm (q : Quat ℝ) (v : Vec3 ℝ) :
    (q.rotate v).norm = q.norm ^ 2 * v.norm := by
  have h0 : 0 ≤ q.dot q := by simp only [dot]; nlinarith [sq_nonneg q.x, sq_nonneg q.y, sq_nonneg q.z, sq_nonneg q.w]
  simp only [Vec3.norm, norm, Transc.sqrt_real]
  rw [C28_rotate_dot, Real.sqrt_mul (by positivity), Real.sqrt_sq h0, Real.sq_sqrt h0]

/-- C29: the product is composition of rotations. -/
theorem C29_mul_rotate (a b : Quat K) (v : Vec3 K) : (a * b).rotate v = a.rotate (b.rotate v) := by
  ext <;> simp only [rotate_x, rotate_y, rotate_z, mul_x, mul_y, mul_z, mul_w] <;> ring

/-- C29: the product is associative. -/
theorem C29_mul_assoc (a b c : Quat K) : a * b * c = a * (b * c) := by
  ext <;> simp only [mul_x, mul_y, mul_z, mul_w] <;> ring

/-- C29: the default-constructed quaternion is the unit of the product and rotates nothing. -/
theorem C29_one (a : Quat K) (v : Vec3 K) :
    1 * a = a ∧ a * 1 = a ∧ (1 : Quat K).rotate v = v := by
  refine ⟨?_, ?_, ?_⟩ <;> ext <;> simp [rotate_x, rotate_y, rotate_z]

/-- C29: the squared norm is multiplicative. -/
theorem C29_dot_mul (a b : Quat K) : (a * b).dot (a * b) = a.dot a * b.dot b := by
  simp only [dot, mul_x, mul_y, mul_z, mul_w]; ring

/-- C29: the norm is multiplicative. -/
theorem C29_norm_mul (a b : Quat ℝ) : (a * b).norm = a.norm * b.norm := by
  have h0 : 0 ≤ a.dot a := by simp only [dot]; nlinarith [sq_nonneg a.x, sq_nonneg a.y, sq_nonneg a.z, sq_nonneg a.w]
  simp only [norm, Transc.sqrt_real]
  rw [C29_dot_mul, Real.sqrt_mul h0]

/-- Conjugation reverses products (used by the odometry model). -/
theorem conj_mul (a b : Quat K) : (a * b).conj = b.conj * a.conj := by
  ext <;> simp <;> ring

theorem mul_conj (a : Quat K) : a * a.conj = ⟨0, 0, 0, a.dot a⟩ := by
  ext <;> simp [dot] <;> ring

theorem conj_dot (a : Quat K) : a.conj.dot a.conj = a.dot a := by
  simp [dot]

/-- Non-vacuity of C28/C29: a rational unit quaternion that is not a trivial rotation. -/
example : (⟨1/3, 2/3, 0, 2/3⟩ : Quat ℚ).dot ⟨1/3, 2/3, 0, 2/3⟩ = 1 ∧
    (⟨1/3, 2/3, 0, 2/3⟩ : Quat ℚ).rotate ⟨1, 0, 0⟩ = ⟨1/9, 4/9, -8/9⟩ := by
  constructor
  · norm_num [dot]
  · ext <;> norm_num [rotate_x, rotate_y, rotate_z]

end Ring

section Field
variable {K : Type*} [Field K]

theorem inv_x (a : Quat K) : a.inv.x = -a.x / a.dot a := by simp [inv, sdiv, div_eq_mul_inv]
theorem inv_y (a : Quat K) : a.inv.y = -a.y / a.dot a := by simp [inv, sdiv, div_eq_mul_inv]
theorem inv_z (a : Quat K) : a.inv.z = -a.z / a.dot a := by simp [inv, sdiv, div_eq_mul_inv]
theorem inv_w (a : Quat K) : a.inv.w = a.w / a.dot a := by simp [inv, sdiv, div_eq_mul_inv]

/-- C30: `inv()` is the two-sided inverse of the product. -/
theorem C30_inv_mul (q : Quat K) (hq : q.dot q ≠ 0) : q.inv * q = 1 ∧ q * q.inv = 1 := by
  constructor <;> ext <;>
    simp only [mul_x, mul_y, mul_z, mul_w, inv_x, inv_y, inv_z, inv_w, one_x, one_y, one_z, one_w] <;>
    field_simp <;> simp only [dot] <;> ring

/-- C30: rotating back with `inv()` recovers every vector, for every non-zero quaternion (unit or
not). -/
theorem C30_inv_rotate (q : Quat K) (hq : q.dot q ≠ 0) (v : Vec3 K) :
    q.inv.rotate (q.rotate v) = v ∧ q.rotate (q.inv.rotate v) = v := by
  rw [← C29_mul_rotate, ← C29_mul_rotate, (C30_inv_mul q hq).1, (C30_inv_mul q hq).2]
  exact ⟨(C29_one q v).2.2, (C29_one q v).2.2⟩

/-- C30: for unit quaternions `inv()` is the conjugate. -/
theorem C30_inv_unit (q : Quat K) (hq : q.dot q = 1) : q.inv = q.conj := by
  ext <;> simp [inv_x, inv_y, inv_z, inv_w, hq]

end Field

/-- C30 over the reals: the hypothesis is just `q ≠ 0`. -/
theorem dot_self_ne_zero (q : Quat ℝ) (hq : q ≠ ⟨0, 0, 0, 0⟩) : 0 < q.dot q := by
  by_contra h
  apply hq
  simp only [dot] at h
  ext <;> nlinarith [mul_self_nonneg q.x, mul_self_nonneg q.y, mul_self_nonneg q.z, mul_self_nonneg q.w]

/-- C30 over the reals, for every quaternion other than zero. -/
theorem C30_inv_real (q : Quat ℝ) (hq : q ≠ ⟨0, 0, 0, 0⟩) (v : Vec3 ℝ) :
    q.inv * q = 1 ∧ q * q.inv = 1 ∧ q.inv.rotate (q.rotate v) = v := by
  have h := (dot_self_ne_zero q hq).ne'
  exact ⟨(C30_inv_mul q h).1, (C30_inv_mul q h).2, (C30_inv_rotate q h v).1⟩

example : (⟨1, 2, 3, 4⟩ : Quat ℝ) ≠ ⟨0, 0, 0, 0⟩ := by
  intro h; have := congrArg Quat.x h; norm_num at this

/-- C31: `normalized()` of a non-zero quaternion is a unit quaternion and a positive multiple of the
original. -/
theorem C31_normalized (q : Quat ℝ) (hq : q ≠ ⟨0, 0, 0, 0⟩) :
    q.normalized.norm = 1 ∧ q.normalized.dot q.normalized = 1 ∧
      ∃ s : ℝ, 0 < s ∧ q = q.normalized.smul s := by
  have h := dot_self_ne_zero q hq
  have hn : 0 < q.norm := by simpa [norm] using Real.sqrt_pos.2 h
  have hd : q.normalized.dot q.normalized = 1 := by
    have h2 : q.norm ^ 2 = q.dot q := by simpa [norm] using Real.sq_sqrt h.le
    have : q.normalized.dot q.normalized = q.dot q / q.norm ^ 2 := by
      simp only [normalized, sdiv, dot, smul_x, smul_y, smul_z, smul_w]
      field_simp
    rw [this, h2, div_self h.ne']
  refine ⟨by simp [norm, hd], hd, q.norm, hn, ?_⟩
  ext <;> simp [normalized, sdiv, hn.ne']

/-- C31: the normalized quaternion rotates every vector in the same direction as the original, and
without scaling it. -/
theorem C31_normalized_rotate (q : Quat ℝ) (hq : q ≠ ⟨0, 0, 0, 0⟩) (v : Vec3 ℝ) :
    (q.normalized.rotate v).smul (q.dot q) = q.rotate v ∧ (q.normalized.rotate v).norm = v.norm := by
  have h := dot_self_ne_zero q hq
  have hn : q.norm ≠ 0 := by simpa [norm] using (Real.sqrt_pos.2 h).ne'
  have h2 : q.dot q = q.norm ^ 2 := by simpa [norm] using (Real.sq_sqrt h.le).symm
  constructor
  · rw [h2]
    ext <;> simp only [Vec3.smul_x, Vec3.smul_y, Vec3.smul_z, rotate_x, rotate_y, rotate_z, normalized,
      sdiv, smul_x, smul_y, smul_z, smul_w] <;> field_simp
  · rw [C28_rotate_norm, (C31_normalized q hq).1]; ring

/-- C31: normalizing a unit quaternion changes nothing. -/
theorem C31_normalized_unit (q : Quat ℝ) (hq : q.dot q = 1) : q.normalized = q := by
  ext <;> simp [normalized, sdiv, norm, hq]

/-- The finite quaternion `q` read in extended arithmetic. -/
def toXR (q : Quat ℝ) : Quat XR := ⟨.fin q.x, .fin q.y, .fin q.z, .fin q.w⟩

/-- C31 in extended arithmetic: every non-zero quaternion has a finite normalization (the exact one),
and the zero quaternion is the only one that does not; it gives NaN in every component. -/
theorem C31_only_zero_fails (q : Quat ℝ) :
    (q ≠ ⟨0, 0, 0, 0⟩ → (toXR q).normalized = toXR q.normalized) ∧
    (q = ⟨0, 0, 0, 0⟩ → (toXR q).normalized = ⟨.nan, .nan, .nan, .nan⟩) := by
  constructor
  · intro hq
    have h := dot_self_ne_zero q hq
    have hn : Real.sqrt (q.dot q) ≠ 0 := (Real.sqrt_pos.2 h).ne'
    have hd : (toXR q).dot (toXR q) = .fin (q.dot q) := rfl
    have hs : (toXR q).norm = .fin (Real.sqrt (q.dot q)) := by
      simp only [norm, hd, XR.transc_sqrt, XR.sqrt_fin _ h.le]
    simp only [normalized, sdiv, hs, XR.one_def, XR.fin_div _ _ hn]
    rfl
  · rintro rfl
    have hs : (toXR ⟨0, 0, 0, 0⟩).norm = .fin 0 := by
      simp [norm, dot, toXR, XR.sqrt_fin]
    simp only [normalized, sdiv, hs, XR.one_def, XR.fin_div_zero_pos 1 one_pos]
    simp [smul, toXR, XR.zero_mul_pinf]

end Quat
end Mcl3dl
