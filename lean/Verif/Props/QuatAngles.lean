import Verif.Props.QuatAlgebra
import Mathlib.Analysis.SpecialFunctions.Trigonometric.Inverse
import Mathlib.Analysis.Real.Pi.Bounds

/-!
# C32 - C37: roll-pitch-yaw and axis-angle conversions (exact real arithmetic)
-/

namespace Mcl3dl
namespace Quat

open Real

theorem two_real : (two : ℝ) = 2 := by simp [two]

/-- Half-angle identities used throughout. -/
theorem cos_half (t : ℝ) : Real.cos t = Real.cos (t/2) ^ 2 - Real.sin (t/2) ^ 2 := by
  have := Real.cos_two_mul' (t/2); rwa [mul_div_cancel₀ _ (two_ne_zero)] at this
theorem sin_half (t : ℝ) : Real.sin t = 2 * Real.sin (t/2) * Real.cos (t/2) := by
  have := Real.sin_two_mul (t/2); rwa [mul_div_cancel₀ _ (two_ne_zero)] at this

/-- Closed form of the axis-angle constructor. -/
theorem ofAxisAng_eq (a : Vec3 ℝ) (ha : a.dot a = 1) (t : ℝ) :
    ofAxisAng a t = ⟨a.x * Real.sin (t/2), a.y * Real.sin (t/2), a.z * Real.sin (t/2), Real.cos (t/2)⟩ := by
  have hn : a.norm = 1 := by simp [Vec3.norm, ha]
  simp only [ofAxisAng, hn, Vec3.sdiv, div_one, two_real, Transc.sin_real, Transc.cos_real]
  apply C31_normalized_unit
  simp only [dot, Vec3.dot] at *
  have := Real.sin_sq_add_cos_sq (t/2)
  linear_combination this + ha * Real.sin (t/2)^2

/-- C32: the RPY constructor gives a unit quaternion. -/
theorem C32_unit (rpy : Vec3 ℝ) : (ofRPY rpy).dot (ofRPY rpy) = 1 := by
  simp only [ofRPY, dot, two_real, Transc.sin_real, Transc.cos_real]
  have h1 := Real.sin_sq_add_cos_sq (rpy.x/2)
  have h2 := Real.sin_sq_add_cos_sq (rpy.y/2)
  have h3 := Real.sin_sq_add_cos_sq (rpy.z/2)
  linear_combination (Real.sin (rpy.x/2)^2 + Real.cos (rpy.x/2)^2) * (Real.sin (rpy.y/2)^2 + Real.cos (rpy.y/2)^2) * h3
    + (Real.sin (rpy.x/2)^2 + Real.cos (rpy.x/2)^2) * h2 + h1

/-- C32: the RPY constructor is the composition of the rotation about x by roll, then about y by
pitch, then about z by yaw (each built with the axis-angle constructor). -/
theorem C32_composition (r p y : ℝ) :
    ofRPY (⟨r, p, y⟩ : Vec3 ℝ) =
      ofAxisAng ⟨0, 0, 1⟩ y * (ofAxisAng ⟨0, 1, 0⟩ p * ofAxisAng ⟨1, 0, 0⟩ r) := by
  rw [ofAxisAng_eq _ (by norm_num [Vec3.dot]), ofAxisAng_eq _ (by norm_num [Vec3.dot]),
    ofAxisAng_eq _ (by norm_num [Vec3.dot])]
  ext <;> simp [ofRPY, two_real] <;> ring

/-- C32, in terms of vectors: the textbook yaw-pitch-roll rotation matrix. -/
theorem C32_matrix (r p y : ℝ) (v : Vec3 ℝ) :
    (ofRPY (⟨r, p, y⟩ : Vec3 ℝ)).rotate v =
      ⟨cos y * cos p * v.x + (cos y * sin p * sin r - sin y * cos r) * v.y
          + (cos y * sin p * cos r + sin y * sin r) * v.z,
       sin y * cos p * v.x + (sin y * sin p * sin r + cos y * cos r) * v.y
          + (sin y * sin p * cos r - cos y * sin r) * v.z,
       -sin p * v.x + cos p * sin r * v.y + cos p * cos r * v.z⟩ := by
  have rot1 : ∀ (t : ℝ) (v : Vec3 ℝ), (ofAxisAng ⟨0, 0, 1⟩ t).rotate v =
      ⟨cos t * v.x - sin t * v.y, sin t * v.x + cos t * v.y, v.z⟩ := by
    intro t v
    have h := Real.sin_sq_add_cos_sq (t/2)
    rw [ofAxisAng_eq _ (by norm_num [Vec3.dot]), cos_half t, sin_half t]
    ext <;> simp only [rotate_x, rotate_y, rotate_z] <;> first | linear_combination v.z * h | ring
  have rot2 : ∀ (t : ℝ) (v : Vec3 ℝ), (ofAxisAng ⟨0, 1, 0⟩ t).rotate v =
      ⟨cos t * v.x + sin t * v.z, v.y, -sin t * v.x + cos t * v.z⟩ := by
    intro t v
    have h := Real.sin_sq_add_cos_sq (t/2)
    rw [ofAxisAng_eq _ (by norm_num [Vec3.dot]), cos_half t, sin_half t]
    ext <;> simp only [rotate_x, rotate_y, rotate_z] <;> first | linear_combination v.y * h | ring
  have rot3 : ∀ (t : ℝ) (v : Vec3 ℝ), (ofAxisAng ⟨1, 0, 0⟩ t).rotate v =
      ⟨v.x, cos t * v.y - sin t * v.z, sin t * v.y + cos t * v.z⟩ := by
    intro t v
    have h := Real.sin_sq_add_cos_sq (t/2)
    rw [ofAxisAng_eq _ (by norm_num [Vec3.dot]), cos_half t, sin_half t]
    ext <;> simp only [rotate_x, rotate_y, rotate_z] <;> first | linear_combination v.x * h | ring
  rw [C32_composition, C29_mul_rotate, C29_mul_rotate, rot3, rot2, rot1]
  ext <;> simp only <;> ring

/-- The five intermediate values of `getRPY` for a quaternion built from RPY. -/
theorem ofRPY_entries (r p y : ℝ) :
    let q := ofRPY (⟨r, p, y⟩ : Vec3 ℝ);
    (-2) * (q.y * q.y + q.z * q.z) + 1 = cos p * cos y ∧
    2 * (q.x * q.y + q.w * q.z) = cos p * sin y ∧
    -2 * (q.x * q.z - q.w * q.y) = sin p ∧
    2 * (q.y * q.z + q.w * q.x) = cos p * sin r ∧
    -2 * (q.x * q.x + q.y * q.y) + 1 = cos p * cos r := by
  intro q
  have hu : q.x * q.x + q.y * q.y + q.z * q.z + q.w * q.w = 1 := by simpa [dot] using C32_unit ⟨r, p, y⟩
  have hx := C32_matrix r p y ⟨1, 0, 0⟩
  have hy := C32_matrix r p y ⟨0, 1, 0⟩
  have hz := C32_matrix r p y ⟨0, 0, 1⟩
  have h1 := congrArg Vec3.x hx
  have h2 := congrArg Vec3.y hx
  have h3 := congrArg Vec3.z hx
  have h4 := congrArg Vec3.z hy
  have h5 := congrArg Vec3.z hz
  rw [rotate_x] at h1
  rw [rotate_y] at h2
  rw [rotate_z] at h3 h4 h5
  simp only at h1 h2 h3 h4 h5
  refine ⟨?_, ?_, ?_, ?_, ?_⟩
  · linear_combination h1 - hu
  · linear_combination h2
  · linear_combination -h3
  · linear_combination h4
  · linear_combination h5 - hu

theorem arg_polar (c t : ℝ) (hc : 0 < c) (ht : t ∈ Set.Ioc (-π) π) :
    Complex.arg ⟨c * cos t, c * sin t⟩ = t := by
  have := Complex.arg_mul_cos_add_sin_mul_I hc ht
  convert this using 2
  apply Complex.ext <;> simp [Complex.cos_ofReal_re, Complex.sin_ofReal_re, Complex.cos_ofReal_im, Complex.sin_ofReal_im]

/-- C33: `getRPY` inverts the RPY constructor away from gimbal lock. -/
theorem C33_getRPY_ofRPY (r p y : ℝ) (hr : r ∈ Set.Ioc (-π) π) (hp : p ∈ Set.Ioo (-(π/2)) (π/2))
    (hy : y ∈ Set.Ioc (-π) π) :
    (ofRPY (⟨r, p, y⟩ : Vec3 ℝ)).getRPY = ⟨r, p, y⟩ := by
  obtain ⟨h0, h1, h2, h3, h4⟩ := ofRPY_entries r p y
  have hc : 0 < cos p := Real.cos_pos_of_mem_Ioo hp
  simp only [getRPY, two_real, h0, h1, h2, h3, h4, cmax_eq, cmin_eq, Transc.atan2_real, Transc.asin_real]
  rw [min_eq_right (Real.sin_le_one p), max_eq_right (Real.neg_one_le_sin p),
    Real.arcsin_sin hp.1.le hp.2.le, arg_polar _ _ hc hr, arg_polar _ _ hc hy]

example : (1 : ℝ) ∈ Set.Ioc (-π) π ∧ (-1 : ℝ) ∈ Set.Ioo (-(π/2)) (π/2) := by
  have := Real.pi_gt_three
  constructor <;> constructor <;> linarith

theorem sq4_zero {a b c d : ℝ} (h : a^2 + b^2 + c^2 + d^2 = 0) : a = 0 ∧ b = 0 ∧ c = 0 ∧ d = 0 := by
  refine ⟨?_, ?_, ?_, ?_⟩ <;> apply pow_eq_zero_iff (two_ne_zero) |>.1 <;>
    nlinarith [sq_nonneg a, sq_nonneg b, sq_nonneg c, sq_nonneg d]

/-- Two quaternions represent the same rotation (for unit quaternions). -/
def SameRotation (p q : Quat ℝ) : Prop := p = q ∨ p = -q

/-- `SameRotation` really is equality of the rotations, for unit quaternions: one direction is
trivial, the other says the rotation determines the quaternion up to sign. -/
theorem sameRotation_iff (p q : Quat ℝ) (hp : p.dot p = 1) (hq : q.dot q = 1) :
    SameRotation p q ↔ ∀ v : Vec3 ℝ, p.rotate v = q.rotate v := by
  constructor
  · rintro (rfl | rfl) v
    · rfl
    · ext <;> simp [rotate_x, rotate_y, rotate_z]
  · intro h
    have hx := h ⟨1, 0, 0⟩
    have hy := h ⟨0, 1, 0⟩
    have hz := h ⟨0, 0, 1⟩
    have e11 := congrArg Vec3.x hx
    have e21 := congrArg Vec3.y hx
    have e31 := congrArg Vec3.z hx
    have e12 := congrArg Vec3.x hy
    have e22 := congrArg Vec3.y hy
    have e32 := congrArg Vec3.z hy
    have e13 := congrArg Vec3.x hz
    have e23 := congrArg Vec3.y hz
    have e33 := congrArg Vec3.z hz
    simp only [rotate_x, rotate_y, rotate_z, mul_zero, mul_one, add_zero, zero_add] at e11 e21 e31 e12 e22 e32 e13 e23 e33
    simp only [dot] at hp hq
    -- all products of components agree
    have ww : p.w * p.w = q.w * q.w := by linear_combination (hp - hq + e11 + e22 + e33) / 4
    have xx : p.x * p.x = q.x * q.x := by linear_combination (hp - hq + e11 - e22 - e33) / 4
    have yy : p.y * p.y = q.y * q.y := by linear_combination (hp - hq - e11 + e22 - e33) / 4
    have zz : p.z * p.z = q.z * q.z := by linear_combination (hp - hq - e11 - e22 + e33) / 4
    have wx : p.w * p.x = q.w * q.x := by linear_combination (e32 - e23) / 4
    have wy : p.w * p.y = q.w * q.y := by linear_combination (e13 - e31) / 4
    have wz : p.w * p.z = q.w * q.z := by linear_combination (e21 - e12) / 4
    have xy : p.x * p.y = q.x * q.y := by linear_combination (e21 + e12) / 4
    have xz : p.x * p.z = q.x * q.z := by linear_combination (e31 + e13) / 4
    have yz : p.y * p.z = q.y * q.z := by linear_combination (e32 + e23) / 4
    -- (p·q)² = 1
    have hs : (p.dot q) * (p.dot q) = 1 := by
      simp only [dot]
      have : (q.x * q.x + q.y * q.y + q.z * q.z + q.w * q.w) * (q.x * q.x + q.y * q.y + q.z * q.z + q.w * q.w) = 1 := by
        rw [hq]; ring
      linear_combination this + (q.x*q.x) * xx + (q.y*q.y) * yy + (q.z*q.z) * zz + (q.w*q.w) * ww
        + 2*(q.x*q.y)*xy + 2*(q.x*q.z)*xz + 2*(q.x*q.w)*wx + 2*(q.y*q.z)*yz + 2*(q.y*q.w)*wy + 2*(q.z*q.w)*wz
    rcases mul_self_eq_one_iff.1 hs with h1 | h1
    · left
      simp only [dot] at h1
      have : (p.x - q.x)^2 + (p.y - q.y)^2 + (p.z - q.z)^2 + (p.w - q.w)^2 = 0 := by
        linear_combination hp + hq - 2 * h1
      obtain ⟨a, b, c, d⟩ := sq4_zero this
      ext <;> linarith
    · right
      simp only [dot] at h1
      have : (p.x + q.x)^2 + (p.y + q.y)^2 + (p.z + q.z)^2 + (p.w + q.w)^2 = 0 := by
        linear_combination hp + hq + 2 * h1
      obtain ⟨a, b, c, d⟩ := sq4_zero this
      ext <;> simp only [neg_x, neg_y, neg_z, neg_w] <;> linarith

theorem polar_arg (c a b : ℝ) (hc : 0 < c) (h : a ^ 2 + b ^ 2 = c ^ 2) :
    c * cos (Complex.arg ⟨a, b⟩) = a ∧ c * sin (Complex.arg ⟨a, b⟩) = b := by
  have hn : ‖(⟨a, b⟩ : ℂ)‖ = c := by
    have : ‖(⟨a, b⟩ : ℂ)‖ = Real.sqrt (a ^ 2 + b ^ 2) := by
      rw [Complex.norm_def, Complex.normSq_mk]; congr 1; ring
    rw [this, h, Real.sqrt_sq hc.le]
  have hne : (⟨a, b⟩ : ℂ) ≠ 0 := by
    intro h0; rw [h0] at hn; simp at hn; linarith
  constructor
  · rw [Complex.cos_arg hne, hn]; field_simp
  · rw [Complex.sin_arg, hn]; field_simp

/-- C34 away from gimbal lock: converting a unit quaternion to RPY and back gives the same
rotation, whenever its pitch is not exactly +-90 degrees, i.e. the forward axis is not vertical.
(For the vertical case see `C34_gimbal_lock`.) -/
theorem C34_roundtrip (q : Quat ℝ) (hq : q.dot q = 1)
    (hv : |(q.rotate ⟨1, 0, 0⟩).z| < 1) : SameRotation (ofRPY q.getRPY) q := by
  have hq' : q.x * q.x + q.y * q.y + q.z * q.z + q.w * q.w = 1 := by simpa [dot] using hq
  simp only [rotate_z, mul_zero, mul_one, add_zero] at hv
  set s : ℝ := -2 * (q.x * q.z - q.w * q.y) with hs
  have hs' : 2 * (q.x * q.z - q.w * q.y) = -s := by rw [hs]; ring
  rw [hs', abs_neg, abs_lt] at hv
  have hc2 : 0 < 1 - s ^ 2 := by nlinarith
  set c := cos (Real.arcsin s) with hcdef
  have hc : c = Real.sqrt (1 - s ^ 2) := Real.cos_arcsin s
  have hcpos : 0 < c := by rw [hc]; exact Real.sqrt_pos.2 hc2
  have hcsq : c ^ 2 = 1 - s ^ 2 := by rw [hc]; exact Real.sq_sqrt hc2.le
  have hsin : sin (Real.arcsin s) = s := Real.sin_arcsin hv.1.le hv.2.le
  -- roll and yaw
  set t0 : ℝ := -2 * (q.y * q.y + q.z * q.z) + 1 with ht0
  set t1 : ℝ := 2 * (q.x * q.y + q.w * q.z) with ht1
  set t3 : ℝ := 2 * (q.y * q.z + q.w * q.x) with ht3
  set t4 : ℝ := -2 * (q.x * q.x + q.y * q.y) + 1 with ht4
  have g0 : t0 = q.w^2 + q.x^2 - q.y^2 - q.z^2 := by rw [ht0]; linear_combination -hq'
  have g4 : t4 = q.w^2 - q.x^2 - q.y^2 + q.z^2 := by rw [ht4]; linear_combination -hq'
  have one2 : (1:ℝ) = (q.x * q.x + q.y * q.y + q.z * q.z + q.w * q.w)^2 := by rw [hq']; ring
  have n01 : t0 ^ 2 + t1 ^ 2 = c ^ 2 := by
    rw [hcsq, g0, ht1, hs, one2]; ring
  have n43 : t4 ^ 2 + t3 ^ 2 = c ^ 2 := by
    rw [hcsq, g4, ht3, hs, one2]; ring
  obtain ⟨y1, y2⟩ := polar_arg c t0 t1 hcpos n01
  obtain ⟨r1, r2⟩ := polar_arg c t4 t3 hcpos n43
  have hrpy : q.getRPY = ⟨Complex.arg ⟨t4, t3⟩, Real.arcsin s, Complex.arg ⟨t0, t1⟩⟩ := by
    simp only [getRPY, two_real, cmax_eq, cmin_eq, Transc.atan2_real, Transc.asin_real]
    rw [← hs, min_eq_right hv.2.le, max_eq_right hv.1.le]
  rw [hrpy]
  set R := Complex.arg ⟨t4, t3⟩
  set Y := Complex.arg ⟨t0, t1⟩
  rw [sameRotation_iff _ _ (C32_unit _) hq]
  intro v
  rw [C32_matrix, hsin, ← hcdef]
  have hone : (1:ℝ) - s^2 = (q.x * q.x + q.y * q.y + q.z * q.z + q.w * q.w)^2 - s^2 := by rw [hq']; ring
  have cc : c ^ 2 ≠ 0 := by positivity
  -- the four remaining matrix entries
  have m12 : cos Y * s * sin R - sin Y * cos R = 2 * (q.x * q.y - q.w * q.z) := by
    apply mul_left_cancel₀ cc
    have : c^2 * (cos Y * s * sin R - sin Y * cos R) = (c * cos Y) * s * (c * sin R) - (c * sin Y) * (c * cos R) := by ring
    rw [this, y1, y2, r1, r2, hcsq, hone, ← one_mul (t1 * t4), ← hq', g0, g4, ht1, ht3, hs]; ring
  have m13 : cos Y * s * cos R + sin Y * sin R = 2 * (q.x * q.z + q.w * q.y) := by
    apply mul_left_cancel₀ cc
    have : c^2 * (cos Y * s * cos R + sin Y * sin R) = (c * cos Y) * s * (c * cos R) + (c * sin Y) * (c * sin R) := by ring
    rw [this, y1, y2, r1, r2, hcsq, hone, ← one_mul (t1 * t3), ← hq', g0, g4, ht1, ht3, hs]; ring
  have m22 : sin Y * s * sin R + cos Y * cos R = q.w^2 - q.x^2 + q.y^2 - q.z^2 := by
    apply mul_left_cancel₀ cc
    have : c^2 * (sin Y * s * sin R + cos Y * cos R) = (c * sin Y) * s * (c * sin R) + (c * cos Y) * (c * cos R) := by ring
    rw [this, y1, y2, r1, r2, hcsq, hone, ← one_mul (t0 * t4), ← hq', g0, g4, ht1, ht3, hs]; ring
  have m23 : sin Y * s * cos R - cos Y * sin R = 2 * (q.y * q.z - q.w * q.x) := by
    apply mul_left_cancel₀ cc
    have : c^2 * (sin Y * s * cos R - cos Y * sin R) = (c * sin Y) * s * (c * cos R) - (c * cos Y) * (c * sin R) := by ring
    rw [this, y1, y2, r1, r2, hcsq, hone, ← one_mul (t0 * t3), ← hq', g0, g4, ht1, ht3, hs]; ring
  ext
  · simp only [rotate_x]; rw [m12, m13, mul_comm (cos Y) c, y1, g0]
  · simp only [rotate_y]; rw [m22, m23, mul_comm (sin Y) c, y2]
  · simp only [rotate_z]; rw [r1, r2, g4]; linear_combination -v.x * hs'

/-- C34 at gimbal lock: if the forward axis is vertical, the RPY angles are (0, ±90°, 0), so the round trip forgets
the rotation about the vertical: it gives the same rotation exactly if there was none. -/
theorem C34_gimbal_lock (q : Quat ℝ) (hq : q.dot q = 1) (hv : |(q.rotate ⟨1, 0, 0⟩).z| = 1) :
    q.getRPY = ⟨0, -(q.rotate ⟨1, 0, 0⟩).z * (π / 2), 0⟩ ∧
    (SameRotation (ofRPY q.getRPY) q ↔ q.rotate ⟨0, 1, 0⟩ = ⟨0, 1, 0⟩) := by
  have hq' : q.x * q.x + q.y * q.y + q.z * q.z + q.w * q.w = 1 := by simpa [dot] using hq
  have hzz : (⟨0, 0⟩ : ℂ) = 0 := rfl
  have hz : (q.rotate ⟨1, 0, 0⟩).z = 2 * (q.x * q.z - q.w * q.y) := by simp [rotate_z]
  rw [hz] at hv ⊢
  have hrpy : q.getRPY = ⟨0, -(2 * (q.x * q.z - q.w * q.y)) * (π / 2), 0⟩ := by
    simp only [getRPY, two_real, cmax_eq, cmin_eq, Transc.atan2_real, Transc.asin_real]
    rcases (abs_eq one_pos.le).1 hv with h | h
    · have e : (q.x - q.z) ^ 2 + (q.w + q.y) ^ 2 + 0 ^ 2 + 0 ^ 2 = 0 := by nlinarith
      obtain ⟨e1, e2, -, -⟩ := sq4_zero e
      have hx : q.x = q.z := by linarith
      have hw : q.w = -q.y := by linarith
      have hn : q.z * q.z + q.y * q.y = 1 / 2 := by rw [hx, hw] at hq'; linarith
      have t0 : -2 * (q.y * q.y + q.z * q.z) + 1 = 0 := by linarith
      have t1 : 2 * (q.x * q.y + q.w * q.z) = 0 := by rw [hx, hw]; ring
      have t3 : 2 * (q.y * q.z + q.w * q.x) = 0 := by rw [hx, hw]; ring
      have t4 : -2 * (q.x * q.x + q.y * q.y) + 1 = 0 := by rw [hx]; linarith
      have t2 : -2 * (q.x * q.z - q.w * q.y) = -1 := by linarith
      rw [t0, t1, t2, t3, t4, h]
      norm_num [hzz]
    · have e : (q.x + q.z) ^ 2 + (q.w - q.y) ^ 2 + 0 ^ 2 + 0 ^ 2 = 0 := by nlinarith
      obtain ⟨e1, e2, -, -⟩ := sq4_zero e
      have hx : q.x = -q.z := by linarith
      have hw : q.w = q.y := by linarith
      have hn : q.z * q.z + q.y * q.y = 1 / 2 := by rw [hx, hw] at hq'; linarith
      have t0 : -2 * (q.y * q.y + q.z * q.z) + 1 = 0 := by linarith
      have t1 : 2 * (q.x * q.y + q.w * q.z) = 0 := by rw [hx, hw]; ring
      have t3 : 2 * (q.y * q.z + q.w * q.x) = 0 := by rw [hx, hw]; ring
      have t4 : -2 * (q.x * q.x + q.y * q.y) + 1 = 0 := by rw [hx]; linarith
      have t2 : -2 * (q.x * q.z - q.w * q.y) = 1 := by linarith
      rw [t0, t1, t2, t3, t4, h]
      norm_num [hzz]
  refine ⟨hrpy, ?_⟩
  rw [hrpy, sameRotation_iff _ _ (C32_unit _) hq]
  set s := 2 * (q.x * q.z - q.w * q.y) with hs
  have hc : cos (-s * (π / 2)) = 0 := by
    rcases (abs_eq one_pos.le).1 hv with h | h <;> rw [h] <;> simp
  have hsn : sin (-s * (π / 2)) = -s := by
    rcases (abs_eq one_pos.le).1 hv with h | h <;> rw [h] <;> simp
  constructor
  · intro h
    rw [← h ⟨0, 1, 0⟩, C32_matrix]
    simp
  · intro h v
    have h1 := congrArg Vec3.x h; have h2 := congrArg Vec3.y h; have h3 := congrArg Vec3.z h
    simp only [rotate_x, rotate_y, rotate_z] at h1 h2 h3
    rw [C32_matrix]
    simp only [Real.sin_zero, Real.cos_zero, hc, hsn]
    rcases (abs_eq one_pos.le).1 hv with h | h
    · have e : (q.x - q.z) ^ 2 + (q.w + q.y) ^ 2 + 0 ^ 2 + 0 ^ 2 = 0 := by nlinarith
      obtain ⟨e1, e2, -, -⟩ := sq4_zero e
      have hx : q.x = q.z := by linarith
      have hw : q.w = -q.y := by linarith
      rw [hx, hw] at h1 h2 h3 hq'
      rw [h]
      have hz0 : q.z = 0 := by
        have : q.z * q.z = 0 := by linarith
        simpa using this
      have hy2 : q.y ^ 2 = 1 / 2 := by rw [hz0] at hq'; linarith
      ext
      · simp only [rotate_x, hx, hw, hz0]; ring_nf; try rw [hy2]
        ring
      · simp only [rotate_y, hx, hw, hz0]; ring_nf; try rw [hy2]
        ring
      · simp only [rotate_z, hx, hw, hz0]; ring_nf; try rw [hy2]
        ring
    · have e : (q.x + q.z) ^ 2 + (q.w - q.y) ^ 2 + 0 ^ 2 + 0 ^ 2 = 0 := by nlinarith
      obtain ⟨e1, e2, -, -⟩ := sq4_zero e
      have hx : q.x = -q.z := by linarith
      have hw : q.w = q.y := by linarith
      rw [hx, hw] at h1 h2 h3 hq'
      rw [h]
      have hz0 : q.z = 0 := by
        have : q.z * q.z = 0 := by linarith
        simpa using this
      have hy2 : q.y ^ 2 = 1 / 2 := by rw [hz0] at hq'; linarith
      ext
      · simp only [rotate_x, hx, hw, hz0]; ring_nf; try rw [hy2]
        ring
      · simp only [rotate_y, hx, hw, hz0]; ring_nf; try rw [hy2]
        ring
      · simp only [rotate_z, hx, hw, hz0]; ring_nf; try rw [hy2]
        ring

/-- C34: the conversion can lose the rotation at gimbal lock.  This unit quaternion points
its forward axis straight down; the round trip gives a different rotation. -/
theorem C34_gimbal_lock_example :
    ∃ q : Quat ℝ, q.dot q = 1 ∧ ¬ SameRotation (ofRPY q.getRPY) q := by
  refine ⟨⟨-1/2, 1/2, 1/2, 1/2⟩, by norm_num [dot], ?_⟩
  have hrpy : (⟨-1/2, 1/2, 1/2, 1/2⟩ : Quat ℝ).getRPY = ⟨0, π/2, 0⟩ := by
    have hz : (⟨0, 0⟩ : ℂ) = 0 := rfl
    simp only [getRPY, two_real, cmax_eq, cmin_eq, Transc.atan2_real, Transc.asin_real]
    norm_num [hz]
  rw [hrpy, sameRotation_iff _ _ (C32_unit _) (by norm_num [dot])]
  intro h
  have := congrArg Vec3.x (h ⟨0, 1, 0⟩)
  rw [C32_matrix] at this
  norm_num [rotate_x] at this

example : ((⟨1/3, 2/3, 0, 2/3⟩ : Quat ℝ)).dot ⟨1/3, 2/3, 0, 2/3⟩ = 1 ∧
    |((⟨1/3, 2/3, 0, 2/3⟩ : Quat ℝ).rotate ⟨1, 0, 0⟩).z| < 1 := by
  constructor
  · norm_num [dot]
  · norm_num [rotate_z, abs_lt]

/-- `axis / axis.norm()` is a unit vector. -/
theorem unitAxis (a : Vec3 ℝ) (ha : a ≠ ⟨0, 0, 0⟩) :
    0 < a.norm ∧ (a.sdiv a.norm).dot (a.sdiv a.norm) = 1 := by
  have h : 0 < a.dot a := by
    by_contra h
    apply ha
    simp only [Vec3.dot] at h
    ext <;> nlinarith [mul_self_nonneg a.x, mul_self_nonneg a.y, mul_self_nonneg a.z]
  have hn : 0 < a.norm := by simpa [Vec3.norm] using Real.sqrt_pos.2 h
  refine ⟨hn, ?_⟩
  have h2 : a.norm ^ 2 = a.dot a := by simpa [Vec3.norm] using Real.sq_sqrt h.le
  have : (a.sdiv a.norm).dot (a.sdiv a.norm) = a.dot a / a.norm ^ 2 := by
    simp only [Vec3.sdiv, Vec3.dot]; field_simp
  rw [this, h2, div_self h.ne']

theorem ofAxisAng_scale (a : Vec3 ℝ) (ha : a ≠ ⟨0, 0, 0⟩) (t : ℝ) :
    ofAxisAng a t = ofAxisAng (a.sdiv a.norm) t := by
  obtain ⟨_, h⟩ := unitAxis a ha
  have hn : (a.sdiv a.norm).norm = 1 := by rw [Vec3.norm, h]; simp
  unfold ofAxisAng
  rw [hn]
  simp [Vec3.sdiv]

/-- C35: axis-angle gives a unit quaternion. -/
theorem C35_unit (a : Vec3 ℝ) (ha : a ≠ ⟨0, 0, 0⟩) (t : ℝ) :
    (ofAxisAng a t).dot (ofAxisAng a t) = 1 := by
  obtain ⟨_, h⟩ := unitAxis a ha
  rw [ofAxisAng_scale a ha, ofAxisAng_eq _ h]
  simp only [dot, Vec3.dot] at *
  have := Real.sin_sq_add_cos_sq (t/2)
  linear_combination this + h * Real.sin (t/2)^2

/-- C35: Rodrigues' rotation formula about the normalized axis `u`. -/
theorem C35_rodrigues (a : Vec3 ℝ) (ha : a ≠ ⟨0, 0, 0⟩) (t : ℝ) (v : Vec3 ℝ) :
    let u := a.normalized
    (ofAxisAng a t).rotate v =
      v.smul (cos t) + (u.cross v).smul (sin t) + u.smul (u.dot v * (1 - cos t)) := by
  intro u
  obtain ⟨_, h⟩ := unitAxis a ha
  have hu : u.dot u = 1 := h
  rw [ofAxisAng_scale a ha, ofAxisAng_eq _ h]
  change (Quat.mk (u.x * _) (u.y * _) (u.z * _) _).rotate v = _
  rw [cos_half t, sin_half t]
  have hs := Real.sin_sq_add_cos_sq (t/2)
  have h1 : 1 - (cos (t/2)^2 - sin (t/2)^2) = 2 * sin (t/2)^2 := by linear_combination -hs
  rw [h1]
  simp only [Vec3.dot] at hu ⊢
  ext
  · simp only [rotate_x, Vec3.add_x, Vec3.smul_x, Vec3.cross]
    linear_combination (-v.x * sin (t/2)^2) * hu
  · simp only [rotate_y, Vec3.add_y, Vec3.smul_y, Vec3.cross]
    linear_combination (-v.y * sin (t/2)^2) * hu
  · simp only [rotate_z, Vec3.add_z, Vec3.smul_z, Vec3.cross]
    linear_combination (-v.z * sin (t/2)^2) * hu

/-- C35: the axis is fixed. -/
theorem C35_fixes_axis (a : Vec3 ℝ) (ha : a ≠ ⟨0, 0, 0⟩) (t : ℝ) : (ofAxisAng a t).rotate a = a := by
  obtain ⟨hn, h⟩ := unitAxis a ha
  rw [C35_rodrigues a ha]
  have e : a = (a.normalized).smul a.norm := by
    ext <;> simp [Vec3.normalized, Vec3.sdiv, Vec3.smul, hn.ne']
  have hu : a.normalized.dot a.normalized = 1 := h
  generalize a.normalized = u at *
  generalize a.norm = n at *
  subst e
  simp only [Vec3.dot] at hu
  ext
  · simp only [Vec3.add_x, Vec3.cross, Vec3.smul, Vec3.dot]
    linear_combination (u.x * n * (1 - cos t)) * hu
  · simp only [Vec3.add_y, Vec3.cross, Vec3.smul, Vec3.dot]
    linear_combination (u.y * n * (1 - cos t)) * hu
  · simp only [Vec3.add_z, Vec3.cross, Vec3.smul, Vec3.dot]
    linear_combination (u.z * n * (1 - cos t)) * hu

example : (⟨1, 2, 2⟩ : Vec3 ℝ) ≠ ⟨0, 0, 0⟩ := by
  intro h; have := congrArg Vec3.x h; norm_num at this

/-- C36: for unit quaternions with `|w| < 1 - 1e-6`, `getAxisAng` returns a unit axis and an angle in
`(-π, π]`, whose axis-angle quaternion is the same rotation. -/
theorem C36_getAxisAng (q : Quat ℝ) (hq : q.dot q = 1) (hw : |q.w| < 1 - 1/1000000) :
    q.getAxisAng.1.dot q.getAxisAng.1 = 1 ∧ q.getAxisAng.2 ∈ Set.Ioc (-π) π ∧
      SameRotation (ofAxisAng q.getAxisAng.1 q.getAxisAng.2) q := by
  have hw1 : |q.w| < 1 := by linarith
  rw [abs_lt] at hw1
  have hw2 : 0 < 1 - q.w * q.w := by nlinarith
  set n := Real.sqrt (1 - q.w * q.w) with hn
  have hnpos : 0 < n := Real.sqrt_pos.2 hw2
  have hnsq : n ^ 2 = 1 - q.w * q.w := Real.sq_sqrt hw2.le
  have hq' : q.x * q.x + q.y * q.y + q.z * q.z + q.w * q.w = 1 := by simpa [dot] using hq
  have hcond : ¬ (1 - 1/(((1000000 : ℕ) : ℝ)) ≤ cabs q.w) := by
    rw [cabs_eq]; push_cast; linarith
  have hdef : q.getAxisAng = (⟨q.x / n, q.y / n, q.z / n⟩,
      if π < Real.arccos q.w * 2 then Real.arccos q.w * 2 - 2 * π else Real.arccos q.w * 2) := by
    simp only [getAxisAng, hcond, if_false, two_real, Transc.acos_real, Transc.pi_real, Transc.sqrt_real, Vec3.sdiv, ← hn]
  have hax : (⟨q.x / n, q.y / n, q.z / n⟩ : Vec3 ℝ).dot ⟨q.x / n, q.y / n, q.z / n⟩ = 1 := by
    have : (⟨q.x / n, q.y / n, q.z / n⟩ : Vec3 ℝ).dot ⟨q.x / n, q.y / n, q.z / n⟩
        = (q.x * q.x + q.y * q.y + q.z * q.z) / n^2 := by
      simp only [Vec3.dot]; field_simp
    rw [this, hnsq]
    rw [div_eq_one_iff_eq hw2.ne']; linarith
  have hpos : 0 < Real.arccos q.w := Real.arccos_pos.2 hw1.2
  have hlt : Real.arccos q.w < π := by
    rcases (Real.arccos_le_pi q.w).lt_or_eq with h | h
    · exact h
    · exfalso; rw [Real.arccos_eq_pi] at h; linarith
  have hcos : cos (Real.arccos q.w) = q.w := Real.cos_arccos hw1.1.le hw1.2.le
  have hsin : sin (Real.arccos q.w) = n := by
    rw [Real.sin_arccos, hn]; congr 1; ring
  rw [hdef]
  refine ⟨hax, ?_, ?_⟩
  · simp only
    split_ifs with h
    · constructor <;> linarith
    · constructor <;> linarith
  · simp only
    rw [ofAxisAng_eq _ hax]
    split_ifs with h
    · right
      have e : (Real.arccos q.w * 2 - 2 * π) / 2 = Real.arccos q.w - π := by ring
      rw [e, Real.sin_sub_pi, Real.cos_sub_pi, hsin, hcos]
      ext <;> simp <;> field_simp
    · left
      have e : (Real.arccos q.w * 2) / 2 = Real.arccos q.w := by ring
      rw [e, hsin, hcos]
      ext <;> simp <;> field_simp

/-- C36: all other quaternions are treated as the identity rotation (axis z, angle 0). -/
theorem C36_near_identity (q : Quat ℝ) (hw : 1 - 1/1000000 ≤ |q.w|) :
    q.getAxisAng = (⟨0, 0, 1⟩, 0) ∧ ofAxisAng q.getAxisAng.1 q.getAxisAng.2 = 1 := by
  have : q.getAxisAng = (⟨0, 0, 1⟩, 0) := by
    unfold getAxisAng
    rw [if_pos]
    rw [cabs_eq]; push_cast; exact hw
  refine ⟨this, ?_⟩
  rw [this, ofAxisAng_eq _ (by norm_num [Vec3.dot])]
  ext <;> simp

example : (⟨1/3, 2/3, 0, 2/3⟩ : Quat ℝ).dot ⟨1/3, 2/3, 0, 2/3⟩ = 1 ∧
    |(⟨1/3, 2/3, 0, 2/3⟩ : Quat ℝ).w| < 1 - 1/1000000 := by
  constructor
  · norm_num [dot]
  · norm_num [abs_lt]

theorem rotate_dot_self_one (r : Quat ℝ) (hr : r.dot r = 1) (v : Vec3 ℝ) (hv : v.dot v = 1) :
    (r.rotate v).dot (r.rotate v) = 1 := by rw [C28_unit_preserves_dot r hr, hv]

/-- C37: `rotateAxis` conjugates the rotation, for quaternions that are not (nearly) the identity. -/
theorem C37_rotateAxis (q r : Quat ℝ) (hq : q.dot q = 1) (hr : r.dot r = 1)
    (hw : |q.w| < 1 - 1/1000000) : SameRotation (q.rotateAxis r) (r * q * r.conj) := by
  obtain ⟨hax, _, hs⟩ := C36_getAxisAng q hq hw
  have key : q.rotateAxis r = r * ofAxisAng q.getAxisAng.1 q.getAxisAng.2 * r.conj := by
    unfold rotateAxis
    rw [ofAxisAng_eq _ hax, ofAxisAng_eq _ (rotate_dot_self_one r hr _ hax)]
    generalize q.getAxisAng.1 = u
    generalize q.getAxisAng.2 = t
    have hr' : r.x * r.x + r.y * r.y + r.z * r.z + r.w * r.w = 1 := by simpa [dot] using hr
    ext
    · simp only [rotate_x, mul_x, mul_y, mul_z, mul_w, conj_x, conj_y, conj_z, conj_w]; ring
    · simp only [rotate_y, mul_x, mul_y, mul_z, mul_w, conj_x, conj_y, conj_z, conj_w]; ring
    · simp only [rotate_z, mul_x, mul_y, mul_z, mul_w, conj_x, conj_y, conj_z, conj_w]; ring
    · simp only [mul_x, mul_y, mul_z, mul_w, conj_x, conj_y, conj_z, conj_w]
      linear_combination (-cos (t/2)) * hr'
  rw [key]
  rcases hs with h | h
  · left; rw [h]
  · right; rw [h]
    ext <;> simp <;> ring

/-- C37, complement: a rotation that is (nearly) the identity becomes exactly the identity. -/
theorem C37_near_identity (q r : Quat ℝ) (hr : r.dot r = 1) (hw : 1 - 1/1000000 ≤ |q.w|) :
    q.rotateAxis r = 1 := by
  unfold rotateAxis
  rw [(C36_near_identity q hw).1, ofAxisAng_eq _ (rotate_dot_self_one r hr _ (by norm_num [Vec3.dot]))]
  ext <;> simp

end Quat
end Mcl3dl
