import Verif.Props.QuatAngles

/-!
# C38: the look-at constructor `Quat(forward, up)` (exact real arithmetic)
-/

namespace Mcl3dl
namespace Quat

open Real

/-- The coordinate axes. -/
def ex : Vec3 ℝ := ⟨1, 0, 0⟩
def ey : Vec3 ℝ := ⟨0, 1, 0⟩
def ez : Vec3 ℝ := ⟨0, 0, 1⟩

/-- Specification of the look-at orientation: `q` is a unit quaternion whose forward (x) axis is the
normalized `f`, and `u` lies in its x-z half plane with positive z, i.e. `u` has no y component and a
positive z component in the rotated frame. -/
structure Aligned (q : Quat ℝ) (f u : Vec3 ℝ) : Prop where
  unit : q.dot q = 1
  forward : (q.rotate ex).smul f.norm = f
  noSide : (q.rotate ey).dot u = 0
  up : 0 < (q.rotate ez).dot u

theorem ex_rot_dot (p : Quat ℝ) (hp : p.dot p = 1) : (p.rotate ex).dot (p.rotate ex) = 1 := by
  rw [C28_unit_preserves_dot p hp]; simp [ex, Vec3.dot]
theorem ey_rot_dot (p : Quat ℝ) (hp : p.dot p = 1) : (p.rotate ey).dot (p.rotate ey) = 1 := by
  rw [C28_unit_preserves_dot p hp]; simp [ey, Vec3.dot]
theorem ez_rot_dot (p : Quat ℝ) (hp : p.dot p = 1) : (p.rotate ez).dot (p.rotate ez) = 1 := by
  rw [C28_unit_preserves_dot p hp]; simp [ez, Vec3.dot]

theorem normalized_smul (v : Vec3 ℝ) (hv : v.dot v = 1) (s : ℝ) (hs : 0 < s) :
    (v.smul s).normalized = v := by
  have h : (v.smul s).dot (v.smul s) = s ^ 2 := by
    simp only [Vec3.dot, Vec3.smul] at *; linear_combination s^2 * hv
  have hn : (v.smul s).norm = s := by
    rw [Vec3.norm, h, Transc.sqrt_real, Real.sqrt_sq hs.le]
  unfold Vec3.normalized
  rw [hn]
  ext <;> simp [Vec3.sdiv, Vec3.smul, hs.ne']

theorem smul_norm (v : Vec3 ℝ) (hv : v.dot v = 1) (s : ℝ) (hs : 0 < s) : (v.smul s).norm = s := by
  have h : (v.smul s).dot (v.smul s) = s ^ 2 := by
    simp only [Vec3.dot, Vec3.smul] at *; linear_combination s^2 * hv
  rw [Vec3.norm, h, Transc.sqrt_real, Real.sqrt_sq hs.le]

/-- The quaternion the constructor returns when `p` is a correct answer. -/
noncomputable def canon (p : Quat ℝ) : Quat ℝ :=
  if 0 < p.w then p else if p.w < 0 then -p else ⟨|p.x|, |p.y|, |p.z|, 0⟩

theorem signed (w x : ℝ) : (if 0 < -(4 * (w * x)) then -|x| else |x|) =
    if 0 < w then x else if w < 0 then -x else |x| := by
  rcases lt_trichotomy w 0 with hw | hw | hw
  · rw [if_neg (not_lt.2 hw.le), if_pos hw]
    rcases le_or_gt x 0 with hx | hx
    · rw [if_neg (by nlinarith [mul_nonneg_of_nonpos_of_nonpos hw.le hx]), abs_of_nonpos hx]
    · rw [if_pos (by nlinarith [mul_neg_of_neg_of_pos hw hx]), abs_of_pos hx]
  · subst hw; simp
  · rw [if_pos hw]
    rcases lt_or_ge x 0 with hx | hx
    · rw [if_pos (by nlinarith [mul_neg_of_pos_of_neg hw hx]), abs_of_neg hx]; ring
    · rw [if_neg (by nlinarith [mul_nonneg hw.le hx]), abs_of_nonneg hx]

/-- Everything the constructor computes, in terms of a correct answer `p`. -/
theorem lookAt_eq_canon (p : Quat ℝ) (hp : p.dot p = 1) (s t r : ℝ) (hs : 0 < s) (ht : 0 < t) :
    lookAt ((p.rotate ex).smul s) ((p.rotate ez).smul t + (p.rotate ex).smul r) = canon p := by
  have hx := ex_rot_dot p hp
  have hy := ey_rot_dot p hp
  have hz := ez_rot_dot p hp
  have zx : (p.rotate ez).cross (p.rotate ex) = p.rotate ey := by
    rw [C28_unit_preserves_cross p hp]; congr 1; ext <;> simp [ex, ey, ez, Vec3.cross]
  have xy : (p.rotate ex).cross (p.rotate ey) = p.rotate ez := by
    rw [C28_unit_preserves_cross p hp]; congr 1; ext <;> simp [ex, ey, ez, Vec3.cross]
  have hcr : ((p.rotate ez).smul t + (p.rotate ex).smul r).cross (p.rotate ex) = (p.rotate ey).smul t := by
    rw [← zx]
    ext <;> simp only [Vec3.cross, Vec3.add_x, Vec3.add_y, Vec3.add_z, Vec3.smul] <;> ring
  have hz' : (p.rotate ez).normalized = p.rotate ez := by
    have := normalized_smul _ hz 1 one_pos
    have e : (p.rotate ez).smul 1 = p.rotate ez := by ext <;> simp [Vec3.smul]
    rwa [e] at this
  have hp' : p.x * p.x + p.y * p.y + p.z * p.z + p.w * p.w = 1 := by simpa [dot] using hp
  have sq : ∀ a T : ℝ, T = (2 * a)^2 → Real.sqrt (max 0 T) / 2 = |a| := by
    intro a T h
    rw [h, max_eq_right (sq_nonneg _), Real.sqrt_sq_eq_abs, abs_mul]; simp
  unfold lookAt
  simp only [normalized_smul _ hx s hs, hcr, normalized_smul _ hy t ht, xy, hz', two_real, cmax_eq,
    Transc.sqrt_real]
  have ew := sq p.w (1 + (p.rotate ex).x + (p.rotate ey).y + (p.rotate ez).z) (by
    simp only [rotate_x, rotate_y, rotate_z, ex, ey, ez]; linear_combination -hp')
  have exx := sq p.x (1 + (p.rotate ex).x - (p.rotate ey).y - (p.rotate ez).z) (by
    simp only [rotate_x, rotate_y, rotate_z, ex, ey, ez]; linear_combination -hp')
  have eyy := sq p.y (1 - (p.rotate ex).x + (p.rotate ey).y - (p.rotate ez).z) (by
    simp only [rotate_x, rotate_y, rotate_z, ex, ey, ez]; linear_combination -hp')
  have ezz := sq p.z (1 - (p.rotate ex).x - (p.rotate ey).y + (p.rotate ez).z) (by
    simp only [rotate_x, rotate_y, rotate_z, ex, ey, ez]; linear_combination -hp')
  have d1 : (p.rotate ez).y - (p.rotate ey).z = -(4 * (p.w * p.x)) := by
    simp only [rotate_y, rotate_z, ey, ez]; ring
  have d2 : (p.rotate ex).z - (p.rotate ez).x = -(4 * (p.w * p.y)) := by
    simp only [rotate_x, rotate_z, ex, ez]; ring
  have d3 : (p.rotate ey).x - (p.rotate ex).y = -(4 * (p.w * p.z)) := by
    simp only [rotate_x, rotate_y, ex, ey]; ring
  rw [ew, exx, eyy, ezz, d1, d2, d3, signed, signed, signed]
  unfold canon
  rcases lt_trichotomy p.w 0 with hw | hw | hw
  · simp only [if_neg (not_lt.2 hw.le), if_pos hw]
    ext <;> simp [abs_of_neg hw]
  · simp [hw]
  · simp only [if_pos hw]
    ext <;> simp [abs_of_pos hw]

/-- Every right-handed orthonormal pair is the image of the x and y axes under a unit quaternion. -/
theorem exists_quat (a b : Vec3 ℝ) (ha : a.dot a = 1) (hb : b.dot b = 1) (hab : a.dot b = 0) :
    ∃ p : Quat ℝ, p.dot p = 1 ∧ p.rotate ex = a ∧ p.rotate ey = b := by
  -- first take ex to a
  have h1 : ∃ q : Quat ℝ, q.dot q = 1 ∧ q.rotate ex = a := by
    by_cases hax : a.x = -1
    · refine ⟨⟨0, 0, 1, 0⟩, by simp [dot], ?_⟩
      simp only [Vec3.dot, hax] at ha
      have h0 : a.y^2 + a.z^2 = 0 := by linear_combination ha
      have hy : a.y = 0 := by nlinarith [sq_nonneg a.y, sq_nonneg a.z]
      have hz : a.z = 0 := by nlinarith [sq_nonneg a.y, sq_nonneg a.z]
      ext <;> simp [rotate_x, rotate_y, rotate_z, ex, hax, hy, hz]
    · have hlt : 0 < 1 + a.x := by
        simp only [Vec3.dot] at ha
        have hge : -1 ≤ a.x := by nlinarith [sq_nonneg a.y, sq_nonneg a.z]
        rcases hge.lt_or_eq with h | h
        · linarith
        · exact absurd h.symm hax
      set n := Real.sqrt (2 * (1 + a.x)) with hn
      have hnsq : n ^ 2 = 2 * (1 + a.x) := Real.sq_sqrt (by linarith)
      have hn0 : 0 < n := Real.sqrt_pos.2 (by linarith)
      simp only [Vec3.dot] at ha
      refine ⟨⟨0, -a.z / n, a.y / n, (1 + a.x) / n⟩, ?_, ?_⟩
      · simp only [dot]
        field_simp
        rw [hnsq]; linear_combination ha
      · ext <;> simp only [rotate_x, rotate_y, rotate_z, ex] <;> field_simp <;> rw [hnsq]
        · linear_combination -ha
        · ring
        · ring
  obtain ⟨q, hq, hqx⟩ := h1
  have hq0 : q.dot q ≠ 0 := by rw [hq]; exact one_ne_zero
  set v := q.inv.rotate b with hv
  have hqv : q.rotate v = b := (C30_inv_rotate q hq0 b).2
  have hv1 : v.dot v = 1 := by rw [← C28_unit_preserves_dot q hq, hqv, hb]
  have hv0 : ex.dot v = 0 := by rw [← C28_unit_preserves_dot q hq, hqx, hqv, hab]
  have hvx : v.x = 0 := by simpa [ex, Vec3.dot] using hv0
  have hyz : v.y ^ 2 + v.z ^ 2 = 1 ^ 2 := by simp only [Vec3.dot, hvx] at hv1; linear_combination hv1
  obtain ⟨hc, hs⟩ := polar_arg 1 v.y v.z one_pos hyz
  have hexu : ex.dot ex = 1 := by simp [ex, Vec3.dot]
  have hex0 : ex ≠ ⟨0, 0, 0⟩ := by intro h; have := congrArg Vec3.x h; simp [ex] at this
  have hexn : ex.normalized = ex := by
    have := normalized_smul ex hexu 1 one_pos
    have e : ex.smul 1 = ex := by ext <;> simp [Vec3.smul]
    rwa [e] at this
  refine ⟨q * ofAxisAng ex (Complex.arg ⟨v.y, v.z⟩), ?_, ?_, ?_⟩
  · rw [C29_dot_mul, hq, C35_unit ex hex0, one_mul]
  · rw [C29_mul_rotate, C35_fixes_axis ex hex0, hqx]
  · rw [C29_mul_rotate, ← hqv]
    congr 1
    rw [C35_rodrigues ex hex0, hexn]
    rw [one_mul] at hc hs
    rw [hc, hs]
    ext <;> simp [ex, ey, Vec3.cross, Vec3.smul, Vec3.add_x, Vec3.add_y, Vec3.add_z, Vec3.dot, hvx]

/-- For linearly independent `f`, `u` a correct orientation exists, with the decomposition used by the
constructor. -/
theorem exists_aligned (f u : Vec3 ℝ) (h : f.cross u ≠ ⟨0, 0, 0⟩) :
    ∃ p : Quat ℝ, Aligned p f u := by
  have hf : f ≠ ⟨0, 0, 0⟩ := by
    rintro rfl; apply h; ext <;> simp [Vec3.cross]
  obtain ⟨hfn, hfu⟩ := unitAxis f hf
  obtain ⟨hcn, hcu⟩ := unitAxis (u.cross f) (by
    intro h0; apply h
    have h1 := congrArg Vec3.x h0; have h2 := congrArg Vec3.y h0; have h3 := congrArg Vec3.z h0
    simp only [Vec3.cross] at h1 h2 h3 ⊢
    ext <;> simp only <;> linarith)
  have hperp : (f.sdiv f.norm).dot ((u.cross f).sdiv (u.cross f).norm) = 0 := by
    simp only [Vec3.dot, Vec3.sdiv, Vec3.cross]; field_simp; ring
  obtain ⟨p, hp, px, py⟩ := exists_quat _ _ hfu hcu hperp
  have xy : (p.rotate ex).cross (p.rotate ey) = p.rotate ez := by
    rw [C28_unit_preserves_cross p hp]; congr 1; ext <;> simp [ex, ey, ez, Vec3.cross]
  refine ⟨p, hp, ?_, ?_, ?_⟩
  · rw [px]; ext <;> simp [Vec3.smul, Vec3.sdiv, hfn.ne']
  · rw [py]; simp only [Vec3.dot, Vec3.sdiv, Vec3.cross]; field_simp; ring
  · rw [← xy, px, py]
    have e : ((f.sdiv f.norm).cross ((u.cross f).sdiv (u.cross f).norm)).dot u =
        (u.cross f).norm / f.norm := by
      have h2 : (u.cross f).norm ^ 2 = (u.cross f).dot (u.cross f) := by
        have : 0 ≤ (u.cross f).dot (u.cross f) := by
          simp only [Vec3.dot]; nlinarith [sq_nonneg (u.cross f).x, sq_nonneg (u.cross f).y, sq_nonneg (u.cross f).z]
        simpa [Vec3.norm] using Real.sq_sqrt this
      have h3 : ((f.sdiv f.norm).cross ((u.cross f).sdiv (u.cross f).norm)).dot u =
        ((u.cross f).dot (u.cross f)) / (f.norm * (u.cross f).norm) := by
        simp only [Vec3.dot, Vec3.sdiv, Vec3.cross]; field_simp; ring
      rw [h3, ← h2]; field_simp
    rw [e]; positivity

/-- Decomposition of an aligned pair. -/
theorem Aligned.decomp {p : Quat ℝ} {f u : Vec3 ℝ} (h : Aligned p f u) (hf : 0 < f.norm) :
    lookAt f u = canon p := by
  have e2 : u = (p.rotate ez).smul ((p.rotate ez).dot u) + (p.rotate ex).smul ((p.rotate ex).dot u) := by
    have hp := h.unit
    have hcomp : u = (p.rotate ex).smul ((p.rotate ex).dot u) + (p.rotate ey).smul ((p.rotate ey).dot u)
        + (p.rotate ez).smul ((p.rotate ez).dot u) := by
      have hp' : (p.x * p.x + p.y * p.y + p.z * p.z + p.w * p.w)^2 = 1 := by
        have : p.x * p.x + p.y * p.y + p.z * p.z + p.w * p.w = 1 := by simpa [dot] using hp
        rw [this]; ring
      ext
      · simp only [Vec3.add_x, Vec3.smul_x, Vec3.dot, rotate_x, rotate_y, rotate_z, ex, ey, ez]
        linear_combination (-u.x) * hp'
      · simp only [Vec3.add_y, Vec3.smul_y, Vec3.dot, rotate_x, rotate_y, rotate_z, ex, ey, ez]
        linear_combination (-u.y) * hp'
      · simp only [Vec3.add_z, Vec3.smul_z, Vec3.dot, rotate_x, rotate_y, rotate_z, ex, ey, ez]
        linear_combination (-u.z) * hp'
    rw [h.noSide] at hcomp
    nth_rw 1 [hcomp]
    ext <;> simp only [Vec3.add_x, Vec3.add_y, Vec3.add_z, Vec3.smul_x, Vec3.smul_y, Vec3.smul_z] <;> ring
  rw [e2]
  nth_rw 1 [← h.forward]
  exact lookAt_eq_canon p h.unit _ _ _ hf h.up

theorem Aligned.neg {p : Quat ℝ} {f u : Vec3 ℝ} (h : Aligned p f u) : Aligned (-p) f u := by
  have e : ∀ v, (-p).rotate v = p.rotate v := by
    intro v; ext <;> simp [rotate_x, rotate_y, rotate_z]
  refine ⟨by simpa [dot] using h.unit, ?_, ?_, ?_⟩ <;> rw [e]
  · exact h.forward
  · exact h.noSide
  · exact h.up

/-- A half turn about an axis whose components do not all have the same sign. -/
def MixedHalfTurn (p : Quat ℝ) : Prop := p.w = 0 ∧ ¬ (0 ≤ p.x * p.y ∧ 0 ≤ p.x * p.z ∧ 0 ≤ p.y * p.z)

theorem canon_same_iff (p : Quat ℝ) : SameRotation (canon p) p ↔ ¬ MixedHalfTurn p := by
  rw [MixedHalfTurn, not_and_or, not_not, canon]
  split_ifs with h1 h2
  · exact ⟨fun _ => Or.inl h1.ne', fun _ => Or.inl rfl⟩
  · exact ⟨fun _ => Or.inl h2.ne, fun _ => Or.inr rfl⟩
  · have hw : p.w = 0 := le_antisymm (not_lt.1 h1) (not_lt.1 h2)
    constructor
    · rintro (e | e)
      · right
        have e1 := congrArg Quat.x e; have e2 := congrArg Quat.y e; have e3 := congrArg Quat.z e
        simp only at e1 e2 e3
        rw [← e1, ← e2, ← e3]
        exact ⟨by positivity, by positivity, by positivity⟩
      · right
        have e1 := congrArg Quat.x e; have e2 := congrArg Quat.y e; have e3 := congrArg Quat.z e
        simp only [neg_x, neg_y, neg_z] at e1 e2 e3
        have k1 : p.x = -|p.x| := by linarith
        have k2 : p.y = -|p.y| := by linarith
        have k3 : p.z = -|p.z| := by linarith
        rw [k1, k2, k3]
        simp only [neg_mul_neg]
        exact ⟨by positivity, by positivity, by positivity⟩
    · rintro (h0 | ⟨a, b, c⟩)
      · exact absurd hw h0
      · by_cases hneg : p.x < 0 ∨ p.y < 0 ∨ p.z < 0
        · right
          have : p.x ≤ 0 ∧ p.y ≤ 0 ∧ p.z ≤ 0 := by
            rcases hneg with hn | hn | hn <;> refine ⟨?_, ?_, ?_⟩ <;> by_contra hc <;> push Not at hc <;> nlinarith
          ext <;> simp [abs_of_nonpos, this.1, this.2.1, this.2.2, hw]
        · left
          push Not at hneg
          ext <;> simp [abs_of_nonneg, hneg.1, hneg.2.1, hneg.2.2, hw]

theorem rotate_ey (p : Quat ℝ) (hp : p.dot p = 1) : p.rotate ey = (p.rotate ez).cross (p.rotate ex) := by
  have hp1 : p.x * p.x + p.y * p.y + p.z * p.z + p.w * p.w = 1 := by simpa [dot] using hp
  ext
  · simp only [Vec3.cross, rotate_x, rotate_y, rotate_z, ex, ey, ez]
    linear_combination (-(2 * (p.x * p.y - p.w * p.z))) * hp1
  · simp only [Vec3.cross, rotate_x, rotate_y, rotate_z, ex, ey, ez]
    linear_combination (-(p.w^2 - p.x^2 + p.y^2 - p.z^2)) * hp1
  · simp only [Vec3.cross, rotate_x, rotate_y, rotate_z, ex, ey, ez]
    linear_combination (-(2 * (p.y * p.z + p.w * p.x))) * hp1

/-- The look-at orientation is unique (as a rotation). -/
theorem Aligned.unique {p q : Quat ℝ} {f u : Vec3 ℝ} (hp : Aligned p f u) (hq : Aligned q f u) (hf : 0 < f.norm) :
    SameRotation p q := by
  have dec : ∀ r : Quat ℝ, Aligned r f u → u = (r.rotate ex).smul ((r.rotate ex).dot u) +
      (r.rotate ez).smul ((r.rotate ez).dot u) := by
    intro r h
    have hr : (r.x * r.x + r.y * r.y + r.z * r.z + r.w * r.w)^2 = 1 := by
      have : r.x * r.x + r.y * r.y + r.z * r.z + r.w * r.w = 1 := by simpa [dot] using h.unit
      rw [this]; ring
    have hcomp : u = (r.rotate ex).smul ((r.rotate ex).dot u) + (r.rotate ey).smul ((r.rotate ey).dot u)
        + (r.rotate ez).smul ((r.rotate ez).dot u) := by
      ext
      · simp only [Vec3.add_x, Vec3.smul_x, Vec3.dot, rotate_x, rotate_y, rotate_z, ex, ey, ez]
        linear_combination (-u.x) * hr
      · simp only [Vec3.add_y, Vec3.smul_y, Vec3.dot, rotate_x, rotate_y, rotate_z, ex, ey, ez]
        linear_combination (-u.y) * hr
      · simp only [Vec3.add_z, Vec3.smul_z, Vec3.dot, rotate_x, rotate_y, rotate_z, ex, ey, ez]
        linear_combination (-u.z) * hr
    rw [h.noSide] at hcomp
    nth_rw 1 [hcomp]
    ext <;> simp only [Vec3.add_x, Vec3.add_y, Vec3.add_z, Vec3.smul_x, Vec3.smul_y, Vec3.smul_z] <;> ring
  have hex : p.rotate ex = q.rotate ex := by
    have h := hp.forward.trans hq.forward.symm
    have h1 := congrArg Vec3.x h; have h2 := congrArg Vec3.y h; have h3 := congrArg Vec3.z h
    simp only [Vec3.smul_x, Vec3.smul_y, Vec3.smul_z] at h1 h2 h3
    ext
    · exact mul_right_cancel₀ hf.ne' h1
    · exact mul_right_cancel₀ hf.ne' h2
    · exact mul_right_cancel₀ hf.ne' h3
  have hez : p.rotate ez = q.rotate ez := by
    have h1 := dec p hp
    have h2 := dec q hq
    rw [hex] at h1
    set a := (p.rotate ez).dot u with ha
    set b := (q.rotate ez).dot u with hb
    have hab : (p.rotate ez).smul a = (q.rotate ez).smul b := by
      have h := h1.symm.trans h2
      have g1 := congrArg Vec3.x h; have g2 := congrArg Vec3.y h; have g3 := congrArg Vec3.z h
      simp only [Vec3.add_x, Vec3.add_y, Vec3.add_z] at g1 g2 g3
      ext <;> linarith
    have hap : 0 < a := hp.up
    have hbp : 0 < b := hq.up
    have heq : a = b := by
      have n1 : ((p.rotate ez).smul a).dot ((p.rotate ez).smul a) = a ^ 2 := by
        have := ez_rot_dot p hp.unit
        simp only [Vec3.dot, Vec3.smul_x, Vec3.smul_y, Vec3.smul_z] at this ⊢
        linear_combination a^2 * this
      have n2 : ((q.rotate ez).smul b).dot ((q.rotate ez).smul b) = b ^ 2 := by
        have := ez_rot_dot q hq.unit
        simp only [Vec3.dot, Vec3.smul_x, Vec3.smul_y, Vec3.smul_z] at this ⊢
        linear_combination b^2 * this
      rw [hab, n2] at n1
      nlinarith
    rw [← heq] at hab
    have g1 := congrArg Vec3.x hab; have g2 := congrArg Vec3.y hab; have g3 := congrArg Vec3.z hab
    simp only [Vec3.smul_x, Vec3.smul_y, Vec3.smul_z] at g1 g2 g3
    ext
    · exact mul_right_cancel₀ hap.ne' g1
    · exact mul_right_cancel₀ hap.ne' g2
    · exact mul_right_cancel₀ hap.ne' g3
  have hey : p.rotate ey = q.rotate ey := by
    rw [rotate_ey p hp.unit, rotate_ey q hq.unit, hex, hez]
  rw [sameRotation_iff p q hp.unit hq.unit]
  intro v
  have lin : ∀ r : Quat ℝ, r.rotate v = (r.rotate ex).smul v.x + (r.rotate ey).smul v.y + (r.rotate ez).smul v.z := by
    intro r
    ext <;> simp only [Vec3.add_x, Vec3.add_y, Vec3.add_z, Vec3.smul_x, Vec3.smul_y, Vec3.smul_z, rotate_x, rotate_y,
      rotate_z, ex, ey, ez] <;> ring
  rw [lin p, lin q, hex, hey, hez]

/-- C38: in every case the result is a unit quaternion. -/
theorem C38_unit (f u : Vec3 ℝ) (h : f.cross u ≠ ⟨0, 0, 0⟩) : (lookAt f u).dot (lookAt f u) = 1 := by
  obtain ⟨p, hp⟩ := exists_aligned f u h
  have hf : f ≠ ⟨0, 0, 0⟩ := by
    rintro rfl; apply h; ext <;> simp [Vec3.cross]
  rw [hp.decomp (unitAxis f hf).1, canon]
  split_ifs with h1 h2
  · exact hp.unit
  · exact hp.neg.unit
  · have hw : p.w = 0 := le_antisymm (not_lt.1 h1) (not_lt.1 h2)
    have := hp.unit
    simp only [dot, hw] at this ⊢
    simp only [abs_mul_abs_self]; linear_combination this

/-- **C38**: for independent `forward` and `up` there is exactly one orientation `p` (as a rotation) that looks along
`forward` with `up` in its upper half plane, and `Quat(forward, up)` is that orientation exactly if `p` is not a half
turn about an axis with components of mixed signs. -/
theorem C38_lookAt (f u : Vec3 ℝ) (h : f.cross u ≠ ⟨0, 0, 0⟩) :
    ∃ p, Aligned p f u ∧ (∀ q, Aligned q f u → SameRotation q p) ∧
      (Aligned (lookAt f u) f u ↔ ¬ MixedHalfTurn p) := by
  obtain ⟨p, hp⟩ := exists_aligned f u h
  have hf : f ≠ ⟨0, 0, 0⟩ := by
    rintro rfl; apply h; ext <;> simp [Vec3.cross]
  have hn := (unitAxis f hf).1
  refine ⟨p, hp, fun q hq => hq.unique hp hn, ?_⟩
  rw [hp.decomp hn, ← canon_same_iff]
  constructor
  · intro ha; exact ha.unique hp hn
  · rintro (e | e)
    · rw [e]; exact hp
    · rw [e]; exact hp.neg

/-- C38: such half turns occur: facing -y with the up vector pointing down, `Quat(forward, up)` faces +y. -/
theorem C38_half_turn_example :
    ∃ f u : Vec3 ℝ, f.cross u ≠ ⟨0, 0, 0⟩ ∧ ¬ Aligned (lookAt f u) f u ∧
      (lookAt f u).rotate ex = -f := by
  have key : (lookAt ⟨0, -1, 0⟩ ⟨0, 0, -1⟩ : Quat ℝ).rotate ex = (⟨0, 1, 0⟩ : Vec3 ℝ) := by
    have hr : Real.sqrt 2 * Real.sqrt 2 = 2 := Real.mul_self_sqrt (by norm_num)
    have hnr : (Real.sqrt 2)⁻¹ * (Real.sqrt 2)⁻¹ = 1/2 := by rw [← mul_inv, hr]; norm_num
    set r := (Real.sqrt 2)⁻¹ with hrdef
    have hrp : 0 < r := by positivity
    have hal : Aligned (⟨r, -r, 0, 0⟩ : Quat ℝ) ⟨0, -1, 0⟩ ⟨0, 0, -1⟩ := by
      have hn : (⟨0, -1, 0⟩ : Vec3 ℝ).norm = 1 := by simp [Vec3.norm, Vec3.dot]
      refine ⟨by simp only [dot]; linear_combination 2 * hnr, ?_, ?_, ?_⟩
      · rw [hn]
        ext
        · simp only [Vec3.smul_x, rotate_x, ex]; ring
        · simp only [Vec3.smul_y, rotate_y, ex]; linear_combination -2 * hnr
        · simp only [Vec3.smul_z, rotate_z, ex]; ring
      · simp only [Vec3.dot, rotate_x, rotate_y, rotate_z, ey]; ring
      · simp only [Vec3.dot, rotate_x, rotate_y, rotate_z, ez]; nlinarith
    rw [hal.decomp (by simp [Vec3.norm, Vec3.dot])]
    simp only [canon, lt_irrefl, if_false, abs_neg, abs_of_pos hrp, abs_zero]
    ext
    · simp only [rotate_x, ex]; ring
    · simp only [rotate_y, ex]; linear_combination 2 * hnr
    · simp only [rotate_z, ex]; ring
  refine ⟨⟨0, -1, 0⟩, ⟨0, 0, -1⟩, ?_, ?_, ?_⟩
  · intro h; have := congrArg Vec3.x h; norm_num [Vec3.cross] at this
  · intro h
    have hfw := h.forward
    rw [key] at hfw
    have := congrArg Vec3.y hfw
    norm_num [Vec3.smul, Vec3.norm, Vec3.dot] at this
  · rw [key]
    change (⟨0, 1, 0⟩ : Vec3 ℝ) = ⟨-0, - -1, -0⟩
    simp

/-- Non-vacuity of C38: an upright pose facing +y satisfies the hypotheses (here `p.w = √2/2`). -/
example : ((⟨0, 1, 0⟩ : Vec3 ℝ)).cross ⟨0, 0, 1⟩ ≠ ⟨0, 0, 0⟩ := by
  intro h; have := congrArg Vec3.x h; norm_num [Vec3.cross] at this

/-- Non-vacuity of the half-turn hypothesis of `C38_lookAt`: for the same pose no aligned
orientation is a half turn. -/
example : ∀ p, Aligned p ⟨0, 1, 0⟩ ⟨0, 0, 1⟩ → p.w ≠ 0 := by
  intro p hp hw
  have hn : (⟨0, 1, 0⟩ : Vec3 ℝ).norm = 1 := by simp [Vec3.norm, Vec3.dot]
  have h1 := congrArg Vec3.y hp.forward
  have h2 := hp.noSide
  have h3 := hp.up
  have h4 := hp.unit
  rw [hn] at h1
  simp [rotate_y, rotate_z, Vec3.smul, Vec3.dot, ex, ey, ez, hw, dot] at h1 h2 h3 h4
  -- 2 x y = 1, so x and y have equal non-zero magnitude 1/√2 and z = 0
  nlinarith [sq_nonneg (p.x - p.y), sq_nonneg p.z]

end Quat
end Mcl3dl
