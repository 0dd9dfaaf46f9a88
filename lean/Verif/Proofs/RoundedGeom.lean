import Verif.Spec.RoundedGeom
import Mathlib.Tactic

/-! # Error bounds of quaternion operations in rounded arithmetic -/

namespace Mcl3dl
namespace RoundedGeom

variable {F : Type} [Zero F] [One F] [Neg F] [Add F] [Sub F] [Mul F] [Div F] [Transc F]
variable {val : F → ℝ} {u η hi : ℝ}

theorem mul_err (R : RoundedGeom F val u η hi) {a b : F} (h : |val a * val b| ≤ hi) :
    |val (a * b) - val a * val b| ≤ u * |val a * val b| + η := by
  obtain ⟨δ, ε, h1, h2, h3⟩ := R.mul a b h
  have e : val (a * b) - val a * val b = val a * val b * δ + ε := by rw [h3]; ring
  rw [e]
  refine (abs_add_le _ _).trans ?_
  rw [abs_mul]
  have := mul_le_mul_of_nonneg_left h1 (abs_nonneg (val a * val b))
  linarith

theorem add_err (R : RoundedGeom F val u η hi) {a b : F} (h : |val a + val b| ≤ hi) :
    |val (a + b) - (val a + val b)| ≤ u * |val a + val b| := by
  obtain ⟨δ, h1, h3⟩ := R.add a b h
  have e : val (a + b) - (val a + val b) = (val a + val b) * δ := by rw [h3]; ring
  rw [e, abs_mul]
  have := mul_le_mul_of_nonneg_left h1 (abs_nonneg (val a + val b))
  linarith

theorem sub_err (R : RoundedGeom F val u η hi) {a b : F} (h : |val a - val b| ≤ hi) :
    |val (a - b) - (val a - val b)| ≤ u * |val a - val b| := by
  obtain ⟨δ, h1, h3⟩ := R.sub a b h
  have e : val (a - b) - (val a - val b) = (val a - val b) * δ := by rw [h3]; ring
  rw [e, abs_mul]
  have := mul_le_mul_of_nonneg_left h1 (abs_nonneg (val a - val b))
  linarith

/-- adding an approximated number to an approximated number -/
theorem add_chain (R : RoundedGeom F val u η hi) (hhi : 100 ≤ hi) {a b : F} {A B α β : ℝ} (ha : |val a - A| ≤ α)
    (hb : |val b - B| ≤ β) (hs : |A| + |B| + α + β ≤ 100) :
    |val (a + b) - (A + B)| ≤ α + β + u * (|A + B| + α + β) := by
  have h0 : |val a + val b| ≤ |A + B| + α + β := by
    have : val a + val b = (A + B) + (val a - A) + (val b - B) := by ring
    rw [this]
    refine (abs_add_le _ _).trans ?_
    have := abs_add_le (A + B) (val a - A)
    linarith
  have h1 := abs_add_le A B
  have h2 := R.add_err (a := a) (b := b) (by linarith)
  have e : val (a + b) - (A + B) = (val (a + b) - (val a + val b)) + (val a - A) + (val b - B) := by ring
  rw [e]
  refine (abs_add_le _ _).trans ?_
  have h3 := abs_add_le (val (a + b) - (val a + val b)) (val a - A)
  have h4 := mul_le_mul_of_nonneg_left h0 R.unit_nonneg
  linarith

theorem sub_chain (R : RoundedGeom F val u η hi) (hhi : 100 ≤ hi) {a b : F} {A B α β : ℝ} (ha : |val a - A| ≤ α)
    (hb : |val b - B| ≤ β) (hs : |A| + |B| + α + β ≤ 100) :
    |val (a - b) - (A - B)| ≤ α + β + u * (|A - B| + α + β) := by
  have h0 : |val a - val b| ≤ |A - B| + α + β := by
    have : val a - val b = (A - B) + (val a - A) - (val b - B) := by ring
    rw [this]
    refine (abs_sub _ _).trans ?_
    have := abs_add_le (A - B) (val a - A)
    linarith
  have h1 := abs_sub A B
  have h2 := R.sub_err (a := a) (b := b) (by linarith)
  have e : val (a - b) - (A - B) = (val (a - b) - (val a - val b)) + (val a - A) - (val b - B) := by ring
  rw [e]
  refine (abs_sub _ _).trans ?_
  have h3 := abs_add_le (val (a - b) - (val a - val b)) (val a - A)
  have h4 := mul_le_mul_of_nonneg_left h0 R.unit_nonneg
  linarith

theorem sq_err (R : RoundedGeom F val u η hi) (hhi : 100 ≤ hi) {a : F} (h : val a ^ 2 ≤ 2) :
    |val (a * a) - val a ^ 2| ≤ u * val a ^ 2 + η := by
  have e : val a * val a = val a ^ 2 := by ring
  have := R.mul_err (a := a) (b := a) (by rw [e, abs_of_nonneg (sq_nonneg _)]; linarith)
  rwa [e, abs_of_nonneg (sq_nonneg (val a))] at this

/-- the computed dot product of a quaternion with itself -/
theorem dot_err (R : RoundedGeom F val u η hi) (hhi : 100 ≤ hi) (hu : u ≤ 1 / 10000) (hη : η ≤ u / 100) {q : Quat F}
    (hs : (q.vals val).lengthSq ≤ 2) :
    |val (q.dot q) - (q.vals val).lengthSq| ≤ 4 * u * (q.vals val).lengthSq + u / 10 := by
  simp only [Quat.vals, Quat.lengthSq] at hs ⊢
  have hu0 := R.unit_nonneg
  have px := sq_nonneg (val q.x); have py := sq_nonneg (val q.y)
  have pz := sq_nonneg (val q.z); have pw := sq_nonneg (val q.w)
  have ex := R.sq_err hhi (a := q.x) (by linarith)
  have ey := R.sq_err hhi (a := q.y) (by linarith)
  have ez := R.sq_err hhi (a := q.z) (by linarith)
  have ew := R.sq_err hhi (a := q.w) (by linarith)
  generalize val q.x ^ 2 = X at *
  generalize val q.y ^ 2 = Y at *
  generalize val q.z ^ 2 = Z at *
  generalize val q.w ^ 2 = W at *
  have bX : u * X ≤ X / 10000 := by nlinarith
  have bY : u * Y ≤ Y / 10000 := by nlinarith
  have bZ : u * Z ≤ Z / 10000 := by nlinarith
  have bW : u * W ≤ W / 10000 := by nlinarith
  have h2 := R.add_chain hhi ex ey (by rw [abs_of_nonneg px, abs_of_nonneg py]; linarith)
  rw [abs_of_nonneg (by linarith : 0 ≤ X + Y)] at h2
  have b2 : u * X + η + (u * Y + η) + u * (X + Y + (u * X + η) + (u * Y + η)) ≤ 2 * u * (X + Y) + 0.021 * u := by
    have : u * (u * X) ≤ u * (X / 10000) := mul_le_mul_of_nonneg_left bX hu0
    have : u * (u * Y) ≤ u * (Y / 10000) := mul_le_mul_of_nonneg_left bY hu0
    have : u * η ≤ u * (1 / 1000000) := mul_le_mul_of_nonneg_left (by linarith) hu0
    nlinarith
  have h2' := h2.trans b2
  have h3 := R.add_chain hhi h2' ez (by
    rw [abs_of_nonneg pz, abs_of_nonneg (by linarith : 0 ≤ X + Y)]; linarith)
  rw [abs_of_nonneg (by linarith : 0 ≤ X + Y + Z)] at h3
  have b3 : 2 * u * (X + Y) + 0.021 * u + (u * Z + η) + u * (X + Y + Z + (2 * u * (X + Y) + 0.021 * u) + (u * Z + η)) ≤
      3 * u * (X + Y + Z) + 0.033 * u := by
    have : u * (u * X) ≤ u * (X / 10000) := mul_le_mul_of_nonneg_left bX hu0
    have : u * (u * Y) ≤ u * (Y / 10000) := mul_le_mul_of_nonneg_left bY hu0
    have : u * (u * Z) ≤ u * (Z / 10000) := mul_le_mul_of_nonneg_left bZ hu0
    have : u * η ≤ u * (1 / 1000000) := mul_le_mul_of_nonneg_left (by linarith) hu0
    have : u * u ≤ u * (1 / 10000) := mul_le_mul_of_nonneg_left hu hu0
    nlinarith
  have h3' := h3.trans b3
  have h4 := R.add_chain hhi h3' ew (by
    rw [abs_of_nonneg pw, abs_of_nonneg (by linarith : 0 ≤ X + Y + Z)]; linarith)
  rw [abs_of_nonneg (by linarith : 0 ≤ X + Y + Z + W)] at h4
  refine h4.trans ?_
  have : u * (u * X) ≤ u * (X / 10000) := mul_le_mul_of_nonneg_left bX hu0
  have : u * (u * Y) ≤ u * (Y / 10000) := mul_le_mul_of_nonneg_left bY hu0
  have : u * (u * Z) ≤ u * (Z / 10000) := mul_le_mul_of_nonneg_left bZ hu0
  have : u * (u * W) ≤ u * (W / 10000) := mul_le_mul_of_nonneg_left bW hu0
  have : u * η ≤ u * (1 / 1000000) := mul_le_mul_of_nonneg_left (by linarith) hu0
  have : u * u ≤ u * (1 / 10000) := mul_le_mul_of_nonneg_left hu hu0
  nlinarith

/-- scaling a component -/
theorem scale_err (R : RoundedGeom F val u η hi) (hhi : 100 ≤ hi) (hu : u ≤ 1 / 10000) (hη : η ≤ u / 100) {a r : F}
    (h : |val a * val r| ≤ 3 / 2) :
    |val (a * r) ^ 2 - (val a * val r) ^ 2| ≤ 2.001 * u * (val a * val r) ^ 2 + u / 25 := by
  have hu0 := R.unit_nonneg
  have hη0 := R.under_nonneg
  have e := R.mul_err (a := a) (b := r) (by linarith)
  generalize val (a * r) = c at *
  generalize val a * val r = p at *
  have e2 : |c ^ 2 - p ^ 2| = |c - p| * |c - p + 2 * p| := by rw [← abs_mul]; congr 1; ring
  have e3 : |c - p + 2 * p| ≤ |c - p| + 2 * |p| := by
    refine (abs_add_le _ _).trans ?_
    rw [abs_mul, abs_of_pos (by norm_num : (0 : ℝ) < 2)]
  have e4 : |c - p| * |c - p + 2 * p| ≤ (u * |p| + η) * ((u * |p| + η) + 2 * |p|) :=
    mul_le_mul e (by linarith) (abs_nonneg _) (by positivity)
  rw [e2]
  refine e4.trans ?_
  rw [← sq_abs p]
  have hp := abs_nonneg p
  generalize |p| = P at *
  have a1 : u * (u * P ^ 2) ≤ u * (P ^ 2 / 10000) := mul_le_mul_of_nonneg_left (by nlinarith [sq_nonneg P]) hu0
  have a2 : u * η * P ≤ u * (1 / 1000000) * (3 / 2) :=
    mul_le_mul (mul_le_mul_of_nonneg_left (by linarith) hu0) h hp (by positivity)
  have a3 : η * P ≤ u / 100 * (3 / 2) := mul_le_mul hη h hp (by positivity)
  have a4 : η * η ≤ u / 100 * (1 / 1000000) := mul_le_mul hη (by linarith) hη0 (by positivity)
  nlinarith

theorem smul_lengthSq (R : RoundedGeom F val u η hi) (hhi : 100 ≤ hi) (hu : u ≤ 1 / 10000) (hη : η ≤ u / 100) {q : Quat F}
    {r : F} (h : (q.vals val).lengthSq * val r ^ 2 ≤ 9 / 4) :
    |((q.smul r).vals val).lengthSq - (q.vals val).lengthSq * val r ^ 2| ≤
      2.001 * u * ((q.vals val).lengthSq * val r ^ 2) + 4 * u / 25 := by
  simp only [Quat.vals, Quat.lengthSq, Quat.smul] at h ⊢
  have key : ∀ a : F, val a ^ 2 * val r ^ 2 ≤ 9 / 4 → |val a * val r| ≤ 3 / 2 := fun a ha => by
    rw [← mul_pow] at ha
    exact abs_le.2 (abs_le_of_sq_le_sq' (by norm_num; linarith : (val a * val r) ^ 2 ≤ (3 / 2 : ℝ) ^ 2) (by norm_num))
  have px := mul_nonneg (sq_nonneg (val q.x)) (sq_nonneg (val r))
  have py := mul_nonneg (sq_nonneg (val q.y)) (sq_nonneg (val r))
  have pz := mul_nonneg (sq_nonneg (val q.z)) (sq_nonneg (val r))
  have pw := mul_nonneg (sq_nonneg (val q.w)) (sq_nonneg (val r))
  have ex := R.scale_err hhi hu hη (key q.x (by linarith))
  have ey := R.scale_err hhi hu hη (key q.y (by linarith))
  have ez := R.scale_err hhi hu hη (key q.z (by linarith))
  have ew := R.scale_err hhi hu hη (key q.w (by linarith))
  rw [mul_pow] at ex ey ez ew
  rw [abs_le] at *
  constructor <;> nlinarith

theorem recip_sq_err {t δ' ε u η : ℝ} (hu0 : 0 ≤ u) (hu : u ≤ 1 / 10000) (hη : η ≤ u / 100) (h0 : 0 < t) (ht : t ≤ 10 / 7)
    (hδ' : |δ'| ≤ u) (hε : |ε| ≤ η) : |(t * (1 + δ') + ε) ^ 2 - t ^ 2| ≤ 2.001 * u * t ^ 2 + u / 25 := by
  obtain ⟨l1, l2⟩ := abs_le.1 hδ'
  have e : (t * (1 + δ') + ε) ^ 2 - t ^ 2 = t ^ 2 * (2 * δ' + δ' ^ 2) + 2 * t * (1 + δ') * ε + ε ^ 2 := by ring
  rw [e]
  have b1 : |2 * δ' + δ' ^ 2| ≤ 2.0001 * u := by rw [abs_le]; constructor <;> nlinarith
  have b2 : |2 * t * (1 + δ') * ε| ≤ 2.9 * η := by
    rw [abs_mul]
    have : |2 * t * (1 + δ')| ≤ 2.9 := by
      rw [abs_of_nonneg (by nlinarith)]; nlinarith
    exact mul_le_mul this hε (abs_nonneg _) (by norm_num)
  have b3 : |ε ^ 2| ≤ η / 100 := by
    rw [abs_of_nonneg (sq_nonneg _), ← sq_abs]; nlinarith [abs_nonneg ε]
  have b4 : |t ^ 2 * (2 * δ' + δ' ^ 2)| ≤ t ^ 2 * (2.0001 * u) := by
    rw [abs_mul, abs_of_nonneg (sq_nonneg _)]; exact mul_le_mul_of_nonneg_left b1 (sq_nonneg _)
  refine (abs_add_le _ _).trans ?_
  have := abs_add_le (t ^ 2 * (2 * δ' + δ' ^ 2)) (2 * t * (1 + δ') * ε)
  nlinarith [sq_nonneg t]

theorem recip_scale {S T r u : ℝ} (hu0 : 0 ≤ u) (hu : u ≤ 1 / 10000) (h1 : 1 / 2 ≤ S) (h2 : S ≤ 2) (g1 : S * T ≤ 1 + 6.31 * u)
    (g2 : 1 - 6.3 * u ≤ S * T) (hr : |r - T| ≤ 2.001 * u * T + u / 25) : 1 - 8.5 * u ≤ S * r ∧ S * r ≤ 1 + 8.5 * u := by
  obtain ⟨r1, r2⟩ := abs_le.1 hr
  have hu2 : u * u ≤ u * (1 / 10000) := mul_le_mul_of_nonneg_left hu hu0
  have b : u * (S * T) ≤ u * (1 + 6.31 * u) := mul_le_mul_of_nonneg_left g1 hu0
  have c : u * S ≤ u * 2 := mul_le_mul_of_nonneg_left h2 hu0
  have a1 := mul_le_mul_of_nonneg_left r1 (by linarith : 0 ≤ S)
  have a2 := mul_le_mul_of_nonneg_left r2 (by linarith : 0 ≤ S)
  constructor <;> nlinarith

theorem scaled_near {p l u : ℝ} (hu0 : 0 ≤ u) (hu : u ≤ 1 / 10000) (q1 : p ≤ 1 + 8.5 * u) (q2 : 1 - 8.5 * u ≤ p)
    (f1 : -(2.001 * u * p + 4 * u / 25) ≤ l - p) (f2 : l - p ≤ 2.001 * u * p + 4 * u / 25) : -(12 * u) ≤ l - 1 ∧ l - 1 ≤ 12 * u := by
  have hu2 : u * u ≤ u * (1 / 10000) := mul_le_mul_of_nonneg_left hu hu0
  have b : u * p ≤ u * (1 + 8.5 * u) := mul_le_mul_of_nonneg_left q1 hu0
  constructor <;> nlinarith

theorem norm_near {S D n δ u : ℝ} (hu0 : 0 ≤ u) (hu : u ≤ 1 / 10000) (h1 : 1 / 2 ≤ S) (hD : 0 < D) (hnpos : 0 < n)
    (d1 : -(4.2 * u * S) ≤ D - S) (d2 : D - S ≤ 4.2 * u * S) (δl : -u ≤ δ) (δh : δ ≤ u) (hsq : n ^ 2 = D * (1 + δ) ^ 2) :
    7 / 10 ≤ n ∧ S * (1 / n) ^ 2 ≤ 1 + 6.31 * u ∧ 1 - 6.3 * u ≤ S * (1 / n) ^ 2 := by
  -- the square of the computed norm
  have hn1 : n ^ 2 ≤ S * (1 + 6.3 * u) := by
    rw [hsq]
    have : (1 + δ) ^ 2 ≤ 1 + 2.0002 * u := by nlinarith
    have : D ≤ S * (1 + 4.2 * u) := by linarith
    calc D * (1 + δ) ^ 2 ≤ S * (1 + 4.2 * u) * (1 + 2.0002 * u) := by gcongr
      _ ≤ S * (1 + 6.3 * u) := by
          rw [mul_assoc]; refine mul_le_mul_of_nonneg_left ?_ (by linarith); nlinarith
  have hn2 : S * (1 - 6.3 * u) ≤ n ^ 2 := by
    rw [hsq]
    have a1 : 1 - 2 * u ≤ (1 + δ) ^ 2 := by nlinarith
    have a2 : S * (1 - 4.2 * u) ≤ D := by linarith
    have a3 : 0 ≤ 1 - 4.2 * u := by linarith
    calc S * (1 - 6.3 * u) ≤ S * (1 - 4.2 * u) * (1 - 2 * u) := by
          rw [mul_assoc]; refine mul_le_mul_of_nonneg_left ?_ (by linarith); nlinarith
      _ ≤ D * (1 + δ) ^ 2 := mul_le_mul a2 a1 (by linarith) hD.le
  have hnlow : 7 / 10 ≤ n := by
    by_contra hc
    have : n ^ 2 < 49 / 100 := by nlinarith
    nlinarith [mul_le_mul_of_nonneg_left hu (by linarith : 0 ≤ S)]
  have g1 : S * (1 / n) ^ 2 ≤ 1 + 6.31 * u := by
    rw [one_div, inv_pow, ← div_eq_mul_inv, div_le_iff₀ (by positivity)]
    have : 1 ≤ (1 + 6.31 * u) * (1 - 6.3 * u) := by nlinarith
    calc S = S * 1 := (mul_one S).symm
      _ ≤ S * ((1 + 6.31 * u) * (1 - 6.3 * u)) := mul_le_mul_of_nonneg_left this (by linarith)
      _ = (1 + 6.31 * u) * (S * (1 - 6.3 * u)) := by ring
      _ ≤ (1 + 6.31 * u) * n ^ 2 := mul_le_mul_of_nonneg_left hn2 (by linarith)
  have g2 : 1 - 6.3 * u ≤ S * (1 / n) ^ 2 := by
    rw [one_div, inv_pow, ← div_eq_mul_inv, le_div_iff₀ (by positivity)]
    have : (1 - 6.3 * u) * (1 + 6.3 * u) ≤ 1 := by nlinarith
    calc (1 - 6.3 * u) * n ^ 2 ≤ (1 - 6.3 * u) * (S * (1 + 6.3 * u)) := mul_le_mul_of_nonneg_left hn1 (by linarith)
      _ = S * ((1 - 6.3 * u) * (1 + 6.3 * u)) := by ring
      _ ≤ S * 1 := mul_le_mul_of_nonneg_left this (by linarith)
      _ = S := mul_one S
  exact ⟨hnlow, g1, g2⟩

/-- **normalize** -/
theorem normalized_err (R : RoundedGeom F val u η hi) (hhi : 100 ≤ hi) (hu : u ≤ 1 / 10000) (hη : η ≤ u / 100) {q : Quat F}
    (h1 : 1 / 2 ≤ (q.vals val).lengthSq) (h2 : (q.vals val).lengthSq ≤ 2) :
    |(q.normalized.vals val).lengthSq - 1| ≤ 12 * u := by
  have hu0 := R.unit_nonneg
  have hη0 := R.under_nonneg
  have hd := R.dot_err hhi hu hη h2
  have hd' : |val (q.dot q) - (q.vals val).lengthSq| ≤ 4.2 * u * (q.vals val).lengthSq := by nlinarith
  obtain ⟨d1, d2⟩ := abs_le.1 hd'
  have hS : 4.2 * u * (q.vals val).lengthSq ≤ 4.2 * (1 / 10000) * (q.vals val).lengthSq := by nlinarith
  have hD : 0 < val (q.dot q) := by nlinarith
  obtain ⟨δ, hδ, hn⟩ := R.sqrt (q.dot q) hD.le (by nlinarith)
  have hnorm : val q.norm = Real.sqrt (val (q.dot q)) * (1 + δ) := hn
  obtain ⟨δl, δh⟩ := abs_le.1 hδ
  have hsq : val q.norm ^ 2 = val (q.dot q) * (1 + δ) ^ 2 := by
    rw [hnorm, mul_pow, Real.sq_sqrt hD.le]
  have hnpos : 0 < val q.norm := by
    rw [hnorm]; exact mul_pos (Real.sqrt_pos.2 hD) (by linarith)
  set S := (q.vals val).lengthSq with hSdef
  set D := val (q.dot q)
  set n := val q.norm
  obtain ⟨hnlow, g1, g2⟩ := norm_near hu0 hu h1 hD hnpos d1 d2 δl δh hsq
  have hinv : 1 / n ≤ 10 / 7 := by rw [div_le_div_iff₀ hnpos (by norm_num)]; linarith
  have hinv0 : 0 < 1 / n := by positivity
  obtain ⟨δ', ε, hδ', hε, hr⟩ := R.div 1 q.norm hnpos.ne' (by
    rw [R.one, abs_of_pos hinv0]; linarith)
  rw [R.one] at hr
  have hr2 : |val (1 / q.norm) ^ 2 - (1 / n) ^ 2| ≤ 2.001 * u * (1 / n) ^ 2 + u / 25 := by
    rw [hr]
    exact recip_sq_err hu0 hu hη hinv0 hinv hδ' hε
  obtain ⟨q2, q1⟩ := recip_scale hu0 hu h1 h2 g1 g2 hr2
  have hfin := R.smul_lengthSq hhi hu hη (q := q) (r := 1 / q.norm) (by rw [← hSdef]; linarith)
  rw [← hSdef] at hfin
  obtain ⟨f1, f2⟩ := abs_le.1 hfin
  have hfinal : ((q.normalized).vals val).lengthSq = ((q.smul (1 / q.norm)).vals val).lengthSq := rfl
  rw [hfinal, abs_le]
  exact scaled_near hu0 hu q1 q2 f1 f2

/-! ## Products -/

theorem prod_err (R : RoundedGeom F val u η hi) (hhi : 100 ≤ hi) (hη : η ≤ u / 100) {a b : F} (ha : val a ^ 2 ≤ 3 / 2)
    (hb : val b ^ 2 ≤ 3 / 2) : |val a * val b| ≤ 3 / 2 ∧ |val (a * b) - val a * val b| ≤ 1.6 * u := by
  have h : |val a * val b| ≤ 3 / 2 := by
    rw [abs_le]; constructor <;> nlinarith [sq_nonneg (val a + val b), sq_nonneg (val a - val b)]
  have := R.mul_err (a := a) (b := b) (by linarith)
  have hu0 := R.unit_nonneg
  have := mul_le_mul_of_nonneg_left h hu0
  exact ⟨h, by linarith⟩

theorem add_step (R : RoundedGeom F val u η hi) (hhi : 100 ≤ hi) (hu : u ≤ 1 / 10000) {a b : F} {A B k M : ℝ}
    (hk' : k ≤ 30) (hM : M ≤ 10) (ha : |val a - A| ≤ k * u) (hA : |A| ≤ M) (hb : |val b - B| ≤ 1.6 * u) (hB : |B| ≤ 3 / 2) :
    |A + B| ≤ M + 3 / 2 ∧ |val (a + b) - (A + B)| ≤ (k + M + 3.2) * u := by
  have hu0 := R.unit_nonneg
  have h0 := abs_add_le A B
  have hku : k * u ≤ 30 * (1 / 10000) := mul_le_mul hk' hu hu0 (by norm_num)
  have h1 := R.add_chain hhi ha hb (by linarith)
  refine ⟨by linarith, h1.trans ?_⟩
  have : u * (|A + B| + k * u + 1.6 * u) ≤ u * (M + 3 / 2 + 0.1) := mul_le_mul_of_nonneg_left (by linarith) hu0
  linarith

theorem sub_step (R : RoundedGeom F val u η hi) (hhi : 100 ≤ hi) (hu : u ≤ 1 / 10000) {a b : F} {A B k M : ℝ}
    (hk' : k ≤ 30) (hM : M ≤ 10) (ha : |val a - A| ≤ k * u) (hA : |A| ≤ M) (hb : |val b - B| ≤ 1.6 * u) (hB : |B| ≤ 3 / 2) :
    |A - B| ≤ M + 3 / 2 ∧ |val (a - b) - (A - B)| ≤ (k + M + 3.2) * u := by
  have hu0 := R.unit_nonneg
  have h0 := abs_sub A B
  have hku : k * u ≤ 30 * (1 / 10000) := mul_le_mul hk' hu hu0 (by norm_num)
  have h1 := R.sub_chain hhi ha hb (by linarith)
  refine ⟨by linarith, h1.trans ?_⟩
  have : u * (|A - B| + k * u + 1.6 * u) ≤ u * (M + 3 / 2 + 0.1) := mul_le_mul_of_nonneg_left (by linarith) hu0
  linarith

theorem sq_near {c C u : ℝ} (hu0 : 0 ≤ u) (hu : u ≤ 1 / 10000) (h : |c - C| ≤ 21 * u) (hC : C ^ 2 ≤ 9 / 4) :
    |c ^ 2 - C ^ 2| ≤ 64 * u := by
  have e : |c ^ 2 - C ^ 2| = |c - C| * |c - C + 2 * C| := by rw [← abs_mul]; congr 1; ring
  have hC' : |C| ≤ 3 / 2 := abs_le.2 (abs_le_of_sq_le_sq' (by norm_num; linarith : C ^ 2 ≤ (3 / 2 : ℝ) ^ 2) (by norm_num))
  have h2 : |c - C + 2 * C| ≤ 3.0021 := by
    refine (abs_add_le _ _).trans ?_
    rw [abs_mul, abs_of_pos (by norm_num : (0 : ℝ) < 2)]
    linarith
  rw [e]
  calc |c - C| * |c - C + 2 * C| ≤ 21 * u * 3.0021 := mul_le_mul h h2 (abs_nonneg _) (by positivity)
    _ ≤ 64 * u := by linarith

theorem pat1 (R : RoundedGeom F val u η hi) (hhi : 100 ≤ hi) (hu : u ≤ 1 / 10000) (hη : η ≤ u / 100) (a1 a2 a3 a4 b1 b2 b3 b4 : F) :
    val a1 ^ 2 ≤ 3 / 2 → val a2 ^ 2 ≤ 3 / 2 → val a3 ^ 2 ≤ 3 / 2 → val a4 ^ 2 ≤ 3 / 2 →
      val b1 ^ 2 ≤ 3 / 2 → val b2 ^ 2 ≤ 3 / 2 → val b3 ^ 2 ≤ 3 / 2 → val b4 ^ 2 ≤ 3 / 2 →
      |val (a1 * b1 + a2 * b2 + a3 * b3 - a4 * b4) - (val a1 * val b1 + val a2 * val b2 + val a3 * val b3 - val a4 * val b4)| ≤ 21 * u := by
    have hu0 := R.unit_nonneg
    intro g1 g2 g3 g4 k1 k2 k3 k4
    obtain ⟨p1, q1⟩ := R.prod_err hhi hη g1 k1
    obtain ⟨p2, q2⟩ := R.prod_err hhi hη g2 k2
    obtain ⟨p3, q3⟩ := R.prod_err hhi hη g3 k3
    obtain ⟨p4, q4⟩ := R.prod_err hhi hη g4 k4
    obtain ⟨s2, t2⟩ := R.add_step hhi hu (by norm_num) (by norm_num) q1 p1 q2 p2
    obtain ⟨s3, t3⟩ := R.add_step hhi hu (by norm_num) (by norm_num) t2 s2 q3 p3
    obtain ⟨s4, t4⟩ := R.sub_step hhi hu (by norm_num) (by norm_num) t3 s3 q4 p4
    refine t4.trans ?_
    nlinarith

theorem pat2 (R : RoundedGeom F val u η hi) (hhi : 100 ≤ hi) (hu : u ≤ 1 / 10000) (hη : η ≤ u / 100) (a1 a2 a3 a4 b1 b2 b3 b4 : F) :
    val a1 ^ 2 ≤ 3 / 2 → val a2 ^ 2 ≤ 3 / 2 → val a3 ^ 2 ≤ 3 / 2 → val a4 ^ 2 ≤ 3 / 2 →
      val b1 ^ 2 ≤ 3 / 2 → val b2 ^ 2 ≤ 3 / 2 → val b3 ^ 2 ≤ 3 / 2 → val b4 ^ 2 ≤ 3 / 2 →
      |val (a1 * b1 - a2 * b2 - a3 * b3 - a4 * b4) - (val a1 * val b1 - val a2 * val b2 - val a3 * val b3 - val a4 * val b4)| ≤ 21 * u := by
    have hu0 := R.unit_nonneg
    intro g1 g2 g3 g4 k1 k2 k3 k4
    obtain ⟨p1, q1⟩ := R.prod_err hhi hη g1 k1
    obtain ⟨p2, q2⟩ := R.prod_err hhi hη g2 k2
    obtain ⟨p3, q3⟩ := R.prod_err hhi hη g3 k3
    obtain ⟨p4, q4⟩ := R.prod_err hhi hη g4 k4
    obtain ⟨s2, t2⟩ := R.sub_step hhi hu (by norm_num) (by norm_num) q1 p1 q2 p2
    obtain ⟨s3, t3⟩ := R.sub_step hhi hu (by norm_num) (by norm_num) t2 s2 q3 p3
    obtain ⟨s4, t4⟩ := R.sub_step hhi hu (by norm_num) (by norm_num) t3 s3 q4 p4
    refine t4.trans ?_
    nlinarith

theorem mul_lengthSq (R : RoundedGeom F val u η hi) (hhi : 100 ≤ hi) (hu : u ≤ 1 / 10000) (hη : η ≤ u / 100) {a b : Quat F}
    (ha : (a.vals val).lengthSq ≤ 3 / 2) (hb : (b.vals val).lengthSq ≤ 3 / 2) :
    |((a * b).vals val).lengthSq - (a.vals val).lengthSq * (b.vals val).lengthSq| ≤ 256 * u := by
  have hu0 := R.unit_nonneg
  have e : (a * b : Quat F) = Quat.mul a b := rfl
  rw [e]
  simp only [Quat.vals, Quat.lengthSq, Quat.mul] at ha hb ⊢
  have ax := sq_nonneg (val a.x); have ay := sq_nonneg (val a.y); have az := sq_nonneg (val a.z); have aw := sq_nonneg (val a.w)
  have bx := sq_nonneg (val b.x); have bY := sq_nonneg (val b.y); have bz := sq_nonneg (val b.z); have bw := sq_nonneg (val b.w)
  have ax' : val a.x ^ 2 ≤ 3 / 2 := by linarith
  have ay' : val a.y ^ 2 ≤ 3 / 2 := by linarith
  have az' : val a.z ^ 2 ≤ 3 / 2 := by linarith
  have aw' : val a.w ^ 2 ≤ 3 / 2 := by linarith
  have bx' : val b.x ^ 2 ≤ 3 / 2 := by linarith
  have by' : val b.y ^ 2 ≤ 3 / 2 := by linarith
  have bz' : val b.z ^ 2 ≤ 3 / 2 := by linarith
  have bw' : val b.w ^ 2 ≤ 3 / 2 := by linarith
  have c1 := R.pat1 hhi hu hη a.w a.x a.y a.z b.x b.w b.z b.y aw' ax' ay' az' bx' bw' bz' by'
  have c2 := R.pat1 hhi hu hη a.w a.y a.z a.x b.y b.w b.x b.z aw' ay' az' ax' by' bw' bx' bz'
  have c3 := R.pat1 hhi hu hη a.w a.z a.x a.y b.z b.w b.y b.x aw' az' ax' ay' bz' bw' by' bx'
  have c4 := R.pat2 hhi hu hη a.w a.x a.y a.z b.w b.x b.y b.z aw' ax' ay' az' bw' bx' by' bz'
  have hexact : (val a.w * val b.x + val a.x * val b.w + val a.y * val b.z - val a.z * val b.y) ^ 2 +
      (val a.w * val b.y + val a.y * val b.w + val a.z * val b.x - val a.x * val b.z) ^ 2 +
      (val a.w * val b.z + val a.z * val b.w + val a.x * val b.y - val a.y * val b.x) ^ 2 +
      (val a.w * val b.w - val a.x * val b.x - val a.y * val b.y - val a.z * val b.z) ^ 2 =
      (val a.x ^ 2 + val a.y ^ 2 + val a.z ^ 2 + val a.w ^ 2) * (val b.x ^ 2 + val b.y ^ 2 + val b.z ^ 2 + val b.w ^ 2) := by ring
  have hprod : (val a.x ^ 2 + val a.y ^ 2 + val a.z ^ 2 + val a.w ^ 2) * (val b.x ^ 2 + val b.y ^ 2 + val b.z ^ 2 + val b.w ^ 2) ≤
      9 / 4 := by
    calc _ ≤ (3 / 2 : ℝ) * (3 / 2) := mul_le_mul ha hb (by linarith) (by norm_num)
      _ = 9 / 4 := by norm_num
  rw [← hexact] at hprod ⊢
  generalize val a.w * val b.x + val a.x * val b.w + val a.y * val b.z - val a.z * val b.y = C1 at *
  generalize val a.w * val b.y + val a.y * val b.w + val a.z * val b.x - val a.x * val b.z = C2 at *
  generalize val a.w * val b.z + val a.z * val b.w + val a.x * val b.y - val a.y * val b.x = C3 at *
  generalize val a.w * val b.w - val a.x * val b.x - val a.y * val b.y - val a.z * val b.z = C4 at *
  have n1 := sq_near hu0 hu c1 (by linarith [sq_nonneg C2, sq_nonneg C3, sq_nonneg C4])
  have n2 := sq_near hu0 hu c2 (by linarith [sq_nonneg C1, sq_nonneg C3, sq_nonneg C4])
  have n3 := sq_near hu0 hu c3 (by linarith [sq_nonneg C1, sq_nonneg C2, sq_nonneg C4])
  have n4 := sq_near hu0 hu c4 (by linarith [sq_nonneg C1, sq_nonneg C2, sq_nonneg C3])
  rw [abs_le] at *
  constructor <;> linarith [n1.1, n1.2, n2.1, n2.2, n3.1, n3.2, n4.1, n4.2]

/-! ## The inverse -/

theorem inv_near {S D r u : ℝ} (hu0 : 0 ≤ u) (hu : u ≤ 1 / 10000) (h1 : 9 / 10 ≤ S) (h2 : S ≤ 11 / 10) (hDpos : 0 < D)
    (d1 : -(4.6 * u) ≤ D - S) (d2 : D - S ≤ 4.6 * u) (ht0 : 0 < 1 / D) (ht : 1 / D ≤ 10 / 7)
    (hr2 : |r - (1 / D) ^ 2| ≤ 2.001 * u * (1 / D) ^ 2 + u / 25) : |S ^ 2 * r - 1| ≤ 18 * u := by
  have hdd : |D - S| ≤ 4.6 * u := abs_le.2 ⟨d1, d2⟩
  have hts : |S * (1 / D) - 1| ≤ 5.2 * u := by
    have e : S * (1 / D) - 1 = (S - D) / D := by field_simp
    rw [e, abs_div, abs_of_pos hDpos, div_le_iff₀ hDpos, abs_sub_comm]
    nlinarith
  have hts2 : |(S * (1 / D)) ^ 2 - 1| ≤ 10.5 * u := by
    obtain ⟨l1, l2⟩ := abs_le.1 hts
    rw [abs_le]; constructor <;> nlinarith
  generalize 1 / D = t at *
  have htt : t ^ 2 ≤ 3 := by nlinarith
  have hr3 : |r - t ^ 2| ≤ 6.1 * u := by nlinarith
  have hSr : |S ^ 2 * r - 1| ≤ 18 * u := by
    have e : S ^ 2 * r - 1 = S ^ 2 * (r - t ^ 2) + ((S * t) ^ 2 - 1) := by ring
    rw [e]
    refine (abs_add_le _ _).trans ?_
    rw [abs_mul, abs_of_nonneg (sq_nonneg S)]
    have : S ^ 2 * |r - t ^ 2| ≤ 1.21 * (6.1 * u) :=
      mul_le_mul (by nlinarith) hr3 (abs_nonneg _) (by norm_num)
    linarith
  exact hSr

theorem inv_lengthSq (R : RoundedGeom F val u η hi) (hhi : 100 ≤ hi) (hu : u ≤ 1 / 10000) (hη : η ≤ u / 100) {q : Quat F}
    (h1 : 9 / 10 ≤ (q.vals val).lengthSq) (h2 : (q.vals val).lengthSq ≤ 11 / 10) :
    |(q.inv.vals val).lengthSq * (q.vals val).lengthSq - 1| ≤ 22 * u := by
  have hu0 := R.unit_nonneg
  have hη0 := R.under_nonneg
  have hd := R.dot_err hhi hu hη (by linarith : (q.vals val).lengthSq ≤ 2)
  have hc : (q.conj.vals val).lengthSq = (q.vals val).lengthSq := by
    simp only [Quat.vals, Quat.lengthSq, Quat.conj, R.neg]; ring
  have hq : q.inv = q.conj.smul (1 / q.dot q) := rfl
  set S := (q.vals val).lengthSq
  set D := val (q.dot q) with hD
  have hdd : |D - S| ≤ 4.6 * u := hd.trans (by nlinarith)
  obtain ⟨d1, d2⟩ := abs_le.1 hdd
  have hDpos : 0 < D := by linarith
  have ht0 : 0 < 1 / D := by positivity
  have ht : 1 / D ≤ 10 / 7 := by rw [div_le_div_iff₀ hDpos (by norm_num)]; linarith
  obtain ⟨δ', ε, hδ', hε, hr⟩ := R.div 1 (q.dot q) hDpos.ne' (by rw [R.one, ← hD, abs_of_pos ht0]; linarith)
  rw [R.one, ← hD] at hr
  have hr2 := recip_sq_err hu0 hu hη ht0 ht hδ' hε
  rw [← hr] at hr2
  have hSr := inv_near hu0 hu h1 h2 hDpos d1 d2 ht0 ht hr2
  obtain ⟨m1, m2⟩ := abs_le.1 hSr
  have hsr : S * val (1 / q.dot q) ^ 2 ≤ 12 / 10 := by
    have : 9 / 10 * (S * val (1 / q.dot q) ^ 2) ≤ S * (S * val (1 / q.dot q) ^ 2) :=
      mul_le_mul_of_nonneg_right h1 (mul_nonneg (by linarith) (sq_nonneg _))
    nlinarith
  have hsm := R.smul_lengthSq hhi hu hη (q := q.conj) (r := 1 / q.dot q) (by rw [hc]; linarith)
  rw [hc, ← hq] at hsm
  have e : (q.inv.vals val).lengthSq * S - 1 =
      ((q.inv.vals val).lengthSq - S * val (1 / q.dot q) ^ 2) * S + (S ^ 2 * val (1 / q.dot q) ^ 2 - 1) := by ring
  rw [e]
  refine (abs_add_le _ _).trans ?_
  rw [abs_mul, abs_of_nonneg (by linarith : 0 ≤ S)]
  have hb : 2.001 * u * (S * val (1 / q.dot q) ^ 2) + 4 * u / 25 ≤ 2.6 * u := by nlinarith
  have := mul_le_mul (hsm.trans hb) h2 (by linarith) (by positivity)
  linarith

end RoundedGeom
end Mcl3dl
