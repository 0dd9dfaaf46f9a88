import Verif.Proofs.RoundedGeom
import Verif.Spec.RoundedFilter

/-! # Rounding in the low-pass filter -/

namespace Mcl3dl
namespace RFilt

theorem prod_near {a A b B α β : ℝ} (ha : |a - A| ≤ α) (hb : |b - B| ≤ β) :
    |a * b - A * B| ≤ |A| * β + |B| * α + α * β := by
  have e : a * b - A * B = A * (b - B) + B * (a - A) + (a - A) * (b - B) := by ring
  rw [e]
  refine (abs_add_le _ _).trans ?_
  have h1 := abs_add_le (A * (b - B)) (B * (a - A))
  rw [abs_mul A, abs_mul B] at h1
  rw [abs_mul (a - A)]
  have h2 := mul_le_mul_of_nonneg_left hb (abs_nonneg A)
  have h3 := mul_le_mul_of_nonneg_left ha (abs_nonneg B)
  have h4 := mul_le_mul ha hb (abs_nonneg _) ((abs_nonneg _).trans ha)
  linarith

theorem abs_near {a A α : ℝ} (h : |a - A| ≤ α) : |a| ≤ |A| + α := by
  have := abs_add_le A (a - A)
  rw [add_sub_cancel] at this
  linarith

/-- Rounding a number that is near to another one. -/
theorem round_near {r x X u η ε C : ℝ} (hu : 0 ≤ u) (hr : |r - x| ≤ u * |x| + η) (hx : |x - X| ≤ ε) (hX : |X| ≤ C) :
    |r - X| ≤ ε + u * (C + ε) + η := by
  have h1 := abs_near hx
  have h2 := mul_le_mul_of_nonneg_left (h1.trans (add_le_add_left hX ε)) hu
  have h3 := abs_add_le (r - x) (x - X)
  rw [sub_add_sub_cancel] at h3
  linarith

/-- The assumptions on sizes: `S` is one plus twice the time constant, `M` bounds the inputs. -/
structure Sizes (u η S M : ℝ) : Prop where
  u0 : 0 ≤ u
  η0 : 0 ≤ η
  u1 : u ≤ 1 / 100
  S2 : 2 ≤ S
  M1 : 1 ≤ M
  ηS : η * S ≤ u
  uS : 16 * (u * S) ≤ 1

variable {u η S M : ℝ}

theorem Sizes.eta (h : Sizes u η S M) : η ≤ u / S := by
  rw [le_div_iff₀ (by linarith [h.S2])]; exact h.ηS

theorem Sizes.eta' (h : Sizes u η S M) : 2 * η ≤ u := by
  have := mul_le_mul_of_nonneg_left h.S2 h.η0
  linarith [h.ηS]

/-- Near numbers have near inverses. -/
theorem inv_near {q S ε : ℝ} (hS : 0 < S) (hε : 0 ≤ ε) (hε1 : ε ≤ 3 / 100) (hq : |q - S| ≤ ε * S) :
    0 < q ∧ |1 / q - 1 / S| ≤ 104 / 100 * ε / S ∧ |1 / q| ≤ 104 / 100 / S := by
  obtain ⟨h1, h2⟩ := abs_le.1 hq
  have h3 : 97 / 100 * S ≤ q := by nlinarith
  have hq0 : 0 < q := by nlinarith
  have h4 : 1 / q ≤ 104 / 100 / S := by
    rw [div_le_div_iff₀ hq0 hS]; nlinarith
  refine ⟨hq0, ?_, ?_⟩
  · have e : 1 / q - 1 / S = -((q - S) * (1 / q) * (1 / S)) := by field_simp; ring
    have hS' : (0 : ℝ) ≤ 1 / S := by positivity
    have hq' : (0 : ℝ) ≤ 1 / q := by positivity
    rw [e, abs_neg, abs_mul, abs_mul, abs_of_nonneg hS', abs_of_nonneg hq']
    calc |q - S| * (1 / q) * (1 / S) ≤ ε * S * (104 / 100 / S) * (1 / S) := by gcongr
      _ = 104 / 100 * ε / S := by field_simp
  · rw [abs_of_nonneg (by positivity)]; exact h4

/-- `2 T` and `1 + 2 T` -/
theorem step_p (h : Sizes u η S M) {p : ℝ} (hp : |p - (S - 1)| ≤ u * |S - 1| + η) : |p - (S - 1)| ≤ u * S := by
  have e : |S - 1| = S - 1 := abs_of_nonneg (by linarith [h.S2])
  rw [e] at hp
  have := h.eta'
  nlinarith [h.u0]

theorem step_q (h : Sizes u η S M) {p q : ℝ} (hp : |p - (S - 1)| ≤ u * S) (hq : |q - (1 + p)| ≤ u * |1 + p|) :
    |q - S| ≤ 201 / 100 * u * S := by
  have h1 : |1 + p - S| ≤ u * S := by rw [show 1 + p - S = p - (S - 1) by ring]; exact hp
  have h2 := round_near (C := S) h.u0 (η := 0) (by simpa using hq) h1 (by rw [abs_of_nonneg (by linarith [h.S2])])
  have h3 : u * (u * S) ≤ 1 / 100 * (u * S) :=
    mul_le_mul_of_nonneg_right h.u1 (mul_nonneg h.u0 (by linarith [h.S2]))
  nlinarith

theorem step_k3 (h : Sizes u η S M) {q k : ℝ} (hq : |q - S| ≤ 201 / 100 * u * S)
    (hk : |k - -1 / q| ≤ u * |-1 / q| + η) : |k - -1 / S| ≤ 42 / 10 * u / S := by
  have hS0 : 0 < S := by linarith [h.S2]
  obtain ⟨hq0, h1, h2⟩ := inv_near (ε := 201 / 100 * u) hS0 (by linarith [h.u0]) (by linarith [h.u1]) hq
  have e1 : |-1 / q - -1 / S| ≤ 104 / 100 * (201 / 100 * u) / S := by
    rw [show -1 / q - -1 / S = -(1 / q - 1 / S) by ring, abs_neg]; exact h1
  have e2 : |-1 / q| ≤ 104 / 100 / S := by rw [neg_div, abs_neg]; exact h2
  have h3 := mul_le_mul_of_nonneg_left e2 h.u0
  have h4 := abs_add_le (k - -1 / q) (-1 / q - -1 / S)
  rw [sub_add_sub_cancel] at h4
  have h5 := h.eta
  have h6 : 104 / 100 * (201 / 100 * u) / S + u * (104 / 100 / S) + u / S ≤ 42 / 10 * u / S := by
    rw [show 104 / 100 * (201 / 100 * u) / S + u * (104 / 100 / S) + u / S =
      (104 / 100 * (201 / 100) + 104 / 100 + 1) * u / S by ring]
    gcongr
    · exact h.u0
    · norm_num
  linarith

theorem step_k1 (h : Sizes u η S M) {p g k3 k1 : ℝ} (hp : |p - (S - 1)| ≤ u * S) (hg : |g - (1 - p)| ≤ u * |1 - p|)
    (h3 : |k3 - -1 / S| ≤ 42 / 10 * u / S) (h1 : |k1 - g * k3| ≤ u * |g * k3| + η) :
    |k1 - (S - 2) / S| ≤ 8 * u := by
  have hS0 : 0 < S := by linarith [h.S2]
  have hu0 := h.u0
  have a1 : |1 - p - (2 - S)| ≤ u * S := by
    rw [show 1 - p - (2 - S) = -(p - (S - 1)) by ring, abs_neg]; exact hp
  have hC : |2 - S| ≤ S - 2 := by rw [abs_of_nonpos (by linarith [h.S2])]; linarith
  have a2 := round_near h.u0 (η := 0) (by simpa using hg) a1 hC
  have a3 : |g - (2 - S)| ≤ 201 / 100 * u * S := by
    have h3 : u * (u * S) ≤ 1 / 100 * (u * S) := mul_le_mul_of_nonneg_right h.u1 (by positivity)
    nlinarith
  have a4 := prod_near a3 h3
  have e : (2 - S) * (-1 / S) = (S - 2) / S := by field_simp; ring
  rw [e] at a4
  have hi : |(-1 : ℝ) / S| = 1 / S := by rw [neg_div, abs_neg, abs_of_pos (by positivity)]
  rw [hi] at a4
  have b1 : |2 - S| * (42 / 10 * u / S) ≤ 42 / 10 * u := by
    calc |2 - S| * (42 / 10 * u / S) ≤ S * (42 / 10 * u / S) := by
          apply mul_le_mul_of_nonneg_right (by linarith) (by positivity)
      _ = 42 / 10 * u := by field_simp
  have b2 : 1 / S * (201 / 100 * u * S) = 201 / 100 * u := by field_simp
  have b3 : 201 / 100 * u * S * (42 / 10 * u / S) = 201 / 100 * (42 / 10) * (u * u) := by field_simp
  have b4 : u * u ≤ 1 / 100 * u := mul_le_mul_of_nonneg_right h.u1 h.u0
  have a5 : |g * k3 - (S - 2) / S| ≤ 63 / 10 * u := by
    rw [b2, b3] at a4
    nlinarith
  have hk : |(S - 2) / S| ≤ 1 := by
    rw [abs_of_nonneg (div_nonneg (by linarith [h.S2]) hS0.le), div_le_one hS0]; linarith
  have a6 := round_near h.u0 h1 a5 hk
  have := h.eta'
  nlinarith

theorem step_k0 (h : Sizes u η S M) {k1 k0 : ℝ} (h1 : |k1 - (S - 2) / S| ≤ 8 * u)
    (h0 : |k0 - (-k1 - 1)| ≤ u * |-k1 - 1|) : |k0 - -(2 * (S - 1)) / S| ≤ 11 * u := by
  have hS0 : 0 < S := by linarith [h.S2]
  have a1 : |-k1 - 1 - -(2 * (S - 1)) / S| ≤ 8 * u := by
    rw [show -k1 - 1 - -(2 * (S - 1)) / S = -(k1 - (S - 2) / S) by field_simp; ring, abs_neg]; exact h1
  have hC : |-(2 * (S - 1)) / S| ≤ 2 := by
    rw [neg_div, abs_neg, abs_of_nonneg (div_nonneg (by linarith [h.S2]) hS0.le), div_le_iff₀ hS0]; linarith
  have a2 := round_near h.u0 (η := 0) (by simpa using h0) a1 hC
  have b4 : u * u ≤ 1 / 100 * u := mul_le_mul_of_nonneg_right h.u1 h.u0
  nlinarith

/-- How near the coefficients of the machine are. -/
structure Near (u S k0 k1 k2 k3 : ℝ) : Prop where
  k0 : |k0 - -(2 * (S - 1)) / S| ≤ 11 * u
  k1 : |k1 - (S - 2) / S| ≤ 8 * u
  k2 : |k2 - 1 / S| ≤ 42 / 10 * u / S
  k3 : |k3 - -1 / S| ≤ 42 / 10 * u / S

theorem fin_x {u η S M r k e : ℝ} (hu0 : 0 ≤ u) (hu1 : u ≤ 1 / 100) (huM : 0 ≤ u * M) (huSM : 2 * (u * M) ≤ u * (S * M))
    (hη : 2 * η ≤ u * M)
    (hke : k * e * (1 + u) ^ 2 ≤ e - e / S) (hee : e - e / S ≤ 13 * u * S ^ 2 * M - 13 * (u * (S * M)))
    (h : r ≤ 1361 / 100 * (u * M) + ((1 + u) * (k * e) + 9 * u * ((S - 1) * M) + η) +
      u * ((S - 1) * M + (1361 / 100 * (u * M) + ((1 + u) * (k * e) + 9 * u * ((S - 1) * M) + η))) + 0) :
    r ≤ 13 * u * S ^ 2 * M := by
  have g1 : 1361 / 100 * (u * M) + 9 * u * ((S - 1) * M) + η ≤ 9 * (u * (S * M)) + 511 / 100 * (u * M) := by
    have e : 9 * u * ((S - 1) * M) = 9 * (u * (S * M)) - 9 * (u * M) := by ring
    linarith
  have g2 := mul_le_mul_of_nonneg_left g1 (show 0 ≤ 1 + u by linarith)
  have g3 : (1 + u) * (9 * (u * (S * M)) + 511 / 100 * (u * M)) ≤
      101 / 100 * (9 * (u * (S * M)) + 511 / 100 * (u * M)) :=
    mul_le_mul_of_nonneg_right (by linarith) (by linarith)
  have e1 : u * ((S - 1) * M) = u * (S * M) - u * M := by ring
  have e2 : 1361 / 100 * (u * M) + ((1 + u) * (k * e) + 9 * u * ((S - 1) * M) + η) +
      u * ((S - 1) * M + (1361 / 100 * (u * M) + ((1 + u) * (k * e) + 9 * u * ((S - 1) * M) + η))) + 0 =
      k * e * (1 + u) ^ 2 + (1 + u) * (1361 / 100 * (u * M) + 9 * u * ((S - 1) * M) + η) + u * ((S - 1) * M) := by ring
  rw [e2, e1] at h
  linarith

theorem near_k {k u i : ℝ} (hk : 0 ≤ k) (hu0 : 0 ≤ u) (hu1 : u ≤ 1 / 100) (h1 : k ≤ 1 - 2 * i + 8 * u) (hk1 : k ≤ 1)
    (hi : u ≤ 1 / 16 * i) : k * (1 + u) ^ 2 ≤ 1 - i := by
  have h2 : u * u ≤ 1 / 100 * u := mul_le_mul_of_nonneg_right hu1 hu0
  have h3 : k * (2 * u + u * u) ≤ 1 * (2 * u + u * u) := mul_le_mul_of_nonneg_right hk1 (by positivity)
  have e : k * (1 + u) ^ 2 = k + k * (2 * u + u * u) := by ring
  rw [e]
  linarith

/-- One input: the internal state. -/
theorem step_x (h : Sizes u η S M) {k0 k1 k2 k3 t x X A B X' : ℝ} (hk : Near u S k0 k1 k2 k3) (ht : |t| ≤ M)
    (hx : |x| ≤ (S - 1) * M) (hX : |X - x| ≤ 13 * u * S ^ 2 * M)
    (hA : |A - k0 * t| ≤ u * |k0 * t| + η) (hB : |B - k1 * X| ≤ u * |k1 * X| + η) (hX' : |X' - (A + B)| ≤ u * |A + B|) :
    |X' - (-(2 * (S - 1)) / S * t + (S - 2) / S * x)| ≤ 13 * u * S ^ 2 * M ∧
      |-(2 * (S - 1)) / S * t + (S - 2) / S * x| ≤ (S - 1) * M := by
  have hS0 : 0 < S := by linarith [h.S2]
  have hS2 := h.S2
  have hM := h.M1
  have hu0 := h.u0
  set c0 := -(2 * (S - 1)) / S with hc0
  set c1 := (S - 2) / S with hc1
  have hC : |c0| = 2 * (S - 1) / S := by
    rw [hc0, neg_div, abs_neg, abs_of_nonneg (div_nonneg (by linarith) hS0.le)]
  have hC2 : |c0| ≤ 2 := by rw [hC, div_le_iff₀ hS0]; linarith
  have hc10 : 0 ≤ c1 := div_nonneg (by linarith) hS0.le
  have hc11 : c1 = 1 - 2 / S := by rw [hc1]; field_simp
  -- monomials
  have huM : 0 ≤ u * M := by positivity
  have huSM : 2 * (u * M) ≤ u * (S * M) := by nlinarith
  have huuM : u * (u * M) ≤ 1 / 100 * (u * M) := mul_le_mul_of_nonneg_right h.u1 huM
  have hη : 2 * η ≤ u * M := h.eta'.trans (by nlinarith)
  have hη0 := h.η0
  -- A
  have a1 : |k0 * t - c0 * t| ≤ 11 * (u * M) := by
    rw [← sub_mul, abs_mul]
    calc |k0 - c0| * |t| ≤ 11 * u * M := mul_le_mul hk.k0 ht (abs_nonneg _) (by positivity)
      _ = 11 * (u * M) := by ring
  have a2 : |c0 * t| ≤ 2 * M := by
    rw [abs_mul]; exact mul_le_mul hC2 ht (abs_nonneg _) (by norm_num)
  have a3 := round_near hu0 hA a1 a2
  have a4 : |A - c0 * t| ≤ 1361 / 100 * (u * M) := by nlinarith
  -- B
  set e := |X - x| with he
  have he0 : 0 ≤ e := abs_nonneg _
  have hk1 : |k1| ≤ 1 - 2 / S + 8 * u := by
    have := abs_near hk.k1
    rwa [abs_of_nonneg hc10, hc11] at this
  have huS : u ≤ 1 / 16 * (1 / S) := by
    have := h.uS
    rw [mul_one_div, le_div_iff₀ hS0]
    linarith
  have hSi : 0 < 1 / S := by positivity
  have h2S : 2 / S = 2 * (1 / S) := by ring
  have hk1' : |k1| ≤ 1 := by rw [h2S] at hk1; linarith
  have b1 : |k1 * X - c1 * x| ≤ |k1| * e + 8 * u * ((S - 1) * M) := by
    have e1 : k1 * X - c1 * x = k1 * (X - x) + (k1 - c1) * x := by ring
    rw [e1]
    refine (abs_add_le _ _).trans ?_
    rw [abs_mul, abs_mul]
    have := mul_le_mul hk.k1 hx (abs_nonneg _) (by positivity)
    linarith
  have b2 : |k1 * X| ≤ |k1| * ((S - 1) * M + e) := by
    rw [abs_mul]
    have := abs_near (le_refl (|X - x|))
    exact mul_le_mul_of_nonneg_left (by linarith) (abs_nonneg _)
  have b3 : |k1| * ((S - 1) * M + e) ≤ (S - 1) * M + |k1| * e := by
    have := mul_le_mul_of_nonneg_right hk1' (show 0 ≤ (S - 1) * M from mul_nonneg (by linarith) (by linarith))
    nlinarith
  have b4 := mul_le_mul_of_nonneg_left (b2.trans b3) hu0
  have b5 : |B - c1 * x| ≤ (1 + u) * (|k1| * e) + 9 * u * ((S - 1) * M) + η := by
    have h4 := abs_add_le (B - k1 * X) (k1 * X - c1 * x)
    rw [sub_add_sub_cancel] at h4
    linarith
  -- the sum
  have hx' : |c0 * t + c1 * x| ≤ (S - 1) * M := by
    refine (abs_add_le _ _).trans ?_
    rw [abs_mul, abs_mul, abs_of_nonneg hc10, hC]
    have g1 := mul_le_mul_of_nonneg_left ht (div_nonneg (by linarith : 0 ≤ 2 * (S - 1)) hS0.le)
    have g2 := mul_le_mul_of_nonneg_left hx hc10
    have g3 : 2 * (S - 1) / S * M + c1 * ((S - 1) * M) = (S - 1) * M := by
      rw [hc1]; field_simp; ring
    linarith
  refine ⟨?_, hx'⟩
  have d1 : |A + B - (c0 * t + c1 * x)| ≤
      1361 / 100 * (u * M) + ((1 + u) * (|k1| * e) + 9 * u * ((S - 1) * M) + η) := by
    rw [show A + B - (c0 * t + c1 * x) = (A - c0 * t) + (B - c1 * x) by ring]
    exact (abs_add_le _ _).trans (add_le_add a4 b5)
  have d2 := round_near hu0 (η := 0) (by simpa using hX') d1 hx'
  have hke : |k1| * e * (1 + u) ^ 2 ≤ e - e / S := by
    have g0 : |k1| * (1 + u) ^ 2 ≤ 1 - 1 / S :=
      near_k (abs_nonneg _) hu0 h.u1 (by rw [h2S] at hk1; exact hk1) hk1' huS
    have := mul_le_mul_of_nonneg_right g0 he0
    calc |k1| * e * (1 + u) ^ 2 = |k1| * (1 + u) ^ 2 * e := by ring
      _ ≤ (1 - 1 / S) * e := this
      _ = e - e / S := by ring
  have hee : e - e / S ≤ 13 * u * S ^ 2 * M - 13 * (u * (S * M)) := by
    have g1 : 0 ≤ 1 - 1 / S := by
      rw [sub_nonneg, div_le_one hS0]; linarith
    have g2 := mul_le_mul_of_nonneg_left hX g1
    have g3 : (1 - 1 / S) * (13 * u * S ^ 2 * M) = 13 * u * S ^ 2 * M - 13 * (u * (S * M)) := by
      field_simp
    rw [show e - e / S = (1 - 1 / S) * e by ring]
    linarith
  exact fin_x hu0 h.u1 huM huSM hη hke hee d2

/-- One input: the output. -/
theorem step_out (h : Sizes u η S M) {k0 k1 k2 k3 t x X A B O : ℝ} (hk : Near u S k0 k1 k2 k3) (ht : |t| ≤ M)
    (hx : |x| ≤ (S - 1) * M) (hX : |X - x| ≤ 13 * u * S ^ 2 * M)
    (hA : |A - k2 * t| ≤ u * |k2 * t| + η) (hB : |B - k3 * X| ≤ u * |k3 * X| + η) (hO : |O - (A + B)| ≤ u * |A + B|) :
    |O - (1 / S * t + -1 / S * x)| ≤ 20 * u * S * M := by
  have hS0 : 0 < S := by linarith [h.S2]
  have hS2 := h.S2
  have hM := h.M1
  have hu0 := h.u0
  have huM : 0 ≤ u * M := by positivity
  have huSM : 2 * (u * M) ≤ u * (S * M) := by nlinarith
  have huuM : u * (u * M) ≤ 1 / 100 * (u * M) := mul_le_mul_of_nonneg_right h.u1 huM
  have hη : 2 * η ≤ u * M := h.eta'.trans (by nlinarith)
  have hη0 := h.η0
  have hSi : 0 < 1 / S := by positivity
  have hSi2 : 1 / S ≤ 1 / 2 := one_div_le_one_div_of_le (by norm_num) hS2
  have e2 : |(-1 : ℝ) / S| = 1 / S := by rw [neg_div, abs_neg, abs_of_pos hSi]
  -- A
  have a1 : |k2 * t - 1 / S * t| ≤ 21 / 10 * (u * M) := by
    rw [← sub_mul, abs_mul]
    have g := mul_le_mul hk.k2 ht (abs_nonneg _) (by positivity)
    have g2 : 42 / 10 * u / S * M = 42 / 10 * (u * M) * (1 / S) := by ring
    have g3 := mul_le_mul_of_nonneg_left hSi2 (show 0 ≤ 42 / 10 * (u * M) by linarith)
    linarith
  have a2 : |1 / S * t| ≤ 1 / 2 * M := by
    rw [abs_mul, abs_of_pos hSi]; exact mul_le_mul hSi2 ht (abs_nonneg _) (by norm_num)
  have a3 := round_near hu0 hA a1 a2
  have a4 : |A - 1 / S * t| ≤ 313 / 100 * (u * M) := by nlinarith
  -- B
  have hk3 : |k3| ≤ 1 / S + 42 / 10 * u / S := by
    have := abs_near hk.k3
    rwa [e2] at this
  have hk3' : |k3| ≤ 1042 / 1000 * (1 / S) := by
    have : 42 / 10 * u / S ≤ 42 / 1000 * (1 / S) := by
      rw [show 42 / 10 * u / S = 42 / 10 * u * (1 / S) by ring]
      exact mul_le_mul_of_nonneg_right (by linarith [h.u1]) hSi.le
    linarith
  have b1 : |k3 * X - -1 / S * x| ≤ 1355 / 100 * (u * (S * M)) + 42 / 10 * (u * M) := by
    rw [show k3 * X - -1 / S * x = k3 * (X - x) + (k3 - -1 / S) * x by ring]
    refine (abs_add_le _ _).trans ?_
    rw [abs_mul, abs_mul]
    have g1 := mul_le_mul hk3' hX (abs_nonneg _) (by positivity)
    have g2 : 1042 / 1000 * (1 / S) * (13 * u * S ^ 2 * M) = 13546 / 1000 * (u * (S * M)) := by field_simp; ring
    have g3 := mul_le_mul hk.k3 hx (abs_nonneg _) (by positivity)
    have g4 : 42 / 10 * u / S * ((S - 1) * M) ≤ 42 / 10 * (u * M) := by
      calc 42 / 10 * u / S * ((S - 1) * M) ≤ 42 / 10 * u / S * (S * M) := by gcongr; linarith
        _ = 42 / 10 * (u * M) := by field_simp
    nlinarith
  have b2 : |-1 / S * x| ≤ M := by
    rw [abs_mul, e2]
    have := mul_le_mul_of_nonneg_left hx hSi.le
    have e : 1 / S * ((S - 1) * M) ≤ M := by
      calc 1 / S * ((S - 1) * M) ≤ 1 / S * (S * M) := by gcongr; linarith
        _ = M := by field_simp
    linarith
  have b3 := round_near hu0 hB b1 b2
  have huuSM : u * (u * (S * M)) ≤ 1 / 100 * (u * (S * M)) := mul_le_mul_of_nonneg_right h.u1 (by linarith)
  have b4 : |B - -1 / S * x| ≤ 1369 / 100 * (u * (S * M)) + 58 / 10 * (u * M) := by nlinarith
  have c1 : |A + B - (1 / S * t + -1 / S * x)| ≤ 1369 / 100 * (u * (S * M)) + 893 / 100 * (u * M) := by
    rw [show A + B - (1 / S * t + -1 / S * x) = (A - 1 / S * t) + (B - -1 / S * x) by ring]
    refine (abs_add_le _ _).trans ?_
    linarith
  have c2 : |1 / S * t + -1 / S * x| ≤ M := by
    rw [show 1 / S * t + -1 / S * x = 1 / S * (t - x) by ring, abs_mul, abs_of_pos hSi]
    have g1 : |t - x| ≤ S * M := by
      have := abs_sub t x
      have : |t - x| ≤ |t| + |x| := abs_sub t x
      linarith
    calc 1 / S * |t - x| ≤ 1 / S * (S * M) := by gcongr
      _ = M := by field_simp
  have c3 := round_near hu0 (η := 0) (by simpa using hO) c1 c2
  nlinarith

/-- `set`: the internal state. -/
theorem step_set (h : Sizes u η S M) {k0 k1 k2 k3 v a b X : ℝ} (hk : Near u S k0 k1 k2 k3) (hv : |v| ≤ M)
    (ha : |a - (1 - k2)| ≤ u * |1 - k2|) (hb : |b - a * v| ≤ u * |a * v| + η) (hX : |X - b / k3| ≤ u * |b / k3| + η) :
    |X - -(S - 1) * v| ≤ 13 * u * S ^ 2 * M := by
  have hS0 : 0 < S := by linarith [h.S2]
  have hS2 := h.S2
  have hM := h.M1
  have hu0 := h.u0
  have huM : 0 ≤ u * M := by positivity
  have huSM : 2 * (u * M) ≤ u * (S * M) := by nlinarith
  have huuM : u * (u * M) ≤ 1 / 100 * (u * M) := mul_le_mul_of_nonneg_right h.u1 huM
  have huu : u * u ≤ 1 / 100 * u := mul_le_mul_of_nonneg_right h.u1 hu0
  have hη : 2 * η ≤ u * M := h.eta'.trans (by nlinarith)
  have hη0 := h.η0
  have hSi : 0 < 1 / S := by positivity
  have hSi2 : 1 / S ≤ 1 / 2 := one_div_le_one_div_of_le (by norm_num) hS2
  have a1 : |1 - k2 - (1 - 1 / S)| ≤ 21 / 10 * u := by
    rw [show 1 - k2 - (1 - 1 / S) = -(k2 - 1 / S) by ring, abs_neg]
    refine hk.k2.trans ?_
    rw [show 42 / 10 * u / S = 42 / 10 * u * (1 / S) by ring]
    have := mul_le_mul_of_nonneg_left hSi2 (show 0 ≤ 42 / 10 * u by linarith)
    linarith
  have a2 : |1 - 1 / S| ≤ 1 := by rw [abs_of_nonneg (by linarith)]; linarith
  have a3 := round_near hu0 (η := 0) (by simpa using ha) a1 a2
  have a4 : |a - (1 - 1 / S)| ≤ 32 / 10 * u := by nlinarith
  have b1 : |a * v - (1 - 1 / S) * v| ≤ 32 / 10 * (u * M) := by
    rw [← sub_mul, abs_mul]
    have := mul_le_mul a4 hv (abs_nonneg _) (by positivity)
    linarith
  have b2 : |(1 - 1 / S) * v| ≤ M := by
    rw [abs_mul]
    have := mul_le_mul a2 hv (abs_nonneg _) (by norm_num)
    linarith
  have b3 := round_near hu0 hb b1 b2
  have b4 : |b - (1 - 1 / S) * v| ≤ 48 / 10 * (u * M) := by nlinarith
  -- the inverse of k3
  have hk3 := hk.k3
  have hk0 : k3 ≠ 0 ∧ |1 / k3 + S| ≤ 445 / 100 * u * S ∧ |1 / k3| ≤ 105 / 100 * S := by
    obtain ⟨g1, g2⟩ := abs_le.1 hk3
    have g3 : 42 / 10 * u / S ≤ 42 / 1000 * (1 / S) := by
      rw [show 42 / 10 * u / S = 42 / 10 * u * (1 / S) by ring]
      exact mul_le_mul_of_nonneg_right (by linarith [h.u1]) hSi.le
    have g4 : -1 / S = -(1 / S) := by ring
    rw [g4] at g1 g2
    have hneg : k3 ≤ -(958 / 1000 * (1 / S)) := by linarith
    have hne : k3 < 0 := by linarith
    have hinv : |1 / k3| ≤ 105 / 100 * S := by
      rw [abs_div, abs_one, abs_of_neg hne, div_le_iff₀ (by linarith)]
      have : 105 / 100 * S * (958 / 1000 * (1 / S)) ≤ 105 / 100 * S * -k3 :=
        mul_le_mul_of_nonneg_left (by linarith) (by positivity)
      have e : 105 / 100 * S * (958 / 1000 * (1 / S)) = 105 / 100 * (958 / 1000) := by field_simp
      rw [e] at this
      linarith
    refine ⟨hne.ne, ?_, hinv⟩
    have e : 1 / k3 + S = 1 / k3 * S * (k3 - -1 / S) := by
      have := hne.ne
      field_simp
      ring
    rw [e, abs_mul, abs_mul, abs_of_pos hS0]
    calc |1 / k3| * S * |k3 - -1 / S| ≤ 105 / 100 * S * S * (42 / 10 * u / S) := by gcongr
      _ = 441 / 100 * u * S := by field_simp; ring
      _ ≤ 445 / 100 * u * S := by gcongr; norm_num
  obtain ⟨hne, hinv, hinv'⟩ := hk0
  have c1 : |b / k3 - -(S - 1) * v| ≤ 95 / 10 * (u * (S * M)) := by
    have e : b / k3 - -(S - 1) * v = (b - (1 - 1 / S) * v) * (1 / k3) + (1 - 1 / S) * v * (1 / k3 + S) := by
      field_simp; ring
    rw [e]
    refine (abs_add_le _ _).trans ?_
    rw [abs_mul, abs_mul _ (1 / k3 + S)]
    have g1 := mul_le_mul b4 hinv' (abs_nonneg _) (by linarith)
    have g2 := mul_le_mul b2 hinv (abs_nonneg _) (by linarith)
    have e1 : 48 / 10 * (u * M) * (105 / 100 * S) = 504 / 100 * (u * (S * M)) := by ring
    have e2 : M * (445 / 100 * u * S) = 445 / 100 * (u * (S * M)) := by ring
    rw [e1] at g1; rw [e2] at g2
    linarith
  have c2 : |-(S - 1) * v| ≤ S * M := by
    rw [abs_mul, abs_neg, abs_of_nonneg (by linarith : (0:ℝ) ≤ S - 1)]
    exact mul_le_mul (by linarith) hv (abs_nonneg _) hS0.le
  have c3 := round_near hu0 hX c1 c2
  have huuSM : u * (u * (S * M)) ≤ 1 / 100 * (u * (S * M)) := mul_le_mul_of_nonneg_right h.u1 (by linarith)
  have c4 : |X - -(S - 1) * v| ≤ 26 * (u * (S * M)) := by nlinarith
  have c5 : u * (S * M) * 2 ≤ u * (S * M) * S := mul_le_mul_of_nonneg_left hS2 (by linarith)
  have c6 : 13 * u * S ^ 2 * M = 13 * (u * (S * M) * S) := by ring
  rw [c6]; linarith

end RFilt
end Mcl3dl
