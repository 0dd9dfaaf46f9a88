import Verif.Proofs.DDAGrid

/-! One axis of a DDA ray: where and when the ray crosses the cell borders. -/

namespace Mcl3dl
namespace DDA

/-- Closed interval of cell `c` along one axis. -/
def InC (gs mn : ℝ) (c : ℤ) (x : ℝ) : Prop := mn + c * gs ≤ x ∧ x ≤ mn + (c + 1) * gs

/-- One axis of a ray `b + t * d`, `0 ≤ t ≤ L`, starting inside `[mn, mx]`. -/
structure Axis (gs mn mx b d L : ℝ) (bi ei sz : ℤ) : Prop where
  hg : 0 < gs
  hb0 : mn ≤ b
  hb1 : b ≤ mx
  hL : 0 < L
  hbi : bi = ⌊(b - mn) / gs⌋
  hei : ei = truncZ ((b + L * d - mn) / gs)
  hsz : sz = ⌊(mx - mn) / gs⌋ + 1

variable {gs mn mx b d L : ℝ} {bi ei sz : ℤ}

namespace Axis
variable (A : Axis gs mn mx b d L bi ei sz)
include A

theorem bi_nonneg : 0 ≤ bi := by
  rw [A.hbi]; exact Int.floor_nonneg.2 (div_nonneg (by linarith [A.hb0]) A.hg.le)

theorem b_lo : mn + bi * gs ≤ b := by
  have h := Int.floor_le ((b - mn) / gs)
  rw [← A.hbi, le_div_iff₀ A.hg] at h
  linarith

theorem b_hi : b < mn + (bi + 1) * gs := by
  have h := Int.lt_floor_add_one ((b - mn) / gs)
  rw [← A.hbi, div_lt_iff₀ A.hg] at h
  linarith

theorem mx_lt : mx < mn + sz * gs := by
  have h := Int.lt_floor_add_one ((mx - mn) / gs)
  rw [div_lt_iff₀ A.hg] at h
  rw [A.hsz]; push_cast; linarith

theorem bi_lt : bi < sz := by
  rw [A.hbi, A.hsz]
  have : ⌊(b - mn) / gs⌋ ≤ ⌊(mx - mn) / gs⌋ := by
    apply Int.floor_le_floor
    have := A.hb1; have := A.hg
    gcongr
  omega

/-- end not below the minimum: ordinary floor -/
theorem ei_pos (h : mn ≤ b + L * d) :
    0 ≤ ei ∧ mn + ei * gs ≤ b + L * d ∧ b + L * d < mn + (ei + 1) * gs := by
  have h0 : 0 ≤ (b + L * d - mn) / gs := div_nonneg (by linarith) A.hg.le
  have he : ei = ⌊(b + L * d - mn) / gs⌋ := by rw [A.hei, truncZ_nonneg h0]
  refine ⟨by rw [he]; exact Int.floor_nonneg.2 h0, ?_, ?_⟩
  · have h := Int.floor_le ((b + L * d - mn) / gs)
    rw [← he, le_div_iff₀ A.hg] at h
    linarith
  · have h := Int.lt_floor_add_one ((b + L * d - mn) / gs)
    rw [← he, div_lt_iff₀ A.hg] at h
    linarith

/-- end below the minimum: rounding toward zero -/
theorem ei_neg (h : b + L * d < mn) :
    ei ≤ 0 ∧ b + L * d ≤ mn + ei * gs := by
  have h0 : (b + L * d - mn) / gs < 0 := div_neg_of_neg_of_pos (by linarith) A.hg
  have he : ei = ⌈(b + L * d - mn) / gs⌉ := by
    rw [A.hei]; unfold truncZ; rw [if_neg (not_le.2 h0)]
  refine ⟨by rw [he, Int.ceil_le]; push_cast; exact h0.le, ?_⟩
  have h := Int.le_ceil ((b + L * d - mn) / gs)
  rw [← he, div_le_iff₀ A.hg] at h
  linarith

theorem bi_eq_trunc : bi = truncZ ((b - mn) / gs) := by
  rw [A.hbi, truncZ_nonneg (div_nonneg (by linarith [A.hb0]) A.hg.le)]

theorem lt_of_pos (hd : 0 ≤ d) : bi ≤ ei := by
  rw [A.bi_eq_trunc, A.hei]
  apply truncZ_mono
  have := mul_nonneg A.hL.le hd; have := A.hg
  gcongr; linarith

theorem lt_of_neg (hd : d ≤ 0) : ei ≤ bi := by
  rw [A.bi_eq_trunc, A.hei]
  apply truncZ_mono
  have := mul_nonpos_of_nonneg_of_nonpos A.hL.le hd; have := A.hg
  gcongr; linarith

theorem d_ne (h : ei ≠ bi) : d ≠ 0 := by
  rintro rfl
  apply h
  rw [A.hei, A.bi_eq_trunc]; simp

theorem d_neg (h : ei < bi) : d < 0 := by
  by_contra hd
  have := A.lt_of_pos (not_lt.1 hd)
  omega

theorem d_pos (h : bi < ei) : 0 < d := by
  by_contra hd
  have := A.lt_of_neg (not_lt.1 hd)
  omega

/-- An axis along which the index does not change. -/
theorem still (h : ei = bi) {t : ℝ} (h0 : 0 ≤ t) (h1 : t ≤ L) (hm : mn ≤ b + t * d) :
    InC gs mn bi (b + t * d) := by
  have blo := A.b_lo; have bhi := A.b_hi
  rcases le_total 0 d with hd | hd
  · have htd : 0 ≤ t * d := mul_nonneg h0 hd
    have hle : t * d ≤ L * d := mul_le_mul_of_nonneg_right h1 hd
    have hE := A.ei_pos (by linarith)
    rw [h] at hE
    exact ⟨by linarith, by linarith [hE.2.2]⟩
  · have htd : t * d ≤ 0 := mul_nonpos_of_nonneg_of_nonpos h0 hd
    have hle : L * d ≤ t * d := mul_le_mul_of_nonpos_right h1 hd
    refine ⟨?_, by linarith⟩
    rcases le_or_gt mn (b + L * d) with hE | hE
    · have hE := A.ei_pos hE
      rw [h] at hE; linarith [hE.2.1]
    · have hE := A.ei_neg hE
      have : bi = 0 := by have := A.bi_nonneg; omega
      rw [this]; push_cast; linarith

end Axis

/-- Crossing time number `k` of an axis with edge `(i0, dl)`. -/
def tau (e : ℝ × ℝ) (k : ℕ) : ℝ := e.1 + e.2 * k

theorem tAt_some (e : ℝ × ℝ) (k : ℕ) : tAt (some e) k = (tau e k : WithTop ℝ) := by
  unfold tAt tau; simp

/-- What is known about the crossing times of an axis along which the index changes. -/
structure Crossing (gs mn mx b d L : ℝ) (bi ei sz st : ℤ) (e : ℝ × ℝ) : Prop where
  delta : 0 < e.2
  init : 0 ≤ e.1
  /-- between two crossings the ray is in the corresponding cell -/
  inCell : ∀ (k : ℕ) (t : ℝ), 0 ≤ t → (∀ j, k = j + 1 → tau e j ≤ t) → t ≤ tau e k →
    InC gs mn (bi + st * k) (b + t * d)
  /-- the last crossing before the end cell happens before the end -/
  last : ∀ n : ℕ, (n : ℤ) + 1 = |ei - bi| → tau e n ≤ L
  /-- inside the map the end cell is not left before the end -/
  stay : ∀ (n : ℕ) (t : ℝ), (n : ℤ) = |ei - bi| → t ≤ L → mn ≤ b + t * d → t ≤ tau e n
  /-- leaving the index range means leaving the map -/
  exit : ∀ (k : ℕ) (t : ℝ), (bi + st * (k + 1 : ℕ) < 0 ∨ sz ≤ bi + st * (k + 1 : ℕ)) → tau e k < t →
    ¬ (mn ≤ b + t * d ∧ b + t * d ≤ mx)

theorem Axis.crossing (A : Axis gs mn mx b d L bi ei sz) (h : ei ≠ bi) :
    ∃ e, edgeOf gs mn b d bi ei = some e ∧
      Crossing gs mn mx b d L bi ei sz (if ei - bi < 0 then -1 else 1) e := by
  have hd0 := A.d_ne h
  have hg := A.hg
  have blo := A.b_lo; have bhi := A.b_hi
  unfold edgeOf
  rw [if_neg (by omega)]
  refine ⟨_, rfl, ?_⟩
  rcases lt_or_gt_of_ne h with hlt | hgt
  · have hd := A.d_neg hlt
    rw [if_pos hd, if_pos (by omega)]
    have e1 : |(↑bi * gs + mn - b) / d| = (bi * gs + mn - b) / d := by
      apply abs_of_nonneg; apply div_nonneg_of_nonpos <;> linarith
    have e2 : |gs / d| = -(gs / d) := by
      apply abs_of_neg; exact div_neg_of_pos_of_neg hg hd
    have pos : ∀ k : ℕ, b + tau (|(↑bi * gs + mn - b) / d|, |gs / d|) k * d = mn + (bi - k) * gs := by
      intro k; unfold tau; rw [e1, e2]; field_simp; ring
    have key : ∀ (k : ℕ) (t : ℝ), t ≤ tau (|(↑bi * gs + mn - b) / d|, |gs / d|) k ↔
        mn + (bi - k) * gs ≤ b + t * d := by
      intro k t
      rw [← pos k, add_le_add_iff_left]
      exact (mul_le_mul_right_of_neg hd).symm
    generalize (|(↑bi * gs + mn - b) / d|, |gs / d|) = e at *
    have he1 : e.1 = tau e 0 := by simp [tau]
    have he2 : e.2 = tau e 1 - tau e 0 := by simp [tau]
    have hneg : |ei - bi| = bi - ei := by rw [abs_of_neg (by omega)]; ring
    have flip : ∀ (k : ℕ) (t : ℝ), tau e k < t ↔ b + t * d < mn + (bi - k) * gs := fun k t => by
      rw [← not_le, key, not_le]
    have flip' : ∀ (k : ℕ) (t : ℝ), tau e k ≤ t → b + t * d ≤ mn + (bi - k) * gs := fun k t h => by
      rw [← pos k]; have := mul_le_mul_of_nonpos_right h hd.le; linarith
    constructor
    · rw [he2, sub_pos, flip, pos 1]; push_cast; nlinarith
    · rw [he1, key]; push_cast; linarith
    · intro k t h0 h1 h2
      have a := (key k t).1 h2
      refine ⟨by push_cast; nlinarith, ?_⟩
      cases k with
      | zero => push_cast; nlinarith
      | succ j =>
        have := flip' j t (h1 j rfl)
        push_cast; nlinarith
    · intro n hn
      by_contra hc
      have hp : ¬ (L > tau e n) := by
        intro hh; exact hc hh.le
      have hc' : L < tau e n := not_le.1 hc
      have hlt' : mn + (bi - n) * gs < b + L * d := by
        rw [← pos n]; have := mul_lt_mul_of_neg_right hc' hd; linarith
      have hbe : (bi : ℝ) - n = ei + 1 := by
        have : bi - n = ei + 1 := by omega
        exact_mod_cast this
      rw [hbe] at hlt'
      rcases le_or_gt mn (b + L * d) with hE | hE
      · linarith [(A.ei_pos hE).2.2]
      · have := (A.ei_neg hE).2
        nlinarith
    · intro n t hn htL hm
      rw [key]
      have hbe : (bi : ℝ) - n = ei := by
        have : bi - n = ei := by omega
        exact_mod_cast this
      rw [hbe]
      rcases le_or_gt mn (b + L * d) with hE | hE
      · have := (A.ei_pos hE).2.1
        have := mul_le_mul_of_nonpos_right htL hd.le
        linarith
      · have h1 : (ei : ℝ) ≤ 0 := by exact_mod_cast (A.ei_neg hE).1
        nlinarith
    · rintro k t hk ht ⟨hm, -⟩
      have := (flip k t).1 ht
      have hbi := A.bi_nonneg
      have hbs := A.bi_lt
      have hk' : (bi : ℝ) - k ≤ 0 := by
        have : bi - k ≤ 0 := by push_cast at hk; omega
        exact_mod_cast this
      nlinarith
  · have hd := A.d_pos hgt
    rw [if_neg (not_lt.2 hd.le), if_neg (by omega)]
    have e1 : |((↑bi + 1) * gs + mn - b) / d| = ((bi + 1) * gs + mn - b) / d := by
      apply abs_of_nonneg; apply div_nonneg <;> linarith
    have e2 : |gs / d| = gs / d := by
      apply abs_of_pos; exact div_pos hg hd
    have pos : ∀ k : ℕ, b + tau (|((↑bi + 1) * gs + mn - b) / d|, |gs / d|) k * d =
        mn + (bi + 1 + k) * gs := by
      intro k; unfold tau; rw [e1, e2]; field_simp; ring
    have key : ∀ (k : ℕ) (t : ℝ), t ≤ tau (|((↑bi + 1) * gs + mn - b) / d|, |gs / d|) k ↔
        b + t * d ≤ mn + (bi + 1 + k) * gs := by
      intro k t
      rw [← pos k, add_le_add_iff_left]
      exact (mul_le_mul_iff_left₀ hd).symm
    generalize (|((↑bi + 1) * gs + mn - b) / d|, |gs / d|) = e at *
    have he1 : e.1 = tau e 0 := by simp [tau]
    have he2 : e.2 = tau e 1 - tau e 0 := by simp [tau]
    have hpos : |ei - bi| = ei - bi := abs_of_pos (by omega)
    have flip : ∀ (k : ℕ) (t : ℝ), tau e k < t ↔ mn + (bi + 1 + k) * gs < b + t * d := fun k t => by
      rw [← not_le, key, not_le]
    have flip' : ∀ (k : ℕ) (t : ℝ), tau e k ≤ t → mn + (bi + 1 + k) * gs ≤ b + t * d := fun k t h => by
      rw [← pos k]; have := mul_le_mul_of_nonneg_right h hd.le; linarith
    have hLd : mn ≤ b + L * d := by have := mul_pos A.hL hd; linarith [A.hb0]
    constructor
    · rw [he2, sub_pos, flip, pos 1]; push_cast; nlinarith
    · rw [he1, key]; push_cast; linarith
    · intro k t h0 h1 h2
      have a := (key k t).1 h2
      refine ⟨?_, by push_cast; nlinarith⟩
      cases k with
      | zero => push_cast; have := mul_nonneg h0 hd.le; nlinarith
      | succ j =>
        have := flip' j t (h1 j rfl)
        push_cast; nlinarith
    · intro n hn
      by_contra hc
      have hc' : L < tau e n := not_le.1 hc
      have hlt' : b + L * d < mn + (bi + 1 + n) * gs := by
        rw [← pos n]; have := mul_lt_mul_of_pos_right hc' hd; linarith
      have hbe : (bi : ℝ) + 1 + n = ei := by
        have : bi + 1 + n = ei := by omega
        exact_mod_cast this
      rw [hbe] at hlt'
      linarith [(A.ei_pos hLd).2.1]
    · intro n t hn htL hm
      rw [key]
      have hbe : (bi : ℝ) + 1 + n = ei + 1 := by
        have : bi + 1 + n = ei + 1 := by omega
        exact_mod_cast this
      rw [hbe]
      have := (A.ei_pos hLd).2.2
      have := mul_le_mul_of_nonneg_right htL hd.le
      linarith
    · rintro k t hk ht ⟨-, hm⟩
      have := (flip k t).1 ht
      have hbi := A.bi_nonneg
      have hk' : (sz : ℝ) ≤ bi + 1 + k := by
        have : sz ≤ bi + 1 + k := by push_cast at hk; omega
        exact_mod_cast this
      have := A.mx_lt
      nlinarith

theorem edgeOf_none (h : ei = bi) : edgeOf gs mn b d bi ei = none := by
  unfold edgeOf; rw [if_pos (by omega)]

end DDA
end Mcl3dl
