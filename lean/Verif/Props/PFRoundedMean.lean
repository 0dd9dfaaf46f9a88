import Verif.Model.State6DOF
import Verif.Props.PFRounded

/-! # C161: the mean position with rounded arithmetic -/

set_option linter.unusedSectionVars false

namespace Mcl3dl
namespace PF

section
variable {F α : Type} [Zero F] [Add F] [Mul F] [Div F] [LT F]

/-- A rounded sum of numbers of any sign from the left. -/
theorem foldl_error {val : F → ℝ} {u lo hi : ℝ} (R : Rounded F val u lo hi) (xs : List F) (a : F)
    (hhi : (|val a| + (xs.map fun x => |val x|).sum) * (1 + u) ^ xs.length ≤ hi) :
    |val (xs.foldl (· + ·) a) - (val a + (xs.map val).sum)| ≤
      ((1 + u) ^ xs.length - 1) * (|val a| + (xs.map fun x => |val x|).sum) := by
  induction xs generalizing a with
  | nil => simp
  | cons x xs ih =>
    have hu := R.unit_pos
    have hs : 0 ≤ (xs.map fun x => |val x|).sum := List.sum_nonneg (by
      intro y hy
      obtain ⟨z, _, rfl⟩ := List.mem_map.1 hy
      exact abs_nonneg _)
    simp only [List.map_cons, List.sum_cons, List.length_cons, List.foldl_cons] at hhi ⊢
    set T := (xs.map fun x => |val x|).sum
    set S := (xs.map val).sum
    have hp : 1 ≤ (1 + u) ^ xs.length := one_le_pow₀ (by linarith)
    have hA := abs_nonneg (val a)
    have hX := abs_nonneg (val x)
    have hAX := abs_add_le (val a) (val x)
    have hp' : 1 ≤ (1 + u) ^ (xs.length + 1) := one_le_pow₀ (by linarith)
    obtain ⟨δ, hδ, e⟩ := R.add a x (by
      refine le_trans hAX (le_trans ?_ hhi)
      calc |val a| + |val x| ≤ (|val a| + (|val x| + T)) * 1 := by linarith
        _ ≤ _ := mul_le_mul_of_nonneg_left hp' (by linarith))
    have h1 : |val (a + x)| ≤ (|val a| + |val x|) * (1 + u) := by
      rw [e, abs_mul]
      have : |1 + δ| ≤ 1 + u := by
        refine le_trans (abs_add_le _ _) ?_
        rw [abs_one]; linarith
      exact mul_le_mul hAX this (abs_nonneg _) (by linarith)
    have h2 : |val (a + x) - (val a + val x)| ≤ (|val a| + |val x|) * u := by
      rw [e, show (val a + val x) * (1 + δ) - (val a + val x) = (val a + val x) * δ by ring, abs_mul]
      exact mul_le_mul hAX hδ (abs_nonneg _) (by linarith)
    have h3 := ih (a + x) (by
      refine le_trans ?_ hhi
      rw [pow_succ]
      have : (|val (a + x)| + T) ≤ (|val a| + (|val x| + T)) * (1 + u) := by nlinarith
      calc (|val (a + x)| + T) * (1 + u) ^ xs.length ≤ (|val a| + (|val x| + T)) * (1 + u) * (1 + u) ^ xs.length :=
            mul_le_mul_of_nonneg_right this (by positivity)
        _ = _ := by ring)
    have h4 : val (xs.foldl (· + ·) (a + x)) - (val a + (val x + S)) =
        (val (xs.foldl (· + ·) (a + x)) - (val (a + x) + S)) + (val (a + x) - (val a + val x)) := by ring
    rw [h4]
    refine le_trans (abs_add_le _ _) (le_trans (add_le_add h3 h2) ?_)
    have h5 : ((1 + u) ^ xs.length - 1) * (|val (a + x)| + T) ≤
        ((1 + u) ^ xs.length - 1) * ((|val a| + |val x|) * (1 + u) + T) :=
      mul_le_mul_of_nonneg_left (by linarith) (by linarith)
    have h6 : (1 + u) ^ xs.length ≤ (1 + u) ^ (xs.length + 1) := pow_le_pow_right₀ (by linarith) (Nat.le_succ _)
    have h7 : ((1 + u) ^ xs.length - 1) * T ≤ ((1 + u) ^ (xs.length + 1) - 1) * T :=
      mul_le_mul_of_nonneg_right (by linarith) hs
    calc _ ≤ ((1 + u) ^ xs.length - 1) * ((|val a| + |val x|) * (1 + u) + T) + (|val a| + |val x|) * u := by linarith
      _ = ((1 + u) ^ (xs.length + 1) - 1) * (|val a| + |val x|) + ((1 + u) ^ xs.length - 1) * T := by
        rw [pow_succ]; ring
      _ ≤ _ := by linarith

theorem sum_abs_le {l : List α} {f g : α → ℝ} (h : ∀ p ∈ l, |f p| ≤ g p) :
    |(l.map f).sum| ≤ (l.map g).sum := by
  induction l with
  | nil => simp
  | cons p l ih =>
    simp only [List.map_cons, List.sum_cons]
    exact le_trans (abs_add_le _ _) (add_le_add (h p (by simp)) (ih fun q hq => h q (by simp [hq])))

theorem sum_mono {l : List α} {f g : α → ℝ} (h : ∀ p ∈ l, f p ≤ g p) : (l.map f).sum ≤ (l.map g).sum := by
  induction l with
  | nil => simp
  | cons p l ih =>
    simp only [List.map_cons, List.sum_cons]
    exact add_le_add (h p (by simp)) (ih fun q hq => h q (by simp [hq]))

theorem sum_sub (l : List α) (f g : α → ℝ) : (l.map fun p => f p - g p).sum = (l.map f).sum - (l.map g).sum := by
  induction l with
  | nil => simp
  | cons p l ih => simp only [List.map_cons, List.sum_cons, ih]; ring

theorem sum_scale (l : List α) (f : α → ℝ) (c : ℝ) : (l.map fun p => c * f p).sum = c * (l.map f).sum := by
  rw [List.sum_map_mul_left]

/-- A rounded weighted mean: `w` are the rounded weights, `v` the exact ones. -/
theorem mean_error {val : F → ℝ} {u lo hi : ℝ} (R : Rounded F val u lo hi) (l : List α) (w x : α → F) (v : α → ℝ)
    {B : ℝ} (hB : 0 ≤ B) (hv : ∀ p ∈ l, 0 ≤ v p) (hV : 0 < (l.map v).sum)
    (hw : ∀ p ∈ l, ∃ δ, |δ| ≤ u ∧ val (w p) = v p * (1 + δ)) (hx : ∀ p ∈ l, |val (x p)| ≤ B)
    (hprod : ∀ p ∈ l, InRange lo hi (val (x p) * val (w p)))
    (hhi : B * (l.map v).sum * (1 + u) ^ (l.length + 2) ≤ hi) (hhi2 : (l.map v).sum * (1 + u) ^ (l.length + 1) ≤ hi)
    (hdiv : InRange lo hi (val ((l.map fun p => x p * w p).foldl (· + ·) 0) / val ((l.map w).foldl (· + ·) 0))) :
    |val ((l.map fun p => x p * w p).foldl (· + ·) 0 / (l.map w).foldl (· + ·) 0) -
        (l.map fun p => val (x p) * v p).sum / (l.map v).sum| ≤
      B * ((1 + u) ^ (l.length + 3) / (1 - u) ^ (l.length + 1) - 1) := by
  have hu := R.unit_pos
  have hu1 := R.unit_lt
  have h1u : 0 < 1 - u := by linarith
  set n := l.length with hn
  set V := (l.map v).sum with hVd
  set num := (l.map fun p => x p * w p).foldl (· + ·) 0 with hnum
  set den := (l.map w).foldl (· + ·) 0 with hden
  set n0 := (l.map fun p => val (x p) * v p).sum with hn0
  have hwb : ∀ p ∈ l, v p * (1 - u) ≤ val (w p) ∧ val (w p) ≤ v p * (1 + u) ∧ |val (w p) - v p| ≤ u * v p := by
    intro p hp
    obtain ⟨δ, hδ, e⟩ := hw p hp
    obtain ⟨d1, d2⟩ := one_add_bounds hδ
    have h0 := hv p hp
    refine ⟨by rw [e]; exact mul_le_mul_of_nonneg_left d1 h0, by rw [e]; exact mul_le_mul_of_nonneg_left d2 h0, ?_⟩
    rw [e, show v p * (1 + δ) - v p = δ * v p by ring, abs_mul, abs_of_nonneg h0]
    exact mul_le_mul_of_nonneg_right hδ h0
  -- the products
  have hpr : ∀ p ∈ l, |val (x p * w p) - val (x p) * v p| ≤ ((1 + u) ^ 2 - 1) * B * v p ∧
      |val (x p * w p)| ≤ (1 + u) ^ 2 * B * v p := by
    intro p hp
    obtain ⟨a, b, c⟩ := hwb p hp
    have h0 := hv p hp
    obtain ⟨δ, hδ, e⟩ := R.mul _ _ (hprod p hp)
    have hX := hx p hp
    have hX0 := abs_nonneg (val (x p))
    have hwn : |val (w p)| ≤ v p * (1 + u) := by
      rw [abs_of_nonneg (le_trans (mul_nonneg h0 h1u.le) a)]; exact b
    have hd1 : |1 + δ| ≤ 1 + u := by
      refine le_trans (abs_add_le _ _) ?_
      rw [abs_one]; linarith
    constructor
    · rw [e, show val (x p) * val (w p) * (1 + δ) - val (x p) * v p =
        val (x p) * (val (w p) * δ + (val (w p) - v p)) by ring, abs_mul]
      have h1 : |val (w p) * δ + (val (w p) - v p)| ≤ ((1 + u) ^ 2 - 1) * v p := by
        refine le_trans (abs_add_le _ _) ?_
        rw [abs_mul]
        have : |val (w p)| * |δ| ≤ v p * (1 + u) * u := mul_le_mul hwn hδ (abs_nonneg _) (by positivity)
        calc _ ≤ v p * (1 + u) * u + u * v p := add_le_add this c
          _ = _ := by ring
      calc _ ≤ B * (((1 + u) ^ 2 - 1) * v p) := mul_le_mul hX h1 (abs_nonneg _) hB
        _ = _ := by ring
    · rw [e, abs_mul, abs_mul]
      calc |val (x p)| * |val (w p)| * |1 + δ| ≤ B * (v p * (1 + u)) * (1 + u) := by
            refine mul_le_mul (mul_le_mul hX hwn (abs_nonneg _) hB) hd1 (abs_nonneg _) (by positivity)
        _ = _ := by ring
  have hsum1 : |((l.map fun p => x p * w p).map val).sum - n0| ≤ ((1 + u) ^ 2 - 1) * B * V := by
    have e : ((l.map fun p => x p * w p).map val).sum - n0 =
        (l.map fun p => val (x p * w p) - val (x p) * v p).sum := by
      rw [List.map_map, hn0, sum_sub]
      rfl
    rw [e, ← sum_scale]
    exact sum_abs_le fun p hp => (hpr p hp).1
  have hsum2 : ((l.map fun p => x p * w p).map fun y => |val y|).sum ≤ (1 + u) ^ 2 * B * V := by
    rw [List.map_map, ← sum_scale]
    exact sum_mono fun p hp => (hpr p hp).2
  have hpn : 1 ≤ (1 + u) ^ n := one_le_pow₀ (by linarith)
  have hN : |val num - n0| ≤ ((1 + u) ^ (n + 2) - 1) * (B * V) := by
    have h := foldl_error R (l.map fun p => x p * w p) 0 (by
      rw [R.zero, abs_zero, zero_add, List.length_map]
      refine le_trans (mul_le_mul_of_nonneg_right hsum2 (by positivity)) (le_trans (le_of_eq ?_) hhi)
      rw [pow_add]; ring)
    rw [R.zero, abs_zero, zero_add, zero_add, List.length_map] at h
    have h2 : ((1 + u) ^ n - 1) * ((l.map fun p => x p * w p).map fun y => |val y|).sum ≤
        ((1 + u) ^ n - 1) * ((1 + u) ^ 2 * B * V) := mul_le_mul_of_nonneg_left hsum2 (by linarith)
    have h3 : val num - n0 = (val num - ((l.map fun p => x p * w p).map val).sum) +
        (((l.map fun p => x p * w p).map val).sum - n0) := by ring
    rw [h3]
    refine le_trans (abs_add_le _ _) (le_trans (add_le_add (le_trans h h2) hsum1) (le_of_eq ?_))
    rw [pow_add]; ring
  -- the sum of the weights
  have hsw1 : V * (1 - u) ≤ ((l.map w).map val).sum := by
    rw [List.map_map, mul_comm, hVd, ← sum_scale]
    exact sum_mono fun p hp => by have := (hwb p hp).1; simp only [Function.comp]; linarith
  have hsw2 : ((l.map w).map val).sum ≤ V * (1 + u) := by
    rw [List.map_map, mul_comm V, hVd, ← sum_scale]
    exact sum_mono fun p hp => by have := (hwb p hp).2.1; simp only [Function.comp]; linarith
  obtain ⟨hD1, hD2⟩ := foldl_bounds R (l.map w) 0 (by
      intro y hy
      obtain ⟨p, hp, rfl⟩ := List.mem_map.1 hy
      exact le_trans (mul_nonneg (hv p hp) h1u.le) (hwb p hp).1) (by rw [R.zero]) (by
      rw [R.zero, zero_add, List.length_map]
      refine le_trans (mul_le_mul_of_nonneg_right hsw2 (by positivity)) (le_trans (le_of_eq ?_) hhi2)
      rw [pow_succ]; ring)
  rw [R.zero, zero_add, List.length_map] at hD1 hD2
  have hD1' : V * (1 - u) ^ (n + 1) ≤ val den := by
    refine le_trans (le_of_eq ?_) (le_trans (mul_le_mul_of_nonneg_right hsw1 (pow_nonneg h1u.le _)) hD1)
    rw [pow_succ]; ring
  have hD2' : val den ≤ V * (1 + u) ^ (n + 1) := by
    refine le_trans hD2 (le_trans (mul_le_mul_of_nonneg_right hsw2 (by positivity)) (le_of_eq ?_))
    rw [pow_succ]; ring
  set d := (1 - u) ^ (n + 1) with hd
  have hdp : 0 < d := pow_pos h1u _
  have hd1 : d ≤ 1 := pow_le_one₀ h1u.le (by linarith)
  have hden0 : 0 < val den := lt_of_lt_of_le (mul_pos hV hdp) hD1'
  obtain ⟨δ, hδ, e⟩ := R.div num den hden0.ne' hdiv
  rw [e]
  have hn0b : |n0| ≤ B * V := by
    rw [hn0, hVd, ← sum_scale]
    exact sum_abs_le fun p hp => by
      rw [abs_mul, abs_of_nonneg (hv p hp)]
      exact mul_le_mul_of_nonneg_right (hx p hp) (hv p hp)
  have key : val num / val den * (1 + δ) - n0 / V =
      (val num * (1 + δ) - n0) / val den + n0 * (1 / val den - 1 / V) := by
    field_simp
    ring
  rw [key]
  have k1 : |val num * (1 + δ) - n0| ≤ ((1 + u) ^ (n + 3) - 1) * (B * V) := by
    rw [show val num * (1 + δ) - n0 = (val num - n0) * (1 + δ) + n0 * δ by ring]
    refine le_trans (abs_add_le _ _) ?_
    rw [abs_mul, abs_mul]
    have hd1 : |1 + δ| ≤ 1 + u := by
      refine le_trans (abs_add_le _ _) ?_
      rw [abs_one]; linarith
    have hp2 : 1 ≤ (1 + u) ^ (n + 2) := one_le_pow₀ (by linarith)
    have a1 : |val num - n0| * |1 + δ| ≤ ((1 + u) ^ (n + 2) - 1) * (B * V) * (1 + u) :=
      mul_le_mul hN hd1 (abs_nonneg _) (mul_nonneg (by linarith) (mul_nonneg hB hV.le))
    have a2 : |n0| * |δ| ≤ B * V * u := mul_le_mul hn0b hδ (abs_nonneg _) (mul_nonneg hB hV.le)
    refine le_trans (add_le_add a1 a2) (le_of_eq ?_)
    rw [show n + 3 = (n + 2) + 1 from rfl, pow_succ (1 + u) (n + 2)]
    ring
  have hp3 : 1 ≤ (1 + u) ^ (n + 3) := one_le_pow₀ (by linarith)
  have k2 : |(val num * (1 + δ) - n0) / val den| ≤ ((1 + u) ^ (n + 3) - 1) * B / d := by
    rw [abs_div, abs_of_pos hden0, div_le_div_iff₀ hden0 hdp]
    calc |val num * (1 + δ) - n0| * d ≤ ((1 + u) ^ (n + 3) - 1) * (B * V) * d := mul_le_mul_of_nonneg_right k1 hdp.le
      _ = ((1 + u) ^ (n + 3) - 1) * B * (V * d) := by ring
      _ ≤ _ := mul_le_mul_of_nonneg_left hD1' (mul_nonneg (by linarith) hB)
  have k3 : |1 / val den - 1 / V| ≤ (1 / d - 1) / V := by
    have b1 : 1 / val den ≤ 1 / (V * d) := one_div_le_one_div_of_le (mul_pos hV hdp) hD1'
    have b2 : 1 / (V * (1 + u) ^ (n + 1)) ≤ 1 / val den := one_div_le_one_div_of_le hden0 hD2'
    have e1 : 1 / (V * d) = 1 / d / V := by field_simp
    have e2 : 1 / (V * (1 + u) ^ (n + 1)) = 1 / (1 + u) ^ (n + 1) / V := by field_simp
    rw [e1] at b1
    rw [e2] at b2
    have hpq : 1 / (1 + u) ^ (n + 1) + 1 / d ≥ 2 := by
      have hpp : 0 < (1 + u) ^ (n + 1) := by positivity
      have hprod1 : d * (1 + u) ^ (n + 1) ≤ 1 := by
        rw [hd, ← mul_pow]
        exact pow_le_one₀ (by nlinarith) (by nlinarith)
      have : 1 / d ≥ (1 + u) ^ (n + 1) := by
        rw [ge_iff_le, le_div_iff₀ hdp]; linarith
      have h2 : 1 / (1 + u) ^ (n + 1) + (1 + u) ^ (n + 1) ≥ 2 := by
        rw [ge_iff_le, ← sub_nonneg]
        have : 1 / (1 + u) ^ (n + 1) + (1 + u) ^ (n + 1) - 2 = ((1 + u) ^ (n + 1) - 1) ^ 2 / (1 + u) ^ (n + 1) := by
          field_simp; ring
        rw [this]; positivity
      linarith
    rw [abs_le]
    constructor
    · have : -((1 / d - 1) / V) = (1 - 1 / d) / V := by ring
      rw [this]
      have h3 : (1 - 1 / d) / V ≤ (1 / (1 + u) ^ (n + 1) - 1) / V := div_le_div_of_nonneg_right (by linarith) hV.le
      have h4 : (1 / (1 + u) ^ (n + 1) - 1) / V = 1 / (1 + u) ^ (n + 1) / V - 1 / V := by ring
      linarith
    · have : (1 / d - 1) / V = 1 / d / V - 1 / V := by ring
      linarith
  have k4 : |n0 * (1 / val den - 1 / V)| ≤ B * (1 / d - 1) := by
    rw [abs_mul]
    calc |n0| * |1 / val den - 1 / V| ≤ B * V * ((1 / d - 1) / V) :=
          mul_le_mul hn0b k3 (abs_nonneg _) (mul_nonneg hB hV.le)
      _ = _ := by field_simp
  refine le_trans (abs_add_le _ _) (le_trans (add_le_add k2 k4) (le_of_eq ?_))
  field_simp
  ring

end

/-- The error factor is linear in the number of summands. -/
theorem growth_le {u : ℝ} (hu : 0 ≤ u) (hu1 : u < 1) (n : ℕ) (h : (2 * (n : ℝ) + 4) * u ≤ 1 / 2) :
    (1 + u) ^ (n + 3) / (1 - u) ^ (n + 1) - 1 ≤ (4 * (n : ℝ) + 8) * u := by
  have h1u : 0 < 1 - u := by linarith
  have hp : (1 + u) ^ (n + 3) * (1 - u) ^ (n + 3) ≤ 1 := by
    rw [← mul_pow]
    exact pow_le_one₀ (by nlinarith) (by nlinarith)
  have hq : (1 + u) ^ (n + 3) ≤ 1 / (1 - u) ^ (n + 3) := by
    rw [le_div_iff₀ (pow_pos h1u _)]; exact hp
  have hb : 1 - (2 * (n : ℝ) + 4) * u ≤ (1 - u) ^ (2 * n + 4) := by
    have := one_add_mul_le_pow (show (-2 : ℝ) ≤ -u by linarith) (2 * n + 4)
    rw [← sub_eq_add_neg] at this
    push_cast at this
    linarith
  have ht : 0 < 1 - (2 * (n : ℝ) + 4) * u := by linarith
  have hle : (1 + u) ^ (n + 3) / (1 - u) ^ (n + 1) ≤ 1 / (1 - (2 * (n : ℝ) + 4) * u) := by
    calc (1 + u) ^ (n + 3) / (1 - u) ^ (n + 1) ≤ 1 / (1 - u) ^ (n + 3) / (1 - u) ^ (n + 1) :=
          div_le_div_of_nonneg_right hq (pow_nonneg h1u.le _)
      _ = 1 / (1 - u) ^ (2 * n + 4) := by
          rw [div_div, ← pow_add]; congr 2; omega
      _ ≤ _ := one_div_le_one_div_of_le ht hb
  have h2 : 1 / (1 - (2 * (n : ℝ) + 4) * u) - 1 ≤ (4 * (n : ℝ) + 8) * u := by
    rw [tsub_le_iff_right, div_le_iff₀ ht]
    have hm : 0 ≤ (2 * (n : ℝ) + 4) * u := by positivity
    nlinarith
  linarith

section
variable {F : Type} [Zero F] [One F] [Neg F] [Add F] [Sub F] [Mul F] [Div F] [NatCast F] [LT F] [DecidableLT F]
  [DecidableEq F] [Transc F]

theorem meanQuat_fold (wt : Particle (State6 F) F → F) (c : Vec3 F → F) (hc : c = Vec3.x ∨ c = Vec3.y ∨ c = Vec3.z)
    (l : List (Particle (State6 F) F)) (m : State6.MeanAcc F) :
    c (l.foldl (fun m p => State6.meanQuat.add m p.state (wt p)) m).pos =
      (l.map fun p => c p.state.pos * wt p).foldl (· + ·) (c m.pos) ∧
    (l.foldl (fun m p => State6.meanQuat.add m p.state (wt p)) m).pSum = (l.map wt).foldl (· + ·) m.pSum := by
  induction l generalizing m with
  | nil => exact ⟨rfl, rfl⟩
  | cons p l ih =>
    simp only [List.foldl_cons, List.map_cons]
    obtain ⟨h1, h2⟩ := ih (State6.meanQuat.add m p.state (wt p))
    refine ⟨h1.trans ?_, h2.trans rfl⟩
    rcases hc with rfl | rfl | rfl <;> rfl

/-- C161: the estimate (`expectationBiased`): each coordinate differs from the exact weighted mean of the particles'
positions by at most `(4 n + 8) u B`, if `B` bounds the coordinates, `n` is the number of particles, `u` the relative
error of an operation, and no intermediate result overflows or underflows. -/
theorem C161_estimate {val : F → ℝ} {u lo hi : ℝ} (R : Rounded F val u lo hi) (f : Filter (State6 F) F)
    (c : Vec3 F → F) (hc : c = Vec3.x ∨ c = Vec3.y ∨ c = Vec3.z) {B : ℝ} (hB : 0 ≤ B)
    (hv : ∀ p ∈ f.particles, 0 ≤ val p.prob * val p.bias)
    (hV : 0 < (f.particles.map fun p => val p.prob * val p.bias).sum)
    (hx : ∀ p ∈ f.particles, |val (c p.state.pos)| ≤ B)
    (hr1 : ∀ p ∈ f.particles, InRange lo hi (val p.prob * val p.bias))
    (hr2 : ∀ p ∈ f.particles, InRange lo hi (val (c p.state.pos) * val (p.prob * p.bias)))
    (hhi : B * (f.particles.map fun p => val p.prob * val p.bias).sum * (1 + u) ^ (f.particles.length + 2) ≤ hi)
    (hhi2 : (f.particles.map fun p => val p.prob * val p.bias).sum * (1 + u) ^ (f.particles.length + 1) ≤ hi)
    (hdiv : InRange lo hi (val ((f.particles.map fun p => c p.state.pos * (p.prob * p.bias)).foldl (· + ·) 0) /
      val ((f.particles.map fun p => p.prob * p.bias).foldl (· + ·) 0)))
    (hn : (2 * (f.particles.length : ℝ) + 4) * u ≤ 1 / 2) :
    |val (c (f.expectationBiased State6.meanQuat).pos) -
        (f.particles.map fun p => val (c p.state.pos) * (val p.prob * val p.bias)).sum /
          (f.particles.map fun p => val p.prob * val p.bias).sum| ≤ (4 * (f.particles.length : ℝ) + 8) * u * B := by
  have h := mean_error R f.particles (fun p => p.prob * p.bias) (fun p => c p.state.pos)
    (fun p => val p.prob * val p.bias) hB hv hV (fun p hp => R.mul _ _ (hr1 p hp)) hx hr2 hhi hhi2 hdiv
  have e : c (f.expectationBiased State6.meanQuat).pos =
      (f.particles.map fun p => c p.state.pos * (p.prob * p.bias)).foldl (· + ·) 0 /
        (f.particles.map fun p => p.prob * p.bias).foldl (· + ·) 0 := by
    obtain ⟨h1, h2⟩ := meanQuat_fold (fun p => p.prob * p.bias) c hc f.particles State6.meanQuat.empty
    have h0 : c (State6.meanQuat (F := F)).empty.pos = 0 := by rcases hc with rfl | rfl | rfl <;> rfl
    have z : (State6.meanQuat (F := F)).empty.pSum = 0 := rfl
    rw [h0] at h1
    rw [z] at h2
    rw [← h1, ← h2]
    rcases hc with rfl | rfl | rfl <;> rfl
  rw [e]
  refine le_trans h ?_
  calc _ ≤ B * ((4 * (f.particles.length : ℝ) + 8) * u) :=
        mul_le_mul_of_nonneg_left (growth_le R.unit_pos R.unit_lt _ hn) hB
    _ = _ := by ring

theorem meanLoop_cut {S M : Type} (mo : MeanOps S F M) (r : F) (ps : List (Particle S F)) (m : M) :
    ∃ k ≤ ps.length, meanLoop mo r m ps = (ps.take k).foldl (fun m p => mo.add m p.state p.prob) m ∧
      (k = ps.length ∨ (0 < k ∧ r < mo.total ((ps.take k).foldl (fun m p => mo.add m p.state p.prob) m))) := by
  induction ps generalizing m with
  | nil => exact ⟨0, le_rfl, rfl, .inl rfl⟩
  | cons p ps ih =>
    by_cases h : r < mo.total (mo.add m p.state p.prob)
    · exact ⟨1, by simp, by simp [meanLoop, h], .inr ⟨by simp, by simpa using h⟩⟩
    · obtain ⟨k, hk, e, hcase⟩ := ih (mo.add m p.state p.prob)
      refine ⟨k + 1, by simpa using hk, by simp [meanLoop, h, e], ?_⟩
      rcases hcase with rfl | ⟨h0, hlt⟩
      · exact .inl rfl
      · exact .inr ⟨by omega, by simpa using hlt⟩

/-- C161: the mean with the early exit (`expectation` with the default ratio): rounding can make the running total
exceed 1 too early, so that the last particles are dropped, but then these have little weight. -/
theorem C161_expectation {val : F → ℝ} {u lo hi : ℝ} (R : Rounded F val u lo hi) (hone : val 1 = 1)
    (f : Filter (State6 F) F) (sorted : List (Particle (State6 F) F))
    (c : Vec3 F → F) (hc : c = Vec3.x ∨ c = Vec3.y ∨ c = Vec3.z) {B ε : ℝ} (hB : 0 ≤ B) (hε : 0 ≤ ε)
    (hv : ∀ p ∈ f.particles, 0 ≤ val p.prob)
    (hV : 0 < (f.particles.map fun p => val p.prob).sum) (hV1 : (f.particles.map fun p => val p.prob).sum ≤ 1 + ε)
    (hx : ∀ p ∈ f.particles, |val (c p.state.pos)| ≤ B)
    (hr2 : ∀ p ∈ f.particles, InRange lo hi (val (c p.state.pos) * val p.prob))
    (hhi : B * (f.particles.map fun p => val p.prob).sum * (1 + u) ^ (f.particles.length + 2) ≤ hi)
    (hhi2 : (f.particles.map fun p => val p.prob).sum * (1 + u) ^ (f.particles.length + 1) ≤ hi)
    (hdiv : ∀ k, 0 < k → k ≤ f.particles.length →
      InRange lo hi (val (((f.particles.take k).map fun p => c p.state.pos * p.prob).foldl (· + ·) 0) /
        val (((f.particles.take k).map Particle.prob).foldl (· + ·) 0)))
    (hn : (2 * (f.particles.length : ℝ) + 4) * u ≤ 1 / 2) :
    |val (c (f.expectation State6.meanQuat 1 sorted).1.pos) -
        (f.particles.map fun p => val (c p.state.pos) * val p.prob).sum / (f.particles.map fun p => val p.prob).sum| ≤
      (4 * (f.particles.length : ℝ) + 8) * u * B +
        2 * B * (ε + f.particles.length * u) / (f.particles.map fun p => val p.prob).sum := by
  have hu := R.unit_pos
  have hu1 := R.unit_lt
  have h11 : ¬ (1 : F) < 1 := by rw [R.lt]; exact lt_irrefl _
  obtain ⟨k, hk, hml, hcase⟩ := meanLoop_cut (State6.meanQuat (F := F)) 1 f.particles State6.meanQuat.empty
  set l := f.particles with hl
  set V := (l.map fun p => val p.prob).sum with hVd
  set a := l.take k with ha
  set b := l.drop k with hb
  have hab : a ++ b = l := List.take_append_drop k l
  have hal : a.length = k := by rw [ha, List.length_take]; omega
  have hsa : ∀ p ∈ a, p ∈ l := fun p hp => List.mem_of_mem_take hp
  have hsb : ∀ p ∈ b, p ∈ l := fun p hp => List.mem_of_mem_drop hp
  set Va := (a.map fun p => val p.prob).sum with hVa
  set Vb := (b.map fun p => val p.prob).sum with hVb
  have hVab : V = Va + Vb := by rw [hVd, ← hab, List.map_append, List.sum_append]
  have hVb0 : 0 ≤ Vb := List.sum_nonneg (by
    intro y hy
    obtain ⟨p, hp, rfl⟩ := List.mem_map.1 hy
    exact hv p (hsb p hp))
  have hpos : ∀ n : ℕ, 1 ≤ (1 + u) ^ n := fun n => one_le_pow₀ (by linarith)
  obtain ⟨h1, h2⟩ := meanQuat_fold (fun p : Particle (State6 F) F => p.prob) c hc a State6.meanQuat.empty
  have h0 : c (State6.meanQuat (F := F)).empty.pos = 0 := by rcases hc with rfl | rfl | rfl <;> rfl
  have z : (State6.meanQuat (F := F)).empty.pSum = 0 := rfl
  rw [h0] at h1
  rw [z] at h2
  -- the weight that has been dropped
  have hdrop : Va > 0 ∧ Vb ≤ ε + l.length * u := by
    rcases hcase with hkn | ⟨hk0, hlt⟩
    · have hbn : b = [] := by rw [hb, hkn]; simp
      have : Vb = 0 := by rw [hVb, hbn]; simp
      exact ⟨by rw [hVab, this] at hV; linarith, by rw [this]; positivity⟩
    · have hVa0 : 0 ≤ Va := List.sum_nonneg (by
        intro y hy
        obtain ⟨p, hp, rfl⟩ := List.mem_map.1 hy
        exact hv p (hsa p hp))
      have hbd := (foldl_bounds R (a.map Particle.prob) 0 (by
        intro y hy
        obtain ⟨p, hp, rfl⟩ := List.mem_map.1 hy
        exact hv p (hsa p hp)) (by rw [R.zero]) (by
        rw [R.zero, zero_add, List.length_map, List.map_map]
        refine le_trans ?_ hhi2
        calc Va * (1 + u) ^ a.length ≤ V * (1 + u) ^ a.length :=
              mul_le_mul_of_nonneg_right (by linarith) (by positivity)
          _ ≤ _ := mul_le_mul_of_nonneg_left (pow_le_pow_right₀ (by linarith) (by omega)) hV.le)).2
      rw [R.zero, zero_add, List.length_map, List.map_map] at hbd
      have hlt' : 1 < val ((a.map Particle.prob).foldl (· + ·) 0) := by
        have : (1 : F) < (a.map Particle.prob).foldl (· + ·) 0 := by rw [← h2]; exact hlt
        rw [R.lt, hone] at this
        exact this
      have hva : 1 < Va * (1 + u) ^ a.length := lt_of_lt_of_le hlt' hbd
      have hva0 : 0 < Va := by
        by_contra hno
        have : Va = 0 := le_antisymm (not_lt.1 hno) hVa0
        rw [this] at hva
        norm_num at hva
      refine ⟨hva0, ?_⟩
      have hbern : 1 - (a.length : ℝ) * u ≤ (1 - u) ^ a.length := by
        have := one_add_mul_le_pow (show (-2 : ℝ) ≤ -u by linarith) a.length
        rw [← sub_eq_add_neg] at this
        linarith
      have hone' : (1 - u) ^ a.length * (1 + u) ^ a.length ≤ 1 := by
        rw [← mul_pow]
        exact pow_le_one₀ (by nlinarith) (by nlinarith)
      have : (1 - u) ^ a.length ≤ Va := by
        by_contra hno
        push Not at hno
        have := mul_lt_mul_of_pos_right hno (show 0 < (1 + u) ^ a.length by positivity)
        linarith
      have hlen : (a.length : ℝ) * u ≤ (l.length : ℝ) * u :=
        mul_le_mul_of_nonneg_right (by exact_mod_cast (by omega : a.length ≤ l.length)) hu
      linarith
  obtain ⟨hVa0, hVbs⟩ := hdrop
  have hk0 : 0 < k := by
    by_contra hno
    have : a = [] := by rw [ha]; simp [Nat.le_zero.1 (not_lt.1 hno)]
    rw [hVa, this] at hVa0
    simp at hVa0
  -- the rounded mean of the particles that were used
  have hmean := mean_error R a (fun p => p.prob) (fun p => c p.state.pos) (fun p => val p.prob) hB
    (fun p hp => hv p (hsa p hp)) hVa0 (fun p hp => ⟨0, by simpa using hu, by ring⟩) (fun p hp => hx p (hsa p hp))
    (fun p hp => hr2 p (hsa p hp)) (by
      refine le_trans ?_ hhi
      calc B * Va * (1 + u) ^ (a.length + 2) ≤ B * V * (1 + u) ^ (a.length + 2) :=
            mul_le_mul_of_nonneg_right (mul_le_mul_of_nonneg_left (by linarith) hB) (by positivity)
        _ ≤ _ := mul_le_mul_of_nonneg_left (pow_le_pow_right₀ (by linarith) (by omega)) (mul_nonneg hB hV.le)) (by
      refine le_trans ?_ hhi2
      calc Va * (1 + u) ^ (a.length + 1) ≤ V * (1 + u) ^ (a.length + 1) :=
            mul_le_mul_of_nonneg_right (by linarith) (by positivity)
        _ ≤ _ := mul_le_mul_of_nonneg_left (pow_le_pow_right₀ (by linarith) (by omega)) hV.le) (hdiv k hk0 hk)
  have hga : B * ((1 + u) ^ (a.length + 3) / (1 - u) ^ (a.length + 1) - 1) ≤ (4 * (l.length : ℝ) + 8) * u * B := by
    have hle : (a.length : ℝ) ≤ l.length := by exact_mod_cast (by omega : a.length ≤ l.length)
    have := growth_le hu hu1 a.length (le_trans (mul_le_mul_of_nonneg_right (by linarith) hu) hn)
    calc _ ≤ B * ((4 * (a.length : ℝ) + 8) * u) := mul_le_mul_of_nonneg_left this hB
      _ ≤ B * ((4 * (l.length : ℝ) + 8) * u) :=
        mul_le_mul_of_nonneg_left (mul_le_mul_of_nonneg_right (by linarith) hu) hB
      _ = _ := by ring
  have e : c (f.expectation State6.meanQuat 1 sorted).1.pos =
      (a.map fun p => c p.state.pos * p.prob).foldl (· + ·) 0 / (a.map fun p => p.prob).foldl (· + ·) 0 := by
    rw [← h1, ← h2]
    have : (f.expectation State6.meanQuat 1 sorted).1 =
        State6.meanQuat.getMean (a.foldl (fun m p => State6.meanQuat.add m p.state p.prob) State6.meanQuat.empty) := by
      rw [← hml, Filter.expectation, if_neg h11]
    rw [this]
    rcases hc with rfl | rfl | rfl <;> rfl
  rw [e]
  set Na := (a.map fun p => val (c p.state.pos) * val p.prob).sum with hNa
  set Nb := (b.map fun p => val (c p.state.pos) * val p.prob).sum with hNb
  have hN : (l.map fun p => val (c p.state.pos) * val p.prob).sum = Na + Nb := by
    rw [← hab, List.map_append, List.sum_append]
  rw [hN]
  have bound : ∀ t : List (Particle (State6 F) F), (∀ p ∈ t, p ∈ l) →
      |(t.map fun p => val (c p.state.pos) * val p.prob).sum| ≤ B * (t.map fun p => val p.prob).sum := by
    intro t ht
    rw [← sum_scale]
    exact sum_abs_le fun p hp => by
      rw [abs_mul, abs_of_nonneg (hv p (ht p hp))]
      exact mul_le_mul_of_nonneg_right (hx p (ht p hp)) (hv p (ht p hp))
  have hba := bound a hsa
  have hbb := bound b hsb
  have hdiff : |Na / Va - (Na + Nb) / V| ≤ 2 * B * (ε + l.length * u) / V := by
    have e2 : Na / Va - (Na + Nb) / V = Na / Va * (Vb / V) - Nb / V := by
      have hVb' : Vb = V - Va := by linarith
      have n1 := hV.ne'
      have n2 := hVa0.ne'
      rw [hVb', div_mul_div_comm, div_sub_div _ _ n2 n1, div_sub_div _ _ (mul_ne_zero n2 n1) n1,
        div_eq_div_iff (mul_ne_zero n2 n1) (mul_ne_zero (mul_ne_zero n2 n1) n1)]
      ring
    rw [e2]
    have b1 : |Na / Va * (Vb / V)| ≤ B * (Vb / V) := by
      rw [abs_mul, abs_of_nonneg (div_nonneg hVb0 hV.le)]
      refine mul_le_mul_of_nonneg_right ?_ (div_nonneg hVb0 hV.le)
      rw [abs_div, abs_of_pos hVa0, div_le_iff₀ hVa0]
      exact hba
    have b2 : |Nb / V| ≤ B * (Vb / V) := by
      rw [abs_div, abs_of_pos hV, div_le_iff₀ hV]
      refine le_trans hbb (le_of_eq ?_)
      rw [← hVb, mul_assoc, div_mul_cancel₀ _ hV.ne']
    refine le_trans (abs_sub _ _) ?_
    calc |Na / Va * (Vb / V)| + |Nb / V| ≤ B * (Vb / V) + B * (Vb / V) := add_le_add b1 b2
      _ = 2 * B * Vb / V := by ring
      _ ≤ _ := div_le_div_of_nonneg_right (mul_le_mul_of_nonneg_left hVbs (by linarith)) hV.le
  have e3 : ∀ m : ℝ, m - (Na + Nb) / V = (m - Na / Va) + (Na / Va - (Na + Nb) / V) := by intro m; ring
  rw [e3]
  exact le_trans (abs_add_le _ _) (add_le_add (le_trans hmean hga) hdiff)

end

/-! ## The hypotheses are met -/

noncomputable instance : Sub Sloppy := ⟨fun a b => ⟨(a.v - b.v) * (1 + 1 / 100)⟩⟩
noncomputable instance : NatCast Sloppy := ⟨fun n => ⟨n⟩⟩
noncomputable instance : DecidableEq Sloppy := Classical.decEq _
noncomputable instance : Transc Sloppy where
  sqrt a := ⟨Real.sqrt a.v⟩
  sin a := ⟨Real.sin a.v⟩
  cos a := ⟨Real.cos a.v⟩
  asin a := ⟨Real.arcsin a.v⟩
  acos a := ⟨Real.arccos a.v⟩
  atan2 _ _ := ⟨0⟩
  pi := ⟨Real.pi⟩

/-- Two particles of weight 1/2 at `x = 1` and `x = -2`. -/
noncomputable def exMean : Filter (State6 Sloppy) Sloppy :=
  ⟨[⟨State6.ofQuat ⟨⟨1⟩, 0, 0⟩ 1, ⟨1 / 2⟩, ⟨1⟩, 0⟩, ⟨State6.ofQuat ⟨⟨-2⟩, 0, 0⟩ 1, ⟨1 / 2⟩, ⟨1⟩, 0⟩], none⟩

theorem Sloppy.add_v (a b : Sloppy) : (a + b).v = (a.v + b.v) * (1 + 1 / 100) := rfl
theorem Sloppy.mul_v (a b : Sloppy) : (a * b).v = a.v * b.v * (1 + 1 / 100) := rfl
theorem Sloppy.zero_v : (0 : Sloppy).v = 0 := rfl

/-- With operations that are one percent off, the mean, -1/2, is off by at most 0.32 (16 operations of relative error
1/100 on coordinates up to 2). -/
example : |(exMean.expectationBiased State6.meanQuat).pos.x.v - (-1 / 2)| ≤ 8 / 25 := by
  have := C161_estimate sloppy_rounded exMean Vec3.x (.inl rfl) (B := 2) (by norm_num) ?_ ?_ ?_ ?_ ?_ ?_ ?_ ?_ ?_
  · norm_num [exMean, State6.ofQuat] at this ⊢
    exact this
  · norm_num [exMean]
  · norm_num [exMean]
  · norm_num [exMean, State6.ofQuat]
  · norm_num [exMean, InRange]
  · norm_num [exMean, InRange, State6.ofQuat, Sloppy.mul_v]
  · norm_num [exMean]
  · norm_num [exMean]
  · norm_num [exMean, InRange, State6.ofQuat, Sloppy.mul_v, Sloppy.add_v, Sloppy.zero_v]
  · norm_num [exMean]

/-- The same for `expectation`; here the second particle is not dropped. -/
example : |(exMean.expectation State6.meanQuat 1 []).1.pos.x.v - (-1 / 2)| ≤ 2 / 5 := by
  have := C161_expectation sloppy_rounded rfl exMean [] Vec3.x (.inl rfl) (B := 2) (ε := 0) (by norm_num) le_rfl
    ?_ ?_ ?_ ?_ ?_ ?_ ?_ ?_ ?_
  · norm_num [exMean, State6.ofQuat] at this ⊢
    exact this
  · norm_num [exMean]
  · norm_num [exMean]
  · norm_num [exMean]
  · norm_num [exMean, State6.ofQuat]
  · norm_num [exMean, InRange, State6.ofQuat]
  · norm_num [exMean]
  · norm_num [exMean]
  · intro k h0 h2
    have h2 : k ≤ 2 := h2
    interval_cases k <;>
      norm_num [exMean, InRange, State6.ofQuat, Sloppy.mul_v, Sloppy.add_v, Sloppy.zero_v]
  · norm_num [exMean]

end PF
end Mcl3dl
