import Verif.Proofs.Digits
import Verif.Proofs.PFCount
import Verif.Props.PFResample
import Verif.Props.PFRounded

/-! # C158: resampling with rounded arithmetic -/

set_option linter.unusedSectionVars false

namespace Mcl3dl
namespace PF

section generic
variable {S F T : Type} [StateOps S] [Zero F] [One F] [Add F] [Mul F] [Div F] [NatCast F] [LT F] [DecidableLT F]

/-- A particle with the numbers its fields stand for. -/
def numbers (val : F → ℝ) (p : Particle S F) : Particle S ℝ :=
  { state := p.state, prob := val p.prob, accum := val p.accum, bias := val p.bias }

theorem lowerBound_numbers {val : F → ℝ} (hlt : ∀ a b : F, a < b ↔ val a < val b) (dup : List (Particle S F)) (it : Nat)
    (v : F) : lowerBound dup it v = lowerBound (dup.map (numbers val)) it (val v) := by
  unfold lowerBound
  rw [← List.map_drop, List.takeWhile_map, List.length_map]
  congr 3
  funext p
  simp only [Function.comp_apply, decide_eq_decide, hlt]
  exact Iff.rfl

/-- The loop of `resample` with scan positions that never decrease. -/
theorem resampleLoop_rounded {val : F → ℝ} (hlt : ∀ a b : F, a < b ↔ val a < val b) (dup : List (Particle S F))
    (pstep r prob : F) (noise : Nat → S) (N : ℕ)
    (hmono : ∀ k l : ℕ, k ≤ l → l < N → val (pstep * (k : F) + r) ≤ val (pstep * (l : F) + r))
    (ps : List (Particle S F)) (i : Nat) (it prev : Nat) (hN : i + ps.length ≤ N) (x0 : ℝ)
    (hit : it = cut (dup.map (numbers val)) x0) (h0 : 0 < ps.length → x0 ≤ val (pstep * (i : F) + r))
    (hprev : prev < dup.length) :
    ∃ ps', resampleLoop dup pstep r prob noise ps i it prev = .ok ps' ∧ ps'.length = ps.length ∧
      ∀ (k : Nat) (hk : k < ps'.length) (hc : cut (dup.map (numbers val)) (val (pstep * ((i + k : ℕ) : F) + r)) < dup.length),
        ps'[k].state = dup[cut (dup.map (numbers val)) (val (pstep * ((i + k : ℕ) : F) + r))].state ∨
        ∃ m, ps'[k].state = StateOps.normalize
          (StateOps.add dup[cut (dup.map (numbers val)) (val (pstep * ((i + k : ℕ) : F) + r))].state m) := by
  induction ps generalizing i it prev x0 with
  | nil => exact ⟨[], rfl, rfl, fun k hk => absurd hk (by simp)⟩
  | cons p ps ih =>
    have h00 := h0 (by simp)
    have hcut : lowerBound dup it (pstep * (i : F) + r) = cut (dup.map (numbers val)) (val (pstep * (i : F) + r)) := by
      rw [lowerBound_numbers hlt, hit, lowerBound_resume _ _ _ h00]
    have hN' : i + 1 + ps.length ≤ N := by simp only [List.length_cons] at hN; omega
    have hstep : 0 < ps.length → val (pstep * (i : F) + r) ≤ val (pstep * ((i + 1 : ℕ) : F) + r) :=
      fun h => hmono i (i + 1) (by omega) (by omega)
    simp only [resampleLoop, hcut]
    have hle : cut (dup.map (numbers val)) (val (pstep * (i : F) + r)) ≤ dup.length := by
      unfold cut
      refine le_trans (List.takeWhile_sublist _).length_le ?_
      rw [List.length_map]
    have key : ∀ (s : S) (prev' : Nat), prev' < dup.length →
        (∀ hc : cut (dup.map (numbers val)) (val (pstep * (i : F) + r)) < dup.length,
          s = dup[cut (dup.map (numbers val)) (val (pstep * (i : F) + r))].state ∨
          ∃ m, s = StateOps.normalize (StateOps.add dup[cut (dup.map (numbers val)) (val (pstep * (i : F) + r))].state m)) →
        ∃ ps', ((resampleLoop dup pstep r prob noise ps (i + 1) (cut (dup.map (numbers val)) (val (pstep * (i : F) + r))) prev').bind
            fun rest => .ok ({ p with state := s, prob := prob } :: rest)) = .ok ps' ∧ ps'.length = (p :: ps).length ∧
          ∀ (k : Nat) (hk : k < ps'.length) (hc : cut (dup.map (numbers val)) (val (pstep * ((i + k : ℕ) : F) + r)) < dup.length),
            ps'[k].state = dup[cut (dup.map (numbers val)) (val (pstep * ((i + k : ℕ) : F) + r))].state ∨
            ∃ m, ps'[k].state = StateOps.normalize
              (StateOps.add dup[cut (dup.map (numbers val)) (val (pstep * ((i + k : ℕ) : F) + r))].state m) := by
      intro s prev' hp' hs
      obtain ⟨ps', e, hl, hall⟩ := ih (i + 1) _ prev' hN' (val (pstep * (i : F) + r)) rfl hstep hp'
      rw [e]
      refine ⟨_, rfl, by simp [hl], ?_⟩
      intro k hk hc
      cases k with
      | zero => exact hs hc
      | succ k =>
        have e2 : i + (k + 1) = i + 1 + k := by omega
        simp only [e2] at hc ⊢
        exact hall k (by simpa using hk) hc
    by_cases h1 : cut (dup.map (numbers val)) (val (pstep * (i : F) + r)) = dup.length
    · rw [if_pos h1, deref_ok dup _ hprev]
      simp only [Outcome.bind_ok]
      exact key _ prev hprev (fun hc => absurd h1 (by omega))
    · have hc : cut (dup.map (numbers val)) (val (pstep * (i : F) + r)) < dup.length := by omega
      rw [if_neg h1]
      by_cases h2 : cut (dup.map (numbers val)) (val (pstep * (i : F) + r)) = prev
      · rw [if_pos h2, deref_ok dup _ hc]
        simp only [Outcome.bind_ok]
        exact key _ _ hc (fun _ => Or.inr ⟨_, rfl⟩)
      · rw [if_neg h2, deref_ok dup _ hc]
        simp only [Outcome.bind_ok]
        exact key _ _ hc (fun _ => Or.inl rfl)

theorem accumulate_get (a : F) (ps : List (Particle S F)) (k : Nat) (hk : k < ps.length) :
    (accumulate a ps)[k]'(by rw [accumulate_length]; exact hk) =
      { ps[k] with accum := (ps.take (k + 1)).foldl (fun a p => a + p.prob) a } := by
  induction ps generalizing a k with
  | nil => simp at hk
  | cons p ps ih =>
    cases k with
    | zero => simp [accumulate]
    | succ k =>
      simp only [accumulate, List.getElem_cons_succ, List.take_succ_cons, List.foldl_cons]
      exact ih _ _ (by simpa using hk)

theorem runningTotal_succ (ps : List (Particle S F)) (k : Nat) (hk : k < ps.length) :
    runningTotal ps (k + 1) = runningTotal ps k + ps[k].prob := by
  unfold runningTotal
  rw [List.take_add_one, List.getElem?_eq_getElem hk, Option.toList_some, List.foldl_append]
  rfl

theorem runningTotal_length (ps : List (Particle S F)) : runningTotal ps ps.length = total ps := by
  unfold runningTotal total
  rw [List.take_length]

end generic

/-- Numbers in a closed interval, at most. -/
theorem countP_le_Icc (n : ℕ) (x y : ℝ) (hxy : x ≤ y) (q : ℕ → Bool)
    (hq : ∀ i < n, q i = true → x ≤ (i : ℝ) ∧ (i : ℝ) ≤ y) : ((List.range n).countP q : ℝ) ≤ y - x + 1 := by
  have h1 : (List.range n).countP q ≤ (⌊y⌋ - ⌈x⌉ + 1).toNat := by
    rw [List.countP_eq_length_filter, ← List.toFinset_card_of_nodup (List.nodup_range.filter _)]
    have : ((List.range n).filter q).toFinset.card ≤ (Finset.Icc ⌈x⌉ ⌊y⌋).card := by
      refine Finset.card_le_card_of_injOn (fun i : ℕ => (i : ℤ)) ?_ ?_
      · intro i hi
        simp only [List.coe_toFinset, List.mem_filter, List.mem_range, Set.mem_ofPred_eq] at hi
        obtain ⟨a, b⟩ := hq i hi.1 hi.2
        simp only [Finset.coe_Icc, Set.mem_Icc]
        exact ⟨Int.ceil_le.2 (by exact_mod_cast a), Int.le_floor.2 (by exact_mod_cast b)⟩
      · intro a _ b _ h; simpa using h
    rw [Int.card_Icc] at this
    refine le_trans this ?_
    apply le_of_eq; congr 1; ring
  have h2 : (((⌊y⌋ - ⌈x⌉ + 1).toNat : ℕ) : ℤ) ≤ max (⌊y⌋ - ⌈x⌉ + 1) 0 := by
    rw [Int.toNat_eq_max]
  have h3 : ((List.range n).countP q : ℝ) ≤ (((⌊y⌋ - ⌈x⌉ + 1).toNat : ℕ) : ℝ) := by exact_mod_cast h1
  have h4 : (((⌊y⌋ - ⌈x⌉ + 1).toNat : ℕ) : ℝ) ≤ max ((⌊y⌋ : ℝ) - ⌈x⌉ + 1) 0 := by exact_mod_cast h2
  refine le_trans h3 (le_trans h4 (max_le ?_ (by linarith)))
  have := Int.floor_le y
  have := Int.le_ceil x
  linarith

/-- Numbers in a half-open interval, at least. -/
theorem countP_ge_Ioc (n : ℕ) (x y : ℝ) (hx : -1 ≤ x) (hy : y ≤ n) (q : ℕ → Bool)
    (hq : ∀ i < n, x < (i : ℝ) → (i : ℝ) ≤ y → q i = true) : y - x - 1 ≤ ((List.range n).countP q : ℝ) := by
  have main : ∀ z : ℝ, z ≤ y → x ≤ z → z < n → (⌊z⌋ : ℝ) - ⌊x⌋ ≤ ((List.range n).countP q : ℝ) := by
    intro z hzy hxz hz
    have h := countP_Ioc n x z hx hxz hz
    have hle : (List.range n).countP (fun i : ℕ => decide (x < (i : ℝ) ∧ (i : ℝ) ≤ z)) ≤ (List.range n).countP q := by
      apply List.countP_mono_left
      intro i hi hd
      simp only [decide_eq_true_eq] at hd
      exact hq i (List.mem_range.1 hi) hd.1 (le_trans hd.2 hzy)
    have h' : (((List.range n).countP (fun i : ℕ => decide (x < (i : ℝ) ∧ (i : ℝ) ≤ z)) : ℕ) : ℝ) = ⌊z⌋ - ⌊x⌋ := by
      exact_mod_cast h
    rw [← h']
    exact_mod_cast hle
  have h0 : (0 : ℝ) ≤ ((List.range n).countP q : ℝ) := Nat.cast_nonneg _
  have hfx := Int.floor_le x
  rcases hy.eq_or_lt with hy | hy
  · rcases le_or_gt x (n - 1) with hxn | hxn
    · have := main (n - 1) (by linarith) hxn (by linarith)
      have e : (⌊(n : ℝ) - 1⌋ : ℝ) = n - 1 := by
        have : ((n : ℝ) - 1) = (((n : ℤ) - 1 : ℤ) : ℝ) := by push_cast; ring
        rw [this, Int.floor_intCast]
      linarith
    · linarith
  · rcases le_or_gt x y with hxy | hxy
    · have := main y le_rfl hxy hy
      have := Int.sub_one_lt_floor y
      linarith
    · linarith

theorem countP_or_le {α : Type} (l : List α) (p q : α → Bool) :
    l.countP (fun a => p a || q a) ≤ l.countP p + l.countP q := by
  induction l with
  | nil => simp
  | cons a l ih =>
    simp only [List.countP_cons]
    rcases p a <;> rcases q a <;> simp <;> omega

/-- How much of the scan falls on one weight, at most. -/
theorem share_upper {u X W a b w N p e : ℝ} (hu0 : 0 ≤ u) (hu : u ≤ 1 / 100) (hp : 0 < p) (hX : X = p * N) (hN : 0 < N)
    (hW : 0 < W) (hX1 : W * (1 - u) ≤ X) (ha : 0 ≤ a) (hw : 0 ≤ w) (hb1 : (a + w) * (1 - u) ≤ b)
    (hb2 : b ≤ (a + w) * (1 + u)) (hbW : b ≤ W) (he : e = (2 * u + u ^ 2) * X) :
    (b - a + 2 * e) / p ≤ N * w / W + 7 * (N * u) := by
  rw [div_le_iff₀ hp]
  have hXp : 0 < X := by rw [hX]; positivity
  have h1 : (a + w) * (99 / 100) ≤ W := by nlinarith
  have h2 : W * (99 / 100) ≤ X := by nlinarith
  have h3 : N * w / W * p = w * (X / W) := by rw [hX]; field_simp
  have h4 : 1 - u ≤ X / W := by rw [le_div_iff₀ hW]; linarith
  have h5 : w * (1 - u) ≤ w * (X / W) := mul_le_mul_of_nonneg_left h4 hw
  have h6 : u * (a + w) ≤ u * (103 / 100 * X) := mul_le_mul_of_nonneg_left (by linarith) hu0
  have h7 : u * w ≤ u * (103 / 100 * X) := mul_le_mul_of_nonneg_left (by linarith) hu0
  have h8 : u * (u * X) ≤ 1 / 100 * (u * X) := mul_le_mul_of_nonneg_right hu (by positivity)
  have h9 : 0 ≤ u * X := by positivity
  have h10 : 7 * (N * u) * p = 7 * (u * X) := by rw [hX]; ring
  have h11 : e = 2 * (u * X) + u * (u * X) := by rw [he]; ring
  have : (N * w / W + 7 * (N * u)) * p = w * (X / W) + 7 * (u * X) := by rw [add_mul, h3, h10]
  rw [this]
  nlinarith

/-- How much of the scan falls on one weight, at least. -/
theorem share_lower {u X W a b w N p e : ℝ} (hu0 : 0 ≤ u) (hu : u ≤ 1 / 100) (hp : 0 < p) (hX : X = p * N) (hN : 0 < N)
    (hW : 0 < W) (hX1 : W * (1 - u) ≤ X) (hX2 : X ≤ W * (1 + u)) (ha : 0 ≤ a) (hw : 0 ≤ w)
    (hb1 : (a + w) * (1 - u) ≤ b) (hbW : b ≤ W) (he : e = (2 * u + u ^ 2) * X) :
    N * w / W - 7 * (N * u) ≤ (b - a - 2 * e) / p := by
  rw [le_div_iff₀ hp]
  have hXp : 0 < X := by rw [hX]; positivity
  have h1 : (a + w) * (99 / 100) ≤ W := by nlinarith
  have h2 : W * (99 / 100) ≤ X := by nlinarith
  have h3 : N * w / W * p = w * (X / W) := by rw [hX]; field_simp
  have h4 : X / W ≤ 1 + u := by rw [div_le_iff₀ hW]; linarith
  have h5 : w * (X / W) ≤ w * (1 + u) := mul_le_mul_of_nonneg_left h4 hw
  have h6 : u * (a + w) ≤ u * (103 / 100 * X) := mul_le_mul_of_nonneg_left (by linarith) hu0
  have h7 : u * w ≤ u * (103 / 100 * X) := mul_le_mul_of_nonneg_left (by linarith) hu0
  have h8 : u * (u * X) ≤ 1 / 100 * (u * X) := mul_le_mul_of_nonneg_right hu (by positivity)
  have h9 : 0 ≤ u * X := by positivity
  have h10 : 7 * (N * u) * p = 7 * (u * X) := by rw [hX]; ring
  have h11 : e = 2 * (u * X) + u * (u * X) := by rw [he]; ring
  have : (N * w / W - 7 * (N * u)) * p = w * (X / W) - 7 * (u * X) := by rw [sub_mul, h3, h10]
  rw [this]
  nlinarith

/-- How much of the scan falls beyond the last weight. -/
theorem share_end {u X W N p e r : ℝ} (hu0 : 0 ≤ u) (hu : u ≤ 1 / 100) (hp : 0 < p) (hX : X = p * N) (hN : 0 < N)
    (hX2 : X ≤ W * (1 + u)) (hr : r ≤ p) (he : e = (2 * u + u ^ 2) * X) :
    N - 1 - (W - e - r) / p + 1 ≤ 1 + 4 * (N * u) := by
  have hXp : 0 < X := by rw [hX]; positivity
  have h8 : u * (u * X) ≤ 1 / 100 * (u * X) := mul_le_mul_of_nonneg_right hu (by positivity)
  have h9 : 0 ≤ u * X := by positivity
  have h11 : e = 2 * (u * X) + u * (u * X) := by rw [he]; ring
  have h12 : X * (1 - u) ≤ W := by nlinarith
  have : N - 1 - 4 * (N * u) ≤ (W - e - r) / p := by
    rw [le_div_iff₀ hp]
    have : (N - 1 - 4 * (N * u)) * p = X - p - 4 * (u * X) := by rw [hX]; ring
    rw [this]
    nlinarith
  linarith

/-- The error of one scan position. -/
theorem scan_error {u x r X q s : ℝ} (hu0 : 0 ≤ u) (hu1 : u < 1) (hx : 0 ≤ x) (hr : 0 ≤ r) (hX : x + r ≤ X)
    (h1 : x * (1 - u) ≤ q) (h2 : q ≤ x * (1 + u)) (g1 : (q + r) * (1 - u) ≤ s) (g2 : s ≤ (q + r) * (1 + u)) :
    x + r - (2 * u + u ^ 2) * X ≤ s ∧ s ≤ x + r + (2 * u + u ^ 2) * X := by
  have k3 : (2 * u + u ^ 2) * (x + r) ≤ (2 * u + u ^ 2) * X := mul_le_mul_of_nonneg_left hX (by positivity)
  constructor
  · have k1 : (x + r) * (1 - u) ≤ q + r := by nlinarith
    have k2 : (x + r) * (1 - u) * (1 - u) ≤ (q + r) * (1 - u) := mul_le_mul_of_nonneg_right k1 (by linarith)
    have k4 : 0 ≤ (x + r) * u ^ 2 := by positivity
    nlinarith
  · have k1 : q + r ≤ (x + r) * (1 + u) := by nlinarith
    have k2 : (q + r) * (1 + u) ≤ (x + r) * (1 + u) * (1 + u) := mul_le_mul_of_nonneg_right k1 (by linarith)
    nlinarith

/-- The computed total is covered by the scan. -/
theorem total_covered {u X W : ℝ} (hu0 : 0 ≤ u) (hu : u ≤ 1 / 100) (hX : 0 < X) (hX1 : W * (1 - u) ≤ X) (hW : 0 < W) :
    W ≤ X + (2 * u + u ^ 2) * X := by
  have h0 : W * (99 / 100) ≤ X := by nlinarith
  have h2 : W * u ≤ (100 / 99 * X) * u := mul_le_mul_of_nonneg_right (by linarith) hu0
  have h5 : 0 ≤ X * u := by positivity
  have h6 : 0 ≤ X * u ^ 2 := by positivity
  nlinarith

section main
variable {S F T : Type} [StateOps S] [Zero F] [One F] [Add F] [Mul F] [Div F] [NatCast F] [LT F] [DecidableLT F]
variable {val : F → ℝ} {u lo hi : ℝ}

/-- The exact sum of the weights. -/
theorem take_sum_le (ps : List (Particle S F)) (hnn : ∀ p ∈ ps, 0 ≤ val p.prob) (k : Nat) :
    ((ps.take k).map fun p => val p.prob).sum ≤ (ps.map fun p => val p.prob).sum := by
  conv_rhs => rw [← List.take_append_drop k ps]
  rw [List.map_append, List.sum_append]
  have : 0 ≤ ((ps.drop k).map fun p => val p.prob).sum := List.sum_nonneg (by
    intro x hx
    obtain ⟨p, hp, rfl⟩ := List.mem_map.1 hx
    exact hnn p (List.mem_of_mem_drop hp))
  linarith

theorem weight_le_sum (ps : List (Particle S F)) (hnn : ∀ p ∈ ps, 0 ≤ val p.prob) (k : Nat) (hk : k < ps.length) :
    val ps[k].prob ≤ (ps.map fun p => val p.prob).sum := by
  apply List.single_le_sum
  · intro x hx
    obtain ⟨p, hp, rfl⟩ := List.mem_map.1 hx
    exact hnn p hp
  · exact List.mem_map.2 ⟨ps[k], List.getElem_mem _, rfl⟩

/-- The running totals. -/
theorem runningTotal_bounds (R : Rounded F val u lo hi) (ps : List (Particle S F)) (hnn : ∀ p ∈ ps, 0 ≤ val p.prob)
    (hmax : (ps.map fun p => val p.prob).sum * (1 + u) ^ ps.length ≤ hi) (k : Nat) (hk : k ≤ ps.length) :
    0 ≤ val (runningTotal ps k) ∧ val (runningTotal ps k) ≤ (ps.map fun p => val p.prob).sum * (1 + u) ^ ps.length := by
  have hu := R.unit_pos
  have hu1 := R.unit_lt
  have hs0 : 0 ≤ ((ps.take k).map fun p => val p.prob).sum := List.sum_nonneg (by
    intro x hx
    obtain ⟨p, hp, rfl⟩ := List.mem_map.1 hx
    exact hnn p (List.mem_of_mem_take hp))
  have hs := take_sum_le (val := val) ps hnn k
  have hpow : (1 + u) ^ k ≤ (1 + u) ^ ps.length := pow_le_pow_right₀ (by linarith) hk
  have hmul : ((ps.take k).map fun p => val p.prob).sum * (1 + u) ^ k ≤ (ps.map fun p => val p.prob).sum * (1 + u) ^ ps.length :=
    mul_le_mul hs hpow (by positivity) (le_trans hs0 hs)
  have e : runningTotal ps k = ((ps.take k).map Particle.prob).foldl (· + ·) 0 := by
    unfold runningTotal; rw [List.foldl_map]
  have hmap : ((ps.take k).map Particle.prob).map val = (ps.take k).map fun p => val p.prob := by rw [List.map_map]; rfl
  have hlen : ((ps.take k).map Particle.prob).length = k := by rw [List.length_map, List.length_take]; omega
  have h := foldl_bounds R ((ps.take k).map Particle.prob) 0 (by
    intro x hx
    obtain ⟨p, hp, rfl⟩ := List.mem_map.1 hx
    exact hnn p (List.mem_of_mem_take hp)) (by rw [R.zero]) (by
    rw [R.zero, zero_add, hmap, hlen]; exact le_trans hmul hmax)
  rw [R.zero, zero_add, hmap, hlen, ← e] at h
  exact ⟨le_trans (mul_nonneg hs0 (pow_nonneg (by linarith) _)) h.1, le_trans h.2 hmul⟩

/-- The position found for a scan value, in terms of the running totals. -/
theorem cut_group (ps dup : List (Particle S F)) (hlt : ∀ a b : F, a < b ↔ val a < val b)
    (hmono : ∀ k l, k ≤ l → l ≤ ps.length → val (runningTotal ps k) ≤ val (runningTotal ps l))
    (hs : IsSorted (accumulate 0 ps) dup) (x : ℝ) (j : Nat) (hj : j < ps.length)
    (hfirst : val (runningTotal ps j) < val (runningTotal ps (j + 1)))
    (hc : cut (dup.map (numbers val)) x < dup.length) :
    ∃ (m : Nat) (hm : m < ps.length), dup[cut (dup.map (numbers val)) x].state = ps[m].state ∧
      (val (runningTotal ps (m + 1)) = val (runningTotal ps (j + 1)) ↔
        (j = 0 ∨ val (runningTotal ps j) < x) ∧ x ≤ val (runningTotal ps (j + 1))) := by
  have hsR : (dup.map (numbers val)).Pairwise fun a b => ¬ b.accum < a.accum := by
    rw [List.pairwise_map]
    refine hs.2.imp ?_
    intro a b hab
    rw [hlt] at hab
    exact hab
  obtain ⟨c1, c2⟩ := (cut_eq_iff (dup.map (numbers val)) hsR x _ (by rw [List.length_map]; exact hc)).1 rfl
  set c := cut (dup.map (numbers val)) x with hcdef
  have hmem : dup[c] ∈ accumulate 0 ps := hs.1.mem_iff.1 (List.getElem_mem _)
  obtain ⟨m, hm, e⟩ := List.getElem_of_mem hmem
  have hm' : m < ps.length := by rw [accumulate_length] at hm; exact hm
  have e' : dup[c] = { ps[m] with accum := runningTotal ps (m + 1) } := by
    rw [← e, accumulate_get 0 ps m hm']; rfl
  have hkey : val dup[c].accum = val (runningTotal ps (m + 1)) := by rw [e']
  have h2 : x ≤ val (runningTotal ps (m + 1)) := by
    rw [← hkey]
    simpa [numbers] using c2
  have h1 : ∀ k, k < ps.length → val (runningTotal ps (k + 1)) < val (runningTotal ps (m + 1)) →
      val (runningTotal ps (k + 1)) < x := by
    intro k hk hlt'
    have hk' : k < (accumulate 0 ps).length := by rw [accumulate_length]; exact hk
    have hin : (accumulate 0 ps)[k] ∈ dup := hs.1.mem_iff.2 (List.getElem_mem hk')
    obtain ⟨q, hq, eq⟩ := List.getElem_of_mem hin
    have eqk : val dup[q].accum = val (runningTotal ps (k + 1)) := by
      rw [eq, accumulate_get 0 ps k hk]; rfl
    have hqc : q < c := by
      by_contra hge
      rw [not_lt] at hge
      rcases hge.eq_or_lt with heq | hgt
      · have : val dup[c].accum = val dup[q].accum := by simp only [heq]
        rw [hkey, eqk] at this
        linarith
      · have := List.pairwise_iff_getElem.1 hs.2 c q hc hq hgt
        rw [hlt, hkey, eqk] at this
        exact this hlt'
    have := c1 q hqc
    simp only [List.getElem_map, numbers] at this
    rw [← eqk]; exact this
  refine ⟨m, hm', by rw [e'], ?_, ?_⟩
  · intro heq
    refine ⟨?_, heq ▸ h2⟩
    rcases Nat.eq_zero_or_pos j with h0 | h0
    · exact Or.inl h0
    · right
      have := h1 (j - 1) (by omega)
      rw [show j - 1 + 1 = j by omega] at this
      exact this (by rw [heq]; exact hfirst)
  · rintro ⟨h3, h4⟩
    apply le_antisymm
    · by_contra hgt
      rw [not_le] at hgt
      have := h1 j hj hgt
      linarith
    · by_contra hgt
      rw [not_le] at hgt
      have hmj : m < j := by
        by_contra hge
        have := hmono (j + 1) (m + 1) (by omega) (by omega)
        linarith
      have := hmono (m + 1) j (by omega) (by omega)
      rcases h3 with h3 | h3
      · omega
      · linarith

/-- Beyond the end, the scan value is larger than the total. -/
theorem cut_end (ps dup : List (Particle S F)) (hne : ps ≠ []) (hs : IsSorted (accumulate 0 ps) dup) (x : ℝ)
    (hc : ¬ cut (dup.map (numbers val)) x < dup.length) : val (runningTotal ps ps.length) < x := by
  by_contra hle
  rw [not_lt] at hle
  apply hc
  have hl := List.length_pos_iff.2 hne
  have hk' : ps.length - 1 < (accumulate 0 ps).length := by rw [accumulate_length]; omega
  have hin : (accumulate 0 ps)[ps.length - 1] ∈ dup := hs.1.mem_iff.2 (List.getElem_mem hk')
  have := cut_lt_of_mem (dup.map (numbers val)) x (numbers val (accumulate 0 ps)[ps.length - 1]) (List.mem_map_of_mem hin) (by
    rw [accumulate_get 0 ps _ (by omega)]
    simp only [numbers]
    rw [show ps.length - 1 + 1 = ps.length by omega]
    exact hle)
  rwa [List.length_map] at this

set_option maxHeartbeats 1000000 in
/-- C158: resampling with rounded arithmetic. Whatever the sort does, the particles whose running total equals that of
particle `j` (those after it whose weight is lost in rounding or 0), together, are copied `N w / W` times up to 2 and a
multiple of the number of particles times the unit roundoff: `W` is the sum of the weights as computed. -/
theorem C158_copies (R : MonoRounded F val u lo hi) (hu : u ≤ 1 / 100) (f : Filter S F) (dup : List (Particle S F)) (r : F)
    (noise : Nat → S) (tag : S → T) (htag : ∀ s n, tag (StateOps.normalize (StateOps.add s n)) = tag s)
    (hnn : ∀ p ∈ f.particles, 0 ≤ val p.prob) (hsort : IsSorted (accumulate 0 f.particles) dup)
    (hnat : ∀ i : ℕ, i ≤ f.particles.length → val (i : F) = i)
    (hr0 : 0 ≤ val r) (hr1 : val r ≤ val (total f.particles / (f.particles.length : F)))
    (hmax : 4 * ((f.particles.map fun p => val p.prob).sum * (1 + u) ^ f.particles.length) ≤ hi)
    (hmin : 2 * lo * f.particles.length ≤ val (total f.particles))
    (hd : DistinctTags tag f.particles) (j : Nat) (hj : j < f.particles.length)
    (hfirst : runningTotal f.particles j < runningTotal f.particles (j + 1)) :
    ∃ f', f.resample dup r noise = .ok f' ∧
      f.particles.length * val f.particles[j].prob / val (total f.particles) - 1 - 7 * (f.particles.length * u) ≤
        carrying tag f.particles
          (fun i => val (runningTotal f.particles (i + 1)) = val (runningTotal f.particles (j + 1))) f'.particles ∧
      carrying tag f.particles
          (fun i => val (runningTotal f.particles (i + 1)) = val (runningTotal f.particles (j + 1))) f'.particles ≤
        f.particles.length * val f.particles[j].prob / val (total f.particles) + 2 + 11 * (f.particles.length * u) := by
  classical
  have hu0 := R.unit_pos
  have hu1 := R.unit_lt
  set ps := f.particles with hps
  have hne : ps ≠ [] := by intro h; rw [h] at hj; simp at hj
  have hn0 : 0 < ps.length := List.length_pos_iff.2 hne
  have hN : (0 : ℝ) < (ps.length : ℝ) := by exact_mod_cast hn0
  have hN1 : (1 : ℝ) ≤ (ps.length : ℝ) := by exact_mod_cast hn0
  set M := (ps.map fun p => val p.prob).sum * (1 + u) ^ ps.length with hM
  have hS0 : 0 ≤ (ps.map fun p => val p.prob).sum := List.sum_nonneg (by
    intro x hx
    obtain ⟨p, hp, rfl⟩ := List.mem_map.1 hx
    exact hnn p hp)
  have hpow1 : (1 : ℝ) ≤ (1 + u) ^ ps.length := one_le_pow₀ (by linarith)
  have hSM : (ps.map fun p => val p.prob).sum ≤ M := by rw [hM]; nlinarith
  have hM0 : 0 ≤ M := le_trans hS0 hSM
  have hMhi : M ≤ hi := by linarith
  have hB := runningTotal_bounds R.toRounded ps hnn hMhi
  have hw : ∀ (k : Nat) (hk : k < ps.length), 0 ≤ val ps[k].prob ∧ val ps[k].prob ≤ M := fun k hk =>
    ⟨hnn _ (List.getElem_mem _), le_trans (weight_le_sum ps hnn k hk) hSM⟩
  have hadd : ∀ (k : Nat) (hk : k < ps.length), |val (runningTotal ps k) + val ps[k].prob| ≤ hi := by
    intro k hk
    obtain ⟨b1, b2⟩ := hB k hk.le
    obtain ⟨w1, w2⟩ := hw k hk
    rw [abs_of_nonneg (by linarith)]; linarith
  have hstep : ∀ k, k < ps.length → val (runningTotal ps k) ≤ val (runningTotal ps (k + 1)) := by
    intro k hk
    obtain ⟨b1, b2⟩ := hB k hk.le
    obtain ⟨w1, w2⟩ := hw k hk
    rw [runningTotal_succ ps k hk]
    have h0 : |val (runningTotal ps k)| ≤ hi := by rw [abs_of_nonneg b1]; linarith
    rw [← R.add_zero (runningTotal ps k) h0]
    apply R.add_mono
    · rw [R.zero, add_zero]; exact h0
    · exact hadd k hk
    · rw [R.zero]; linarith
  have hmono : ∀ k l, k ≤ l → l ≤ ps.length → val (runningTotal ps k) ≤ val (runningTotal ps l) := by
    intro k l hkl
    induction l with
    | zero => intro _; rw [Nat.le_zero.1 hkl]
    | succ l ih =>
      intro hl
      rcases Nat.of_le_succ hkl with h | h
      · exact le_trans (ih h (by omega)) (hstep l (by omega))
      · rw [h]
  -- the numbers at particle j
  set a := val (runningTotal ps j) with ha
  set b := val (runningTotal ps (j + 1)) with hb
  set w := val ps[j].prob with hwj
  set W := val (total ps) with hWdef
  have hWn : val (runningTotal ps ps.length) = W := by rw [runningTotal_length]
  have hab : a < b := (R.lt _ _).1 hfirst
  have ha0 : 0 ≤ a := (hB j hj.le).1
  have hbW : b ≤ W := by rw [← hWn]; exact hmono _ _ (by omega) le_rfl
  have hW : 0 < W := by linarith
  have hWM : W ≤ M := by rw [← hWn]; exact (hB _ le_rfl).2
  have hbb : (a + w) * (1 - u) ≤ b ∧ b ≤ (a + w) * (1 + u) := by
    obtain ⟨δ, hδ, e⟩ := R.add _ _ (hadd j hj)
    rw [← runningTotal_succ ps j hj] at e
    obtain ⟨d1, d2⟩ := one_add_bounds hδ
    have : 0 ≤ a + w := by have := (hw j hj).1; linarith
    rw [hb, e]
    exact ⟨mul_le_mul_of_nonneg_left d1 this, mul_le_mul_of_nonneg_left d2 this⟩
  -- the step
  set pstep := total ps / (ps.length : F) with hpstep
  set p := val pstep with hp
  have hWN : W / ps.length ≤ W := div_le_self hW.le hN1
  have hWN0 : 0 < W / ps.length := div_pos hW hN
  have hlo : 2 * lo ≤ W / ps.length := by rw [le_div_iff₀ hN]; exact hmin
  have hpb : W / ps.length * (1 - u) ≤ p ∧ p ≤ W / ps.length * (1 + u) := by
    have hnn' : val ((ps.length : ℕ) : F) = ps.length := hnat _ le_rfl
    obtain ⟨δ, hδ, e⟩ := R.div (total ps) ((ps.length : ℕ) : F) (by rw [hnn']; positivity) (by
      rw [hnn']
      by_cases hl : lo ≤ W / ps.length
      · right
        rw [abs_of_pos hWN0]
        exact ⟨hl, by linarith⟩
      · exfalso
        rw [not_le] at hl
        linarith)
    rw [hnn'] at e
    obtain ⟨d1, d2⟩ := one_add_bounds hδ
    rw [hp, hpstep, e]
    exact ⟨mul_le_mul_of_nonneg_left d1 hWN0.le, mul_le_mul_of_nonneg_left d2 hWN0.le⟩
  have hp0 : 0 < p := lt_of_lt_of_le (mul_pos hWN0 (by linarith)) hpb.1
  have hX1 : W * (1 - u) ≤ p * ps.length := by
    have := mul_le_mul_of_nonneg_right hpb.1 hN.le
    rw [mul_right_comm, div_mul_cancel₀ _ hN.ne'] at this
    exact this
  have hX2 : p * ps.length ≤ W * (1 + u) := by
    have := mul_le_mul_of_nonneg_right hpb.2 hN.le
    rw [mul_right_comm _ (1 + u), div_mul_cancel₀ _ hN.ne'] at this
    exact this
  have hplo : lo ≤ p := by nlinarith [hpb.1]
  have hX3 : p * ps.length ≤ 101 / 100 * M := by nlinarith
  -- the products and the scan positions
  have hi_le : ∀ i : ℕ, i < ps.length → p * (i : ℝ) + p ≤ p * ps.length := by
    intro i hil
    have h : (i : ℝ) + 1 ≤ ps.length := by exact_mod_cast hil
    have := mul_le_mul_of_nonneg_left h hp0.le
    linarith
  have hprod : ∀ i : ℕ, i < ps.length → val pstep * val ((i : ℕ) : F) = p * i ∧ 0 ≤ p * (i : ℝ) ∧ p * (i : ℝ) ≤ hi ∧
      p * i * (1 - u) ≤ val (pstep * ((i : ℕ) : F)) ∧ val (pstep * ((i : ℕ) : F)) ≤ p * i * (1 + u) := by
    intro i hil
    have hiv : val ((i : ℕ) : F) = i := hnat i hil.le
    have e0 : val pstep * val ((i : ℕ) : F) = p * i := by rw [hiv]
    have hpi0 : 0 ≤ p * (i : ℝ) := mul_nonneg hp0.le (Nat.cast_nonneg _)
    have hpihi : p * (i : ℝ) ≤ hi := by have := hi_le i hil; linarith
    obtain ⟨δ, hδ, e⟩ := R.mul pstep ((i : ℕ) : F) (by
      rw [e0]
      rcases Nat.eq_zero_or_pos i with h0 | h0
      · left; rw [h0]; simp
      · right
        rw [abs_of_nonneg hpi0]
        refine ⟨?_, hpihi⟩
        have : (1 : ℝ) ≤ i := by exact_mod_cast h0
        nlinarith)
    rw [e0] at e
    obtain ⟨d1, d2⟩ := one_add_bounds hδ
    refine ⟨e0, hpi0, hpihi, ?_, ?_⟩
    · rw [e]; exact mul_le_mul_of_nonneg_left d1 hpi0
    · rw [e]; exact mul_le_mul_of_nonneg_left d2 hpi0
  have hsum : ∀ i : ℕ, i < ps.length → 0 ≤ val (pstep * ((i : ℕ) : F)) + val r ∧
      val (pstep * ((i : ℕ) : F)) + val r ≤ hi := by
    intro i hil
    obtain ⟨_, h1, _, h3, h4⟩ := hprod i hil
    have := hi_le i hil
    have h5 : 0 ≤ p * (i : ℝ) * (1 - u) := mul_nonneg h1 (by linarith)
    refine ⟨by linarith, ?_⟩
    have h6 : p * (i : ℝ) * u ≤ p * ps.length * (1 / 100) := mul_le_mul (by linarith) hu hu0 (by positivity)
    linarith
  set e := (2 * u + u ^ 2) * (p * ps.length) with he
  have hscan : ∀ i : ℕ, i < ps.length → 0 ≤ val (pstep * ((i : ℕ) : F) + r) ∧
      p * i + val r - e ≤ val (pstep * ((i : ℕ) : F) + r) ∧ val (pstep * ((i : ℕ) : F) + r) ≤ p * i + val r + e := by
    intro i hil
    obtain ⟨_, h1, _, h3, h4⟩ := hprod i hil
    obtain ⟨s1, s2⟩ := hsum i hil
    have hx := hi_le i hil
    obtain ⟨δ, hδ, es⟩ := R.add (pstep * ((i : ℕ) : F)) r (by rw [abs_of_nonneg s1]; exact s2)
    obtain ⟨d1, d2⟩ := one_add_bounds hδ
    have g1 : (val (pstep * ((i : ℕ) : F)) + val r) * (1 - u) ≤ val (pstep * ((i : ℕ) : F) + r) := by
      rw [es]; exact mul_le_mul_of_nonneg_left d1 s1
    have g2 : val (pstep * ((i : ℕ) : F) + r) ≤ (val (pstep * ((i : ℕ) : F)) + val r) * (1 + u) := by
      rw [es]; exact mul_le_mul_of_nonneg_left d2 s1
    have t0 : 0 ≤ p * (i : ℝ) + val r := by linarith
    have t1 : p * (i : ℝ) + val r ≤ p * ps.length := by linarith
    obtain ⟨k1, k2⟩ := scan_error hu0 hu1 h1 hr0 t1 h3 h4 g1 g2
    exact ⟨le_trans (mul_nonneg s1 (by linarith)) g1, k1, k2⟩
  have hscmono : ∀ k l : ℕ, k ≤ l → l < ps.length →
      val (pstep * ((k : ℕ) : F) + r) ≤ val (pstep * ((l : ℕ) : F) + r) := by
    intro k l hkl hl
    have hk : k < ps.length := by omega
    obtain ⟨a1, a2, a3, _⟩ := hprod k hk
    obtain ⟨b1, b2, b3, _⟩ := hprod l hl
    obtain ⟨s1, s2⟩ := hsum k hk
    obtain ⟨t1, t2⟩ := hsum l hl
    have hm : val (pstep * ((k : ℕ) : F)) ≤ val (pstep * ((l : ℕ) : F)) := by
      apply R.mul_mono
      · rw [a1, abs_of_nonneg a2]; exact a3
      · rw [b1, abs_of_nonneg b2]; exact b3
      · rw [a1, b1]
        exact mul_le_mul_of_nonneg_left (by exact_mod_cast hkl) hp0.le
    apply R.add_mono
    · rw [abs_of_nonneg s1]; exact s2
    · rw [abs_of_nonneg t1]; exact t2
    · linarith
  -- the loop
  have hdl : dup.length = ps.length := by have := hsort.length_eq; rwa [accumulate_length] at this
  obtain ⟨x0, hx0, hc0⟩ : ∃ x0, x0 ≤ val (pstep * ((0 : ℕ) : F) + r) ∧ 0 = cut (dup.map (numbers val)) x0 := by
    cases hdup : dup.map (numbers val) with
    | nil => exact ⟨_, le_refl _, by simp [cut]⟩
    | cons d t =>
      refine ⟨min (val (pstep * ((0 : ℕ) : F) + r)) d.accum, min_le_left _ _, ?_⟩
      have : ¬ d.accum < min (val (pstep * ((0 : ℕ) : F) + r)) d.accum := not_lt.mpr (min_le_right _ _)
      unfold cut
      rw [List.takeWhile_cons]
      simp only [this, decide_false, Bool.false_eq_true, if_false, List.length_nil]
  obtain ⟨ps', eL, hlen, hall⟩ := resampleLoop_rounded R.lt dup pstep r (1 / (ps.length : F)) noise ps.length hscmono
    (accumulate 0 ps) 0 0 0 (by rw [accumulate_length]; omega) x0 hc0 (fun _ => hx0) (by rw [hdl]; exact hn0)
  rw [accumulate_length] at hlen
  refine ⟨{ f with particles := ps' }, ?_, ?_⟩
  · simp only [Filter.resample, accumulate_length, ← hps, ← hpstep, eL, Outcome.bind_ok]
  -- the two counts
  set I : Nat → Prop := fun i => val (runningTotal ps (i + 1)) = b with hI
  set sc : ℕ → ℝ := fun i => val (pstep * ((i : ℕ) : F) + r) with hsc
  have hstates : ps'.map Particle.state = (List.range ps.length).map fun k => if h : k < ps'.length then ps'[k].state else ps[j].state := by
    apply List.ext_getElem
    · simp [hlen]
    · intro k h1 h2
      simp only [List.length_map] at h1
      simp [h1]
  have hin : ∀ k, k < ps.length → cut (dup.map (numbers val)) (sc k) < dup.length →
      ((∃ (i : Nat) (h : i < ps.length), I i ∧ tag (if h : k < ps'.length then ps'[k].state else ps[j].state) = tag ps[i].state) ↔
        (j = 0 ∨ a < sc k) ∧ sc k ≤ b) := by
    intro k hk hc
    have hk' : k < ps'.length := by rw [hlen]; exact hk
    obtain ⟨m, hm, em, hiff⟩ := cut_group ps dup R.lt hmono hsort (sc k) j hj hab hc
    rw [← hiff]
    have ht : tag (if h : k < ps'.length then ps'[k].state else ps[j].state) = tag ps[m].state := by
      rw [dif_pos hk', ← em]
      have h0 := hall k hk'
      simp only [Nat.zero_add] at h0
      rcases h0 hc with h | ⟨n, h⟩
      · rw [h]
      · rw [h, htag]
    constructor
    · rintro ⟨i, hil, hIi, hti⟩
      rw [ht] at hti
      have := hd _ _ hm hil hti
      subst this
      exact hIi
    · intro h
      exact ⟨m, hm, h, ht⟩
  have hcar : carrying tag ps I ps' = (List.range ps.length).countP fun k =>
      decide (∃ (i : Nat) (h : i < ps.length), I i ∧ tag (if h : k < ps'.length then ps'[k].state else ps[j].state) = tag ps[i].state) := by
    unfold carrying
    rw [hstates, List.countP_map]
    rfl
  show _ ≤ (carrying tag ps I ps' : ℝ) ∧ (carrying tag ps I ps' : ℝ) ≤ _
  constructor
  · -- at least
    have h1 := share_lower hu0 hu hp0 rfl hN hW hX1 hX2 ha0 (hw j hj).1 hbb.1 hbW he
    have h2 := countP_ge_Ioc ps.length ((a + e - val r) / p) ((b - e - val r) / p) (by
        rw [le_div_iff₀ hp0]
        have : 0 ≤ e := by rw [he]; positivity
        linarith) (by
        rw [div_le_iff₀ hp0]
        have hX := total_covered hu0 hu (by positivity) hX1 hW
        have : b - e ≤ p * ps.length := by rw [he]; linarith
        rw [mul_comm]
        linarith) (fun k =>
      decide (∃ (i : Nat) (h : i < ps.length), I i ∧ tag (if h : k < ps'.length then ps'[k].state else ps[j].state) = tag ps[i].state)) (by
        intro i hil hx hy
        rw [div_lt_iff₀ hp0] at hx
        rw [le_div_iff₀ hp0] at hy
        obtain ⟨_, s1, s2⟩ := hscan i hil
        have hc : cut (dup.map (numbers val)) (sc i) < dup.length := by
          by_contra hc
          have := cut_end ps dup hne hsort (sc i) hc
          rw [hWn] at this
          simp only [hsc] at this
          linarith
        rw [decide_eq_true_eq, hin i hil hc]
        simp only [hsc]
        exact ⟨Or.inr (by linarith), by linarith⟩)
    rw [hcar]
    refine le_trans ?_ h2
    have : (b - e - val r) / p - (a + e - val r) / p = (b - a - 2 * e) / p := by rw [← sub_div]; congr 1; ring
    rw [this]; linarith
  · -- at most
    have h1 := share_upper hu0 hu hp0 rfl hN hW hX1 ha0 (hw j hj).1 hbb.1 hbb.2 hbW he
    have h3 := share_end hu0 hu hp0 rfl hN hX2 hr1 he
    have he0 : 0 ≤ e := by rw [he]; positivity
    have hA := countP_le_Icc ps.length ((a - e - val r) / p) ((b + e - val r) / p) (by
        apply (div_le_div_iff_of_pos_right hp0).2; linarith)
      (fun k => decide (((j = 0 ∨ a < sc k) ∧ sc k ≤ b))) (by
        intro i hil hq
        simp only [decide_eq_true_eq] at hq
        obtain ⟨s0, s1, s2⟩ := hscan i hil
        have hlow : a ≤ sc i := by
          rcases hq.1 with h | h
          · have : a = 0 := by rw [ha, h]; exact R.zero
            rw [this]; exact s0
          · exact h.le
        have hup := hq.2
        simp only [hsc] at hlow hup
        rw [div_le_iff₀ hp0, le_div_iff₀ hp0]
        constructor <;> linarith)
    have hE := countP_le_Icc ps.length (min ((W - e - val r) / p) (ps.length - 1)) (ps.length - 1) (min_le_right _ _)
      (fun k => decide (W < sc k)) (by
        intro i hil hq
        simp only [decide_eq_true_eq] at hq
        obtain ⟨s0, s1, s2⟩ := hscan i hil
        refine ⟨le_trans (min_le_left _ _) ?_, ?_⟩
        · rw [div_le_iff₀ hp0]
          simp only [hsc] at hq
          linarith
        · have : (i : ℝ) + 1 ≤ ps.length := by exact_mod_cast hil
          linarith)
    have hE' : (ps.length : ℝ) - 1 - min ((W - e - val r) / p) (ps.length - 1) + 1 ≤ 1 + 4 * (ps.length * u) := by
      rcases min_choice ((W - e - val r) / p) ((ps.length : ℝ) - 1) with h | h
      · rw [h]; exact h3
      · rw [h]
        have : 0 ≤ 4 * ((ps.length : ℝ) * u) := by positivity
        linarith
    have hle : carrying tag ps I ps' ≤ (List.range ps.length).countP (fun k => decide (((j = 0 ∨ a < sc k) ∧ sc k ≤ b))) +
        (List.range ps.length).countP (fun k => decide (W < sc k)) := by
      rw [hcar]
      refine le_trans (List.countP_mono_left ?_) (countP_or_le _ _ _)
      intro k hk hq
      rw [List.mem_range] at hk
      simp only [decide_eq_true_eq, Bool.or_eq_true] at hq ⊢
      by_cases hc : cut (dup.map (numbers val)) (sc k) < dup.length
      · left; exact (hin k hk hc).1 hq
      · right
        have := cut_end ps dup hne hsort (sc k) hc
        rwa [hWn] at this
    have hle' : (carrying tag ps I ps' : ℝ) ≤ ((List.range ps.length).countP (fun k => decide (((j = 0 ∨ a < sc k) ∧ sc k ≤ b))) : ℝ) +
        ((List.range ps.length).countP (fun k => decide (W < sc k)) : ℝ) := by exact_mod_cast hle
    have : (b + e - val r) / p - (a - e - val r) / p = (b - a + 2 * e) / p := by rw [← sub_div]; congr 1; ring
    rw [this] at hA
    linarith

/-- C158 in numbers: with `float` and at most 10000 particles a particle whose weight is not lost in rounding is copied,
together with those after it whose weight is, at most 2.01 times more and at most 1.01 times less often than `N w / W`. -/
theorem C158_float (R : MonoRounded F val (1 / 2 ^ 24) lo hi) (f : Filter S F) (dup : List (Particle S F)) (r : F)
    (noise : Nat → S) (tag : S → T) (htag : ∀ s n, tag (StateOps.normalize (StateOps.add s n)) = tag s)
    (hnn : ∀ p ∈ f.particles, 0 ≤ val p.prob) (hsort : IsSorted (accumulate 0 f.particles) dup)
    (hnat : ∀ i : ℕ, i ≤ f.particles.length → val (i : F) = i)
    (hr0 : 0 ≤ val r) (hr1 : val r ≤ val (total f.particles / (f.particles.length : F)))
    (hmax : 4 * ((f.particles.map fun p => val p.prob).sum * (1 + 1 / 2 ^ 24) ^ f.particles.length) ≤ hi)
    (hmin : 2 * lo * f.particles.length ≤ val (total f.particles))
    (hd : DistinctTags tag f.particles) (hten : f.particles.length ≤ 10000) (j : Nat) (hj : j < f.particles.length)
    (hfirst : runningTotal f.particles j < runningTotal f.particles (j + 1)) :
    ∃ f', f.resample dup r noise = .ok f' ∧
      f.particles.length * val f.particles[j].prob / val (total f.particles) - 1.01 ≤
        carrying tag f.particles
          (fun i => val (runningTotal f.particles (i + 1)) = val (runningTotal f.particles (j + 1))) f'.particles ∧
      carrying tag f.particles
          (fun i => val (runningTotal f.particles (i + 1)) = val (runningTotal f.particles (j + 1))) f'.particles ≤
        f.particles.length * val f.particles[j].prob / val (total f.particles) + 2.01 := by
  obtain ⟨f', e, h1, h2⟩ := C158_copies R (by norm_num) f dup r noise tag htag hnn hsort hnat hr0 hr1 hmax hmin hd j hj hfirst
  have h3 : (f.particles.length : ℝ) * (1 / 2 ^ 24) ≤ 10000 * (1 / 2 ^ 24) := by
    refine mul_le_mul_of_nonneg_right (by exact_mod_cast hten) (by positivity)
  have h4 : (10000 : ℝ) * (1 / 2 ^ 24) ≤ 0.0006 := by norm_num
  refine ⟨f', e, ?_, ?_⟩
  · refine le_trans ?_ h1
    norm_num at h3 h4 ⊢
    linarith
  · refine le_trans h2 ?_
    norm_num at h3 h4 ⊢
    linarith

end main

/-! ## The hypotheses are met by arithmetic that really rounds -/

section demo

instance : Fact (0 < 8) := ⟨by norm_num⟩

/-- Weights 200, 57 and 1: the running totals with eight digits are 200, 256 and 256 again. -/
noncomputable def exDigits : Filter ℕ (Digits 8) :=
  ⟨[⟨1, ((200 : ℕ) : Digits 8), 0, 0⟩, ⟨2, ((57 : ℕ) : Digits 8), 0, 0⟩, ⟨3, ((1 : ℕ) : Digits 8), 0, 0⟩], none⟩

theorem trunc_257 : trunc 8 257 = 256 := by
  have h : Int.log 2 (257 : ℝ) = 8 := by
    have := Int.log_natCast (R := ℝ) 2 257
    rw [show ((257 : ℕ) : ℝ) = 257 by norm_num] at this
    rw [this]
    norm_num [Nat.log_eq_iff]
  unfold trunc
  rw [h]
  have : ⌊(257 : ℝ) * 2 ^ (((8 : ℕ) : ℤ) - 1 - 8)⌋ = 128 := by
    rw [Int.floor_eq_iff]; norm_num
  rw [this]
  norm_num

theorem exDigits_totals : (runningTotal exDigits.particles 1).v = 200 ∧ (runningTotal exDigits.particles 2).v = 256 ∧
    (runningTotal exDigits.particles 3).v = 256 := by
  have n1 := trunc_nat 8 200 (by norm_num)
  have n2 := trunc_nat 8 57 (by norm_num)
  have n3 := trunc_nat 8 1 (by norm_num)
  have e1 : (runningTotal exDigits.particles 1).v = 200 := by
    show trunc 8 (0 + trunc 8 ((200 : ℕ) : ℝ)) = 200
    rw [n1, zero_add, n1]; norm_num
  have e2 : (runningTotal exDigits.particles 2).v = 256 := by
    have : (runningTotal exDigits.particles 2).v = trunc 8 ((runningTotal exDigits.particles 1).v + trunc 8 ((57 : ℕ) : ℝ)) := rfl
    rw [this, e1, n2]
    norm_num [trunc_257]
  refine ⟨e1, e2, ?_⟩
  have : (runningTotal exDigits.particles 3).v = trunc 8 ((runningTotal exDigits.particles 2).v + trunc 8 ((1 : ℕ) : ℝ)) := rfl
  rw [this, e2, n3]
  norm_num [trunc_257]

/-- The hypotheses of C158 hold for particle 1 of three particles and the draw 50. -/
example : MonoRounded (Digits 8) Digits.v (1 / 128) (1 / 1000) 10000 ∧ (1 / 128 : ℝ) ≤ 1 / 100 ∧
    (∀ p ∈ exDigits.particles, 0 ≤ p.prob.v) ∧
    (∀ i : ℕ, i ≤ exDigits.particles.length → ((i : ℕ) : Digits 8).v = i) ∧
    0 ≤ (((50 : ℕ) : Digits 8)).v ∧
    (((50 : ℕ) : Digits 8)).v ≤ (total exDigits.particles / ((exDigits.particles.length : ℕ) : Digits 8)).v ∧
    4 * ((exDigits.particles.map fun p => p.prob.v).sum * (1 + 1 / 128) ^ exDigits.particles.length) ≤ 10000 ∧
    2 * (1 / 1000) * exDigits.particles.length ≤ (total exDigits.particles).v ∧
    DistinctTags (fun s : ℕ => s) exDigits.particles ∧
    runningTotal exDigits.particles 1 < runningTotal exDigits.particles 2 ∧
    (runningTotal exDigits.particles 3).v = (runningTotal exDigits.particles 2).v := by
  obtain ⟨t1, t2, t3⟩ := exDigits_totals
  have n1 := trunc_nat 8 200 (by norm_num)
  have n2 := trunc_nat 8 57 (by norm_num)
  have n3 := trunc_nat 8 1 (by norm_num)
  have hl : exDigits.particles.length = 3 := rfl
  have ht : (total exDigits.particles).v = 256 := by
    rw [← t3, ← runningTotal_length]; rfl
  refine ⟨?_, by norm_num, fun p _ => p.prob.2.1, ?_, (((50 : ℕ) : Digits 8)).2.1, ?_, ?_, ?_, ?_, ?_, ?_⟩
  · have := digits_rounded (p := 8) (by norm_num) (1 / 1000) 10000
    have e : (2 : ℝ) ^ (1 - ((8 : ℕ) : ℤ)) = 1 / 128 := by norm_num
    rwa [e] at this
  · intro i hi
    rw [hl] at hi
    exact digits_nat i (by omega)
  · have h3 : (((3 : ℕ) : Digits 8)).v = 3 := by rw [digits_nat 3 (by norm_num)]; norm_num
    have : (total exDigits.particles / ((exDigits.particles.length : ℕ) : Digits 8)).v =
        trunc 8 ((total exDigits.particles).v / (((3 : ℕ) : Digits 8)).v) := rfl
    rw [this, ht, h3]
    exact trunc_mono 8 (by norm_num) (Nat.cast_nonneg 50) (by norm_num)
  · rw [hl]
    have : (exDigits.particles.map fun p => p.prob.v).sum = trunc 8 ((200 : ℕ) : ℝ) + (trunc 8 ((57 : ℕ) : ℝ) + (trunc 8 ((1 : ℕ) : ℝ) + 0)) := rfl
    rw [this, n1, n2, n3]
    norm_num
  · rw [hl, ht]; norm_num
  · intro i k hi hk
    rw [hl] at hi hk
    intro h
    interval_cases i <;> interval_cases k <;> simp_all [exDigits]
  · show (runningTotal exDigits.particles 1).v < (runningTotal exDigits.particles 2).v
    rw [t1, t2]; norm_num
  · rw [t3, t2]

end demo

end PF
end Mcl3dl
