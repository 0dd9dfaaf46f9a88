import Verif.Model.Sampler
import Verif.Proofs.DDAGrid
import Mathlib.Algebra.BigOperators.Fin
import Mathlib.Tactic.FinCases
import Mathlib.Order.Filter.AtTopBot.Basic

set_option linter.unusedSectionVars false

/-! # C72–C76: the samplers -/

namespace Mcl3dl
namespace Sampler

/-! ## C72 -/

theorem uniformLoop_ok {P : Type} {ud : ℕ → ℕ} {pts : List P} (h : ∀ k, ud k < pts.length) (n : ℕ) :
    ∀ k, ∃ ps, uniformLoop ud pts n k = .ok ps ∧ ps.length = n ∧ ∀ p ∈ ps, p ∈ pts := by
  induction n with
  | zero => intro k; exact ⟨[], rfl, rfl, by simp⟩
  | succ n ih =>
    intro k
    obtain ⟨ps, h1, h2, h3⟩ := ih (k + 1)
    refine ⟨pts[ud k]'(h k) :: ps, ?_, by simp [h2], ?_⟩
    · rw [uniformLoop, List.getElem?_eq_getElem (h k)]
      simp [h1]
    · intro p hp
      rcases List.mem_cons.1 hp with rfl | hp
      · exact List.getElem_mem _
      · exact h3 p hp

/-- C72: whatever the random source yields (values in `0..size-1`), sampling a non-empty cloud returns
`num` points, all from the cloud, with the cloud's header; an empty cloud yields an empty one. -/
theorem C72_uniform {H P : Type} (ud : ℕ → ℕ) (pc : Cloud H P) (num : ℕ)
    (h : pc.points ≠ [] → ∀ k, ud k < pc.points.length) :
    ∃ out, uniform ud pc num = .ok out ∧ out.header = pc.header ∧
      (∀ p ∈ out.points, p ∈ pc.points) ∧
      (pc.points ≠ [] → out.points.length = num) ∧ (pc.points = [] → out.points = []) := by
  unfold uniform
  by_cases he : pc.points.length = 0
  · rw [if_pos he]
    have : pc.points = [] := List.length_eq_zero_iff.1 he
    exact ⟨_, rfl, rfl, by simp, by simp [this], by simp⟩
  · rw [if_neg he]
    have hne : pc.points ≠ [] := by simpa using he
    obtain ⟨ps, h1, h2, h3⟩ := uniformLoop_ok (h hne) num 0
    rw [h1]
    exact ⟨⟨pc.header, ps⟩, rfl, rfl, h3, fun _ => h2, fun h => absurd h hne⟩

/-- C72 applied. -/
example : uniform (fun k => k % 2) (⟨7, ["a", "b"]⟩ : Cloud ℕ String) 3 = .ok ⟨7, ["a", "b", "a"]⟩ := rfl

/-! ## C73 -/

section
variable {F : Type} [Zero F] [One F] [Neg F] [Add F] [Sub F] [Mul F] [Div F] [LT F] [DecidableLT F] [Transc F]

theorem pick_ok {P : Type} {pts : List P} (ids : List ℕ) {ps : List P} (h : pick pts ids = .ok ps) :
    List.Forall₂ (fun i p => pts[i]? = some p) ids ps := by
  induction ids generalizing ps with
  | nil => cases h; exact .nil
  | cons i is ih =>
    rw [pick] at h
    split at h
    · cases h
    · rename_i p hp
      obtain ⟨qs, h1, h⟩ := DDA.bind_eq_ok h
      cases h
      exact .cons hp (ih h1)

theorem select_result {canon : ℕ → F} {c : List F} {back : F} {num : ℕ} (hnum : 0 < num) {sel : List ℕ}
    (h : loopO (selectRound canon c back num) (0, []) = .ok sel) : sel.Nodup ∧ sel.length = num := by
  have hstep : ∀ s : ℕ × List ℕ, s.2.Nodup ∧ s.2.length < num →
      (∀ s', selectRound canon c back num s = .ok (.inl s') → s'.2.Nodup ∧ s'.2.length < num) ∧
      (∀ r, selectRound canon c back num s = .ok (.inr r) → r.Nodup ∧ r.length = num) := by
    rintro s ⟨hn, hl⟩
    have hnd : (if lowerBound c (canon s.1 * (back - 0) + 0) ∈ s.2 then s.2
        else lowerBound c (canon s.1 * (back - 0) + 0) :: s.2).Nodup := by
      split_ifs with hm
      · exact hn
      · exact List.nodup_cons.2 ⟨hm, hn⟩
    have hle : (if lowerBound c (canon s.1 * (back - 0) + 0) ∈ s.2 then s.2
        else lowerBound c (canon s.1 * (back - 0) + 0) :: s.2).length ≤ s.2.length + 1 := by
      split_ifs <;> simp
    unfold selectRound
    simp only
    generalize (if lowerBound c (canon s.1 * (back - 0) + 0) ∈ s.2 then s.2
        else lowerBound c (canon s.1 * (back - 0) + 0) :: s.2) = l at hnd hle ⊢
    by_cases h1 : num ≤ l.length
    · rw [if_pos h1]
      refine ⟨fun s' h => ?_, fun r h => ?_⟩
      · cases h
      · cases h; exact ⟨hnd, by omega⟩
    · rw [if_neg h1]
      refine ⟨fun s' h => ?_, fun r h => ?_⟩
      · cases h; exact ⟨hnd, by simp only; omega⟩
      · cases h
  exact loopO_inv (I := fun s : ℕ × List ℕ => s.2.Nodup ∧ s.2.length < num)
    (Q := fun r : List ℕ => r.Nodup ∧ r.length = num)
    (fun s s' hs h => (hstep s hs).1 s' h) (fun s r hs h => (hstep s hs).2 r h) ⟨by simp, by simpa using hnum⟩ h

/-- C73, in any arithmetic: if sampling returns, then for a cloud of more than `num` points (`num > 0`)
the result consists of the points at `num` distinct positions of the cloud; a cloud of at most `num`
points is returned unchanged; for `num = 0` or an empty cloud the result is empty.  The header is always
that of the cloud. -/
theorem C73_distinct {H P : Type} {p : Params F} {stats : Option (Stats F)}
    {normalsOf : List P → List (Option (Vec3 F))} {canon : ℕ → F} {order : List ℕ → List ℕ}
    (horder : ∀ l, (order l).Perm l) {pc out : Cloud H P} {num : ℕ}
    (h : sampleWithNormal p stats normalsOf canon order pc num = .ok out) :
    out.header = pc.header ∧
    (num = 0 ∨ pc.points = [] → out.points = []) ∧
    (0 < num → pc.points.length ≤ num → out = pc) ∧
    (0 < num → num < pc.points.length → out.points.length = num ∧
      ∃ ids : List ℕ, ids.Nodup ∧ List.Forall₂ (fun i x => pc.points[i]? = some x) ids out.points) := by
  unfold sampleWithNormal at h
  split_ifs at h with h1 h2
  · cases h
    refine ⟨rfl, fun _ => rfl, ?_, ?_⟩
    · intro hn hl
      have : pc.points = [] := by
        rcases h1 with h1 | h1
        · exact List.length_eq_zero_iff.1 h1
        · omega
      cases pc; simp_all
    · intro hn hl; omega
  · cases h
    refine ⟨rfl, ?_, fun _ _ => rfl, fun _ _ => by omega⟩
    rintro (h | h)
    · exact absurd (Or.inr h) h1
    · exact h
  · push Not at h1 h2
    cases stats with
    | none => cases h
    | some st =>
      simp only at h
      split at h
      · cases h
      · rename_i back hb
        obtain ⟨sel, hsel, h⟩ := DDA.bind_eq_ok h
        obtain ⟨ps, hps, h⟩ := DDA.bind_eq_ok h
        cases h
        obtain ⟨hnd, hlen⟩ := select_result (by omega) hsel
        have hf := pick_ok _ hps
        refine ⟨rfl, ?_, fun _ _ => by omega, fun _ _ => ⟨?_, _, ((horder sel).nodup_iff).2 hnd, hf⟩⟩
        · rintro (h | h)
          · exact absurd h h1.2
          · rw [h] at h1; simp at h1
        · simp only
          rw [← hf.length_eq, (horder sel).length_eq, hlen]

end

/-! ## C75 -/

theorem maxWeightOf_mem {p : Params ℝ} (hmax : 1 ≤ p.maxWeight) (hr : p.performWeightingRatio < p.maxWeightRatio)
    (ratio : ℝ) : 1 ≤ maxWeightOf p ratio ∧ maxWeightOf p ratio ≤ p.maxWeight := by
  unfold maxWeightOf
  split_ifs with h1 h2
  · exact ⟨le_rfl, hmax⟩
  · exact ⟨hmax, le_rfl⟩
  · push Not at h1 h2
    have hd : 0 < p.maxWeightRatio - p.performWeightingRatio := by linarith
    have t0 : 0 ≤ (ratio - p.performWeightingRatio) / (p.maxWeightRatio - p.performWeightingRatio) :=
      div_nonneg (by linarith) hd.le
    have t1 : (ratio - p.performWeightingRatio) / (p.maxWeightRatio - p.performWeightingRatio) ≤ 1 := by
      rw [div_le_one hd]; linarith
    simp only
    constructor <;> nlinarith

/-- Share of the way from weight 1 to the maximal weight, from the clipped cosine. -/
noncomputable def facing (axis n : Vec3 ℝ) : ℝ :=
  (Real.pi / 2 - Real.arccos (min |n.x * axis.x + n.y * axis.y + n.z * axis.z| 1)) / (Real.pi / 2)

theorem pointWeight_some (m : ℝ) (axis n : Vec3 ℝ) :
    pointWeight m axis (some n) = 1 + (m - 1) * facing axis n := by
  unfold pointWeight facing halfPi
  simp only [cabs_eq, Transc.acos_real, Transc.pi_real]
  have : (if 1 < |n.x * axis.x + n.y * axis.y + n.z * axis.z| then (1 : ℝ) else
      |n.x * axis.x + n.y * axis.y + n.z * axis.z|) = min |n.x * axis.x + n.y * axis.y + n.z * axis.z| 1 := by
    split_ifs with h
    · rw [min_eq_right h.le]
    · rw [min_eq_left (not_lt.1 h)]
  rw [this]; norm_num

theorem facing_mem (axis n : Vec3 ℝ) : 0 ≤ facing axis n ∧ facing axis n ≤ 1 := by
  unfold facing
  have hp := Real.pi_pos
  have h0 : 0 ≤ min |n.x * axis.x + n.y * axis.y + n.z * axis.z| 1 := le_min (abs_nonneg _) zero_le_one
  have h1 := Real.arccos_nonneg (min |n.x * axis.x + n.y * axis.y + n.z * axis.z| 1)
  have h2 : Real.arccos (min |n.x * axis.x + n.y * axis.y + n.z * axis.z| 1) ≤ Real.pi / 2 :=
    Real.arccos_le_pi_div_two.2 h0
  constructor
  · apply div_nonneg <;> linarith
  · rw [div_le_one (by linarith)]; linarith

/-- C75: every weight lies between 1 and the configured maximum. -/
theorem C75_range {p : Params ℝ} (hmax : 1 ≤ p.maxWeight) (hr : p.performWeightingRatio < p.maxWeightRatio)
    (ratio : ℝ) (axis : Vec3 ℝ) (n : Option (Vec3 ℝ)) :
    1 ≤ pointWeight (maxWeightOf p ratio) axis n ∧
    pointWeight (maxWeightOf p ratio) axis n ≤ p.maxWeight := by
  obtain ⟨a, b⟩ := maxWeightOf_mem hmax hr ratio
  cases n with
  | none => exact ⟨le_rfl, hmax⟩
  | some n =>
    rw [pointWeight_some]
    obtain ⟨c, d⟩ := facing_mem axis n
    constructor <;> nlinarith

/-- C75: below the first ratio all weights are 1; above the second one a point whose unit normal is
parallel to the unit axis gets the maximum; in between the weight of such a point is interpolated
linearly. -/
theorem C75_levels {p : Params ℝ} (ratio : ℝ) (axis : Vec3 ℝ) :
    (ratio < p.performWeightingRatio → ∀ n, pointWeight (maxWeightOf p ratio) axis n = 1) ∧
    (∀ n : Vec3 ℝ, |n.x * axis.x + n.y * axis.y + n.z * axis.z| = 1 →
      pointWeight (maxWeightOf p ratio) axis (some n) = maxWeightOf p ratio) ∧
    (p.performWeightingRatio ≤ ratio → p.maxWeightRatio < ratio → maxWeightOf p ratio = p.maxWeight) ∧
    (p.performWeightingRatio ≤ ratio → ratio ≤ p.maxWeightRatio → p.performWeightingRatio < p.maxWeightRatio →
      ∃ t, maxWeightOf p ratio = (1 - t) * 1 + t * p.maxWeight ∧
        ratio = (1 - t) * p.performWeightingRatio + t * p.maxWeightRatio) := by
  refine ⟨?_, ?_, ?_, ?_⟩
  · intro h n
    have : maxWeightOf p ratio = 1 := by unfold maxWeightOf; rw [if_pos h]
    rw [this]
    cases n with
    | none => rfl
    | some n => rw [pointWeight_some]; ring
  · intro n hn
    rw [pointWeight_some]
    have : facing axis n = 1 := by
      unfold facing
      rw [hn, min_self, Real.arccos_one, sub_zero]
      exact div_self (by have := Real.pi_pos; linarith)
    rw [this]; ring
  · intro h1 h2
    unfold maxWeightOf
    rw [if_neg (not_lt.2 h1), if_pos h2]
  · intro h1 h2 h3
    have hd : p.maxWeightRatio - p.performWeightingRatio ≠ 0 := by linarith
    refine ⟨(ratio - p.performWeightingRatio) / (p.maxWeightRatio - p.performWeightingRatio), ?_, ?_⟩
    · unfold maxWeightOf
      rw [if_neg (not_lt.2 h1), if_neg (not_lt.2 h2)]
      simp only; ring
    · field_simp; ring

/-- C75: the closer a normal is to the axis (larger absolute cosine), the larger the weight; a normal
orthogonal to the axis or an undefined one gives weight 1. -/
theorem C75_monotone {p : Params ℝ} (hmax : 1 ≤ p.maxWeight) (hr : p.performWeightingRatio < p.maxWeightRatio)
    (ratio : ℝ) (axis n n' : Vec3 ℝ)
    (h : |n.x * axis.x + n.y * axis.y + n.z * axis.z| ≤ |n'.x * axis.x + n'.y * axis.y + n'.z * axis.z|) :
    pointWeight (maxWeightOf p ratio) axis (some n) ≤ pointWeight (maxWeightOf p ratio) axis (some n') ∧
    (n.x * axis.x + n.y * axis.y + n.z * axis.z = 0 → pointWeight (maxWeightOf p ratio) axis (some n) = 1) ∧
    pointWeight (maxWeightOf p ratio) axis none = 1 := by
  obtain ⟨a, -⟩ := maxWeightOf_mem hmax hr ratio
  refine ⟨?_, ?_, rfl⟩
  · rw [pointWeight_some, pointWeight_some]
    have hmono : facing axis n ≤ facing axis n' := by
      unfold facing
      have hp := Real.pi_pos
      apply div_le_div_of_nonneg_right _ (by linarith)
      have := Real.antitone_arccos (min_le_min_right 1 h)
      linarith
    nlinarith
  · intro h0
    rw [pointWeight_some]
    have : facing axis n = 0 := by
      unfold facing
      rw [h0, abs_zero, min_eq_left zero_le_one, Real.arccos_zero, sub_self, zero_div]
    rw [this]; ring

/-- C75 applied: ratios 2 and 5, maximal weight 3; ratio 7/2, normal along the axis: weight 2. -/
example : pointWeight (maxWeightOf (⟨2, 5, 3⟩ : Params ℝ) (7 / 2)) ⟨1, 0, 0⟩ (some ⟨-1, 0, 0⟩) = 2 := by
  rw [(C75_levels (p := ⟨2, 5, 3⟩) (7 / 2) ⟨1, 0, 0⟩).2.1 ⟨-1, 0, 0⟩ (by norm_num)]
  norm_num [maxWeightOf]

/-! ## C74 -/

/-- A fair source of numbers in [0, 1): every interval of positive length is met again and again. -/
def Fair (canon : ℕ → ℝ) : Prop :=
  (∀ k, 0 ≤ canon k ∧ canon k < 1) ∧
  ∀ a b : ℝ, 0 ≤ a → a < b → b ≤ 1 → ∀ N : ℕ, ∃ k ≥ N, a < canon k ∧ canon k < b

theorem cumulative_length {F : Type} [Add F] (ws : List F) : ∀ acc : F, (cumulative acc ws).length = ws.length := by
  induction ws with
  | nil => intro acc; rfl
  | cons w ws ih => intro acc; simp [cumulative, ih]

/-- value of the cumulative list before position `i` -/
theorem cumulative_get (ws : List ℝ) : ∀ (acc : ℝ) (i : ℕ) (h : i < (cumulative acc ws).length),
    (cumulative acc ws)[i] = acc + (ws.take (i + 1)).sum := by
  induction ws with
  | nil => intro acc i h; simp [cumulative] at h
  | cons w ws ih =>
    intro acc i h
    cases i with
    | zero => simp [cumulative]; ring
    | succ i =>
      simp only [cumulative, List.getElem_cons_succ]
      rw [ih]
      simp [List.take_succ_cons]; ring

theorem take_sum_lt {ws : List ℝ} (hpos : ∀ w ∈ ws, 0 < w) {i j : ℕ} (hij : i < j) (hj : j ≤ ws.length) :
    (ws.take i).sum < (ws.take j).sum := by
  have hsplit : ws.take j = ws.take i ++ (ws.take j).drop i := by
    have h := (List.take_append_drop i (ws.take j)).symm
    rwa [List.take_take, min_eq_left hij.le] at h
  rw [hsplit, List.sum_append]
  have : 0 < ((ws.take j).drop i).sum := by
    apply List.sum_pos
    · intro x hx
      exact hpos x (List.mem_of_mem_take (List.mem_of_mem_drop hx))
    · intro h
      have := congrArg List.length h
      simp at this; omega
  linarith

/-- A value strictly between two cumulative weights selects the upper one. -/
theorem lowerBound_eq {ws : List ℝ} (hpos : ∀ w ∈ ws, 0 < w) {i : ℕ} (hi : i < ws.length) {r : ℝ}
    (h1 : i = 0 ∨ (ws.take i).sum < r) (h2 : r ≤ (ws.take (i + 1)).sum) :
    lowerBound (cumulative 0 ws) r = i := by
  unfold lowerBound
  have hl : (cumulative 0 ws).length = ws.length := cumulative_length ws 0
  rw [List.findIdx_eq (by omega)]
  refine ⟨?_, ?_⟩
  · rw [cumulative_get]; simp [h2]
  · intro j hj
    rw [cumulative_get]
    rcases h1 with h1 | h1
    · omega
    · simp only [zero_add, Bool.not_eq_false', decide_eq_true_eq]
      rcases eq_or_lt_of_le (show j + 1 ≤ i by omega) with h | h
      · rw [h]; exact h1
      · exact (take_sum_lt hpos h (by omega)).trans h1

theorem lowerBound_lt {ws : List ℝ} (hne : ws ≠ []) {r : ℝ} (hr : r < ws.sum) :
    lowerBound (cumulative 0 ws) r < ws.length := by
  unfold lowerBound
  have hl : (cumulative 0 ws).length = ws.length := cumulative_length ws 0
  have hlen : 0 < ws.length := List.length_pos_iff.2 hne
  rw [← hl, List.findIdx_lt_length]
  refine ⟨(cumulative 0 ws)[ws.length - 1]'(by omega), List.getElem_mem _, ?_⟩
  rw [cumulative_get]
  have : ws.length - 1 + 1 = ws.length := by omega
  rw [this, List.take_length]
  simp; linarith

/-- The selected ids after the first `n` draws. -/
noncomputable def selAfter (canon : ℕ → ℝ) (c : List ℝ) (back : ℝ) : ℕ → List ℕ
  | 0 => []
  | n + 1 =>
    let i := lowerBound c (canon n * (back - 0) + 0)
    if i ∈ selAfter canon c back n then selAfter canon c back n else i :: selAfter canon c back n

theorem mem_selAfter {canon : ℕ → ℝ} {c : List ℝ} {back : ℝ} {k n : ℕ} (h : k < n) :
    lowerBound c (canon k * (back - 0) + 0) ∈ selAfter canon c back n := by
  induction n with
  | zero => omega
  | succ n ih =>
    simp only [selAfter]
    by_cases hk : k = n
    · subst hk
      split_ifs with hm
      · exact hm
      · simp
    · have := ih (by omega)
      split_ifs
      · exact this
      · exact List.mem_cons_of_mem _ this

theorem loop_ends {canon : ℕ → ℝ} {c : List ℝ} {back : ℝ} {num : ℕ} (N : ℕ) (hN : num ≤ (selAfter canon c back (N + 1)).length) :
    ∀ m n, n + m = N → ∃ sel, loopO (selectRound canon c back num) (n, selAfter canon c back n) = .ok sel ∧
      ∃ k, sel = selAfter canon c back k := by
  have hround : ∀ n, selectRound canon c back num (n, selAfter canon c back n) =
      if num ≤ (selAfter canon c back (n + 1)).length then .ok (.inr (selAfter canon c back (n + 1)))
      else .ok (.inl (n + 1, selAfter canon c back (n + 1))) := by
    intro n; rfl
  intro m
  induction m with
  | zero =>
    intro n hn
    have : n = N := by omega
    subst this
    rw [loopO_eq, hround, if_pos hN]
    exact ⟨_, rfl, n + 1, rfl⟩
  | succ m ih =>
    intro n hn
    rw [loopO_eq, hround]
    split_ifs
    · exact ⟨_, rfl, n + 1, rfl⟩
    · simp only [Outcome.bind_ok]
      exact ih (n + 1) (by omega)

theorem selAfter_lt {canon : ℕ → ℝ} {ws : List ℝ} {back : ℝ} (hlt : ∀ k, lowerBound (cumulative 0 ws) (canon k * (back - 0) + 0) < ws.length)
    (n : ℕ) : ∀ i ∈ selAfter canon (cumulative 0 ws) back n, i < ws.length := by
  induction n with
  | zero => simp [selAfter]
  | succ n ih =>
    intro i hi
    simp only [selAfter] at hi
    split_ifs at hi
    · exact ih i hi
    · rcases List.mem_cons.1 hi with rfl | hi
      · exact hlt n
      · exact ih i hi

/-- With positive weights and a fair source the selection loop ends, and selects existing positions. -/
theorem select_ends {ws : List ℝ} (hwpos : ∀ w ∈ ws, 0 < w) (hne : ws ≠ []) {canon : ℕ → ℝ} (hfair : Fair canon)
    {num : ℕ} (hnum : num ≤ ws.length) :
    (cumulative 0 ws).getLast? = some ws.sum ∧
    ∃ sel, loopO (selectRound canon (cumulative 0 ws) ws.sum num) (0, []) = .ok sel ∧ ∀ i ∈ sel, i < ws.length := by
  have hsum : 0 < ws.sum := List.sum_pos _ hwpos hne
  have hcl : (cumulative 0 ws).length = ws.length := cumulative_length ws 0
  have hback : (cumulative 0 ws).getLast? = some ws.sum := by
    rw [List.getLast?_eq_getElem?, hcl]
    have hlen : ws.length - 1 < (cumulative 0 ws).length := by
      have := List.length_pos_iff.2 hne; omega
    rw [List.getElem?_eq_getElem hlen, cumulative_get]
    have : ws.length - 1 + 1 = ws.length := by have := List.length_pos_iff.2 hne; omega
    rw [this, List.take_length]; simp
  refine ⟨hback, ?_⟩
  have hlt : ∀ k, lowerBound (cumulative 0 ws) (canon k * (ws.sum - 0) + 0) < ws.length := by
    intro k
    apply lowerBound_lt hne
    have := (hfair.1 k).2
    nlinarith
  -- every position is drawn sooner or later
  have hdraw : ∀ i < ws.length, ∃ k, lowerBound (cumulative 0 ws) (canon k * (ws.sum - 0) + 0) = i := by
    intro i hi
    have ha : (ws.take i).sum < (ws.take (i + 1)).sum := take_sum_lt hwpos (by omega) (by omega)
    have h0 : 0 ≤ (ws.take i).sum := List.sum_nonneg fun x hx => (hwpos x (List.mem_of_mem_take hx)).le
    have hb : (ws.take (i + 1)).sum ≤ ws.sum := by
      rcases eq_or_lt_of_le (show i + 1 ≤ ws.length by omega) with h | h
      · rw [h, List.take_length]
      · have := take_sum_lt hwpos h le_rfl
        rw [List.take_length] at this; exact this.le
    obtain ⟨k, -, hk1, hk2⟩ := hfair.2 ((ws.take i).sum / ws.sum) ((ws.take (i + 1)).sum / ws.sum)
      (by positivity) (div_lt_div_of_pos_right ha hsum) ((div_le_one hsum).2 hb) 0
    refine ⟨k, lowerBound_eq hwpos hi (Or.inr ?_) ?_⟩
    · rw [div_lt_iff₀ hsum] at hk1; linarith
    · rw [lt_div_iff₀ hsum] at hk2; linarith
  choose f hf using hdraw
  -- after enough draws all positions are selected
  obtain ⟨N, hN⟩ : ∃ N, ∀ i (hi : i < ws.length), f i hi < N := by
    refine ⟨(Finset.univ.sup fun i : Fin ws.length => f i.1 i.2) + 1, fun i hi => ?_⟩
    have := Finset.le_sup (f := fun i : Fin ws.length => f i.1 i.2) (Finset.mem_univ ⟨i, hi⟩)
    simp only at this
    omega
  have hsub : (List.range ws.length) ⊆ selAfter canon (cumulative 0 ws) ws.sum (N + 1) := by
    intro i hi
    rw [List.mem_range] at hi
    have := mem_selAfter (canon := canon) (c := cumulative 0 ws) (back := ws.sum)
      (show f i hi < N + 1 by have := hN i hi; omega)
    rwa [hf i hi] at this
  have hlen : ws.length ≤ (selAfter canon (cumulative 0 ws) ws.sum (N + 1)).length := by
    have := (List.subperm_of_subset List.nodup_range hsub).length_le
    simpa using this
  obtain ⟨sel, hsel, k, rfl⟩ := loop_ends (canon := canon) (c := cumulative 0 ws) (back := ws.sum) (num := num) N
    (by omega) N 0 (by omega)
  exact ⟨_, hsel, selAfter_lt hlt k⟩

theorem pick_exists {P : Type} (pts : List P) : ∀ l : List ℕ, (∀ i ∈ l, i < pts.length) → ∃ ps, pick pts l = .ok ps := by
  intro l
  induction l with
  | nil => intro _; exact ⟨[], rfl⟩
  | cons i l ih =>
    intro h
    obtain ⟨ps, hps⟩ := ih fun j hj => h j (List.mem_cons_of_mem _ hj)
    have hi := h i (by simp)
    exact ⟨pts[i] :: ps, by rw [pick, List.getElem?_eq_getElem hi]; simp [hps]⟩

/-! ### Finite values in extended arithmetic -/

theorem finQ_inv (q : Quat ℝ) (hq : q.dot q = 1) : (finQ q).inv = finQ q.inv := by
  have hd : (finQ q).dot (finQ q) = XR.fin 1 := by
    rw [← hq]; simp [Quat.dot, finQ]
  unfold Quat.inv
  rw [hd, hq]
  simp [Quat.sdiv, Quat.smul, Quat.conj, finQ, XR.fin_div]

theorem finQ_rotate (q : Quat ℝ) (v : Vec3 ℝ) : (finQ q).rotate (finV v) = finV (q.rotate v) := by
  simp only [Quat.rotate, finQ, finV, Quat.conj, XR.zero_def, XR.fin_neg]
  change (⟨(Quat.mul _ _).x, _, _⟩ : Vec3 XR) = _
  change _ = (⟨.fin ((Quat.mul (Quat.mul _ _) _).x), .fin ((Quat.mul (Quat.mul _ _) _).y), .fin ((Quat.mul (Quat.mul _ _) _).z)⟩ : Vec3 XR)
  rfl

theorem fin_halfPi : (halfPi : XR) = XR.fin (halfPi : ℝ) := by
  unfold halfPi
  change XR.fin Real.pi / (XR.fin 1 + XR.fin 1) = _
  rw [XR.fin_add, XR.fin_div _ _ (by norm_num)]
  rfl

theorem fin_cabs (a : ℝ) : cabs (XR.fin a) = XR.fin (cabs a) := by
  unfold cabs
  simp only [XR.zero_def, XR.fin_lt, XR.fin_neg]
  split_ifs <;> rfl

theorem fin_pointWeight (m : ℝ) (axis : Vec3 ℝ) (n : Option (Vec3 ℝ)) :
    pointWeight (.fin m) (finV axis) (n.map finV) = XR.fin (pointWeight m axis n) := by
  cases n with
  | none => rfl
  | some n =>
    simp only [pointWeight, Option.map_some, finV, XR.fin_mul, XR.fin_add, fin_cabs, XR.one_def, XR.fin_lt, fin_halfPi]
    generalize n.x * axis.x + n.y * axis.y + n.z * axis.z = d
    have hif : (if 1 < cabs d then XR.fin 1 else XR.fin (cabs d)) = XR.fin (if 1 < cabs d then 1 else cabs d) := by
      split_ifs <;> rfl
    rw [hif]
    have h1 : |if 1 < cabs d then 1 else cabs d| ≤ 1 := by
      rw [cabs_eq]
      split_ifs with h
      · simp
      · rw [abs_abs]; exact not_lt.1 h
    have hac : Transc.acos (XR.fin (if 1 < cabs d then 1 else cabs d)) =
        XR.fin (Transc.acos (if 1 < cabs d then 1 else cabs d)) := by
      change (if _ then _ else _) = _
      rw [if_pos h1]; rfl
    have hpi : (halfPi : ℝ) ≠ 0 := by
      have := Real.pi_pos
      change Real.pi / (1 + 1) ≠ 0
      positivity
    simp only [hac, XR.fin_sub, XR.fin_div _ _ hpi, XR.fin_mul, XR.fin_add]

theorem fin_cumulative (ws : List ℝ) : ∀ acc : ℝ,
    cumulative (XR.fin acc) (ws.map XR.fin) = (cumulative acc ws).map XR.fin := by
  induction ws with
  | nil => intro acc; rfl
  | cons w ws ih => intro acc; simp [cumulative, ih]

theorem fin_lowerBound (c : List ℝ) (r : ℝ) : lowerBound (c.map XR.fin) (.fin r) = lowerBound c r := by
  unfold lowerBound
  induction c with
  | nil => rfl
  | cons a c ih => simp [List.findIdx_cons, ih]

theorem fin_selectRound (canon : ℕ → ℝ) (c : List ℝ) (back : ℝ) (num : ℕ) :
    selectRound (fun k => XR.fin (canon k)) (c.map XR.fin) (.fin back) num = selectRound canon c back num := by
  funext s
  unfold selectRound
  simp only [XR.zero_def, XR.fin_sub, XR.fin_mul, XR.fin_add, fin_lowerBound]

/-- The weight of a point facing the principal axis, in extended arithmetic: with a second eigenvalue of zero and a
positive largest one the ratio is infinite and the maximal weight is used. -/
theorem fin_maxWeight {p : Params ℝ} (hmax : 1 ≤ p.maxWeight) (hr : p.performWeightingRatio < p.maxWeightRatio)
    {e1 e2 : ℝ} (h1 : 0 ≤ e1) (h2 : 0 < e2) :
    ∃ m : ℝ, 1 ≤ m ∧ maxWeightOf (finP p) (Transc.sqrt (XR.fin e2 / XR.fin e1)) = .fin m := by
  rcases h1.eq_or_lt with h | h
  · rw [← h, XR.fin_div_zero_pos _ h2]
    refine ⟨p.maxWeight, hmax, ?_⟩
    unfold maxWeightOf
    have ha : ¬ Transc.sqrt XR.pinf < (finP p).performWeightingRatio := fun h => h
    have hb : (finP p).maxWeightRatio < Transc.sqrt XR.pinf := trivial
    rw [if_neg ha, if_pos hb]; rfl
  · rw [XR.fin_div _ _ h.ne', XR.transc_sqrt, XR.sqrt_fin _ (by positivity)]
    refine ⟨maxWeightOf p (Real.sqrt (e2 / e1)), (maxWeightOf_mem hmax hr _).1, ?_⟩
    have hd : p.maxWeightRatio - p.performWeightingRatio ≠ 0 := by linarith
    unfold maxWeightOf
    simp only [finP, XR.fin_lt, XR.one_def, XR.fin_sub, XR.fin_div _ _ hd, XR.fin_mul, XR.fin_add]
    split_ifs <;> rfl

/-- C74: for a maximal weight of at least 1 and a position distribution with some spread (a positive largest
eigenvalue), sampling returns if the random source is fair. -/
theorem C74_terminates {H P : Type} {p : Params ℝ} {st : Stats ℝ} (hrot : st.meanRot.dot st.meanRot = 1)
    {normalsOf : List P → List (Option (Vec3 ℝ))} (hnormals : ∀ l, (normalsOf l).length = l.length)
    {canon : ℕ → ℝ} (hfair : Fair canon) {order : List ℕ → List ℕ} (horder : ∀ l, (order l).Perm l)
    (hmax : 1 ≤ p.maxWeight) (hr : p.performWeightingRatio < p.maxWeightRatio)
    (he1 : 0 ≤ st.eval1) (he2 : 0 < st.eval2) (pc : Cloud H P) (num : ℕ) :
    (sampleWithNormal (finP p) (some (finS st)) (fun l => (normalsOf l).map (Option.map finV))
      (fun k => .fin (canon k)) order pc num).isOk = true := by
  unfold sampleWithNormal
  split_ifs with h1 h2
  · rfl
  · rfl
  · push Not at h1 h2
    obtain ⟨m, hm1, hm⟩ := fin_maxWeight hmax hr he1 he2
    simp only [cumulativeWeights]
    have e1 : (finS st).eval1 = .fin st.eval1 := rfl
    have e2 : (finS st).eval2 = .fin st.eval2 := rfl
    have e3 : (finS st).meanRot = finQ st.meanRot := rfl
    have e4 : (finS st).evec2 = finV st.evec2 := rfl
    rw [e1, e2, e3, e4, hm, finQ_inv _ hrot, finQ_rotate]
    set ws := (normalsOf pc.points).map (pointWeight m (st.meanRot.inv.rotate st.evec2)) with hws
    have hmap : ((normalsOf pc.points).map (Option.map finV)).map
        (pointWeight (XR.fin m) (finV (st.meanRot.inv.rotate st.evec2))) = ws.map XR.fin := by
      rw [hws, List.map_map, List.map_map]
      apply List.map_congr_left
      intro n _
      exact fin_pointWeight m _ n
    rw [hmap, XR.zero_def, fin_cumulative]
    have hwl : ws.length = pc.points.length := by rw [hws, List.length_map, hnormals]
    have hwpos : ∀ w ∈ ws, 0 < w := by
      intro w hw
      obtain ⟨n, -, rfl⟩ := List.mem_map.1 hw
      cases n with
      | none => exact one_pos
      | some n =>
        rw [pointWeight_some]
        have := (facing_mem (st.meanRot.inv.rotate st.evec2) n).1
        nlinarith
    have hne : ws ≠ [] := by intro h; rw [h] at hwl; simp at hwl; omega
    obtain ⟨hback, sel, hsel, hin⟩ := select_ends hwpos hne hfair (num := num) (by omega)
    rw [List.getLast?_map, hback]
    simp only [Option.map_some, fin_selectRound]
    rw [hsel, Outcome.bind_ok]
    obtain ⟨ps, hps⟩ := pick_exists pc.points (order sel) (by
      intro i hi
      rw [(horder _).mem_iff] at hi
      rw [← hwl]; exact hin i hi)
    rw [hps]; rfl

theorem nan_sub (a : XR) : XR.nan - a = XR.nan := by cases a <;> rfl
theorem sub_nan (a : XR) : a - XR.nan = XR.nan := by cases a <;> rfl

theorem cumulative_getLast_nan (ws : List XR) : ∀ acc : XR, ws ≠ [] → (acc = XR.nan ∨ XR.nan ∈ ws) →
    (cumulative acc ws).getLast? = some XR.nan := by
  induction ws with
  | nil => intro acc h; exact absurd rfl h
  | cons w ws ih =>
    intro acc _ h
    by_cases hws : ws = []
    · subst hws
      have : w + acc = XR.nan := by
        rcases h with h | h
        · rw [h]; exact XR.add_nan w
        · simp at h; rw [← h]; exact XR.nan_add acc
      simp [cumulative, this]
    · have hstep : (cumulative (w + acc) ws).getLast? = some XR.nan := by
        apply ih _ hws
        rcases h with h | h
        · left; rw [h]; exact XR.add_nan w
        · rcases List.mem_cons.1 h with h | h
          · left; rw [← h]; exact XR.nan_add acc
          · right; exact h
      have hne : cumulative (w + acc) ws ≠ [] := by
        intro h0; rw [h0] at hstep; simp at hstep
      obtain ⟨a, l, hal⟩ := List.exists_cons_of_ne_nil hne
      rw [cumulative, hal, List.getLast?_cons_cons, ← hal]; exact hstep

/-- C74, the case in which sampling does not return: when both larger eigenvalues are 0 (all particles at one position) and some point has a
normal, sampling two or more of more points never ends, whatever the random source yields. -/
theorem C74_zero_covariance {H P : Type} {p : Params XR} {st : Stats XR} (h1 : st.eval1 = 0) (h2 : st.eval2 = 0)
    {normalsOf : List P → List (Option (Vec3 XR))} {canon : ℕ → XR} {order : List ℕ → List ℕ}
    {pc : Cloud H P} {num : ℕ} (hnum : 2 ≤ num) (hlen : num < pc.points.length) {n : Vec3 XR}
    (hn : some n ∈ normalsOf pc.points) :
    sampleWithNormal p (some st) normalsOf canon order pc num = .ub "loop does not end" := by
  have hratio : Transc.sqrt (st.eval2 / st.eval1) = XR.nan := by
    rw [h1, h2]; change Transc.sqrt (XR.fin 0 / XR.fin 0) = _
    rw [XR.zero_div_zero]; rfl
  have hmw : maxWeightOf p XR.nan = XR.nan := by
    unfold maxWeightOf
    rw [if_neg (XR.not_nan_lt _), if_neg (XR.not_lt_nan _)]
    simp only [nan_sub, XR.nan_div, XR.mul_nan, XR.add_nan]
  have hpw : ∀ axis, pointWeight XR.nan axis (some n) = XR.nan := by
    intro axis; unfold pointWeight
    simp only [nan_sub, XR.nan_mul, XR.add_nan]
  unfold sampleWithNormal
  rw [if_neg (by omega), if_neg (by omega)]
  simp only [cumulativeWeights, hratio, hmw]
  rw [cumulative_getLast_nan _ _ (by
      intro h; rw [List.map_eq_nil_iff] at h; rw [h] at hn; simp at hn)
    (Or.inr (List.mem_map.2 ⟨some n, hn, hpw _⟩))]
  simp only
  have hr : ∀ k, canon k * (XR.nan - 0) + 0 = XR.nan := by
    intro k; rw [nan_sub, XR.mul_nan, XR.nan_add]
  have hlb : ∀ c : List XR, c ≠ [] → lowerBound c XR.nan = 0 := by
    intro c hc
    obtain ⟨a, l, rfl⟩ := List.exists_cons_of_ne_nil hc
    unfold lowerBound
    simp [List.findIdx_cons]
  set c := cumulative 0 ((normalsOf pc.points).map (pointWeight XR.nan (st.meanRot.inv.rotate st.evec2))) with hc
  have hcne : c ≠ [] := by
    intro h
    have : (normalsOf pc.points).length = 0 := by
      have := congrArg List.length h
      rw [hc, cumulative_length] at this; simpa using this
    rw [List.length_eq_zero_iff] at this; rw [this] at hn; simp at hn
  have hround : ∀ k l, (l = [] ∨ l = [0]) → selectRound canon c XR.nan num (k, l) = .ok (.inl (k + 1, [0])) := by
    intro k l hl
    unfold selectRound
    simp only [hr, hlb c hcne]
    rcases hl with rfl | rfl
    · simp; omega
    · simp; omega
  have hiter : ∀ m k l, (l = [] ∨ l = [0]) → ¬ (iterO (selectRound canon c XR.nan num) m (k, l)).Ended := by
    intro m
    induction m with
    | zero => intro k l _; exact id
    | succ m ih =>
      intro k l hl
      rw [iterO_succ, hround k l hl]
      exact ih (k + 1) [0] (Or.inr rfl)
  rw [loopO_not_ended fun m => hiter m 0 [] (Or.inl rfl)]
  rfl

/-- C74: the hypothesis of `C74_zero_covariance` is what the sampler computes from a particle set
without spread. -/
theorem C74_zero_covariance_eigenvalues {vals : Fin 3 → ℝ} {vecs : Matrix (Fin 3) (Fin 3) ℝ}
    (h : EigenSolved (posCov 0) vals vecs) : vals 1 = 0 ∧ vals 2 = 0 := by
  have key : ∀ j, vals j = 0 := by
    intro j
    have h1 := h.orthonormal j j
    rw [if_pos rfl] at h1
    have h2 : ∀ i, vals j * vecs i j = 0 := by
      intro i
      rw [← h.eigen j i]; simp [posCov]
    by_contra hne
    have h3 : ∀ i, vecs i j = 0 := fun i => (mul_eq_zero.1 (h2 i)).resolve_left hne
    simp [h3] at h1
  exact ⟨key 1, key 2⟩

/-- C74 applied: three points, two wanted. -/
example (canon : ℕ → XR) (p : Params XR) : sampleWithNormal p (some ⟨1, 0, 0, ⟨1, 0, 0⟩⟩)
    (fun l : List ℕ => l.map fun _ => some ⟨0, 0, 1⟩) canon id (⟨(), [10, 20, 30]⟩ : Cloud Unit ℕ) 2 =
    .ub "loop does not end" :=
  C74_zero_covariance rfl rfl le_rfl (by simp) (n := ⟨0, 0, 1⟩) (by simp)

/-! ## C76 -/

/-- `v` is a principal axis of the covariance `C`: a direction of maximal variance. -/
def IsPrincipalAxis (C : Matrix (Fin 3) (Fin 3) ℝ) (v : Fin 3 → ℝ) : Prop :=
  (∑ i, v i ^ 2) = 1 ∧
  ∀ u : Fin 3 → ℝ, (∑ i, u i ^ 2) = 1 → (∑ i, ∑ j, u i * C i j * u j) ≤ ∑ i, ∑ j, v i * C i j * v j

/-- The column of the largest eigenvalue is a principal axis of the matrix given to the solver. -/
theorem eigen_principal {A : Matrix (Fin 3) (Fin 3) ℝ} {vals : Fin 3 → ℝ} {vecs : Matrix (Fin 3) (Fin 3) ℝ}
    (h : EigenSolved A vals vecs) : IsPrincipalAxis A fun i => vecs i 2 := by
  have horth : vecs.transpose * vecs = 1 := by
    ext i j
    rw [Matrix.mul_apply, Matrix.one_apply]
    simpa [Matrix.transpose_apply] using h.orthonormal i j
  have horth' : vecs * vecs.transpose = 1 := mul_eq_one_comm.1 horth
  refine ⟨?_, ?_⟩
  · have := h.orthonormal 2 2
    simp only [if_true] at this
    rw [← this]; congr 1; ext k; ring
  · intro u hu
    -- coordinates in the eigenbasis
    set c : Fin 3 → ℝ := fun j => ∑ k, vecs k j * u k with hc
    have hrec : ∀ i, u i = ∑ j, vecs i j * c j := by
      intro i
      have : ∀ k, (∑ j, vecs i j * vecs k j) = if i = k then 1 else 0 := by
        intro k
        have := congrFun (congrFun horth' i) k
        rw [Matrix.mul_apply, Matrix.one_apply] at this
        simpa [Matrix.transpose_apply] using this
      calc u i = ∑ k, (if i = k then 1 else 0) * u k := by simp
        _ = ∑ k, (∑ j, vecs i j * vecs k j) * u k := by simp_rw [this]
        _ = ∑ j, vecs i j * c j := by
          simp only [hc, Fin.sum_univ_three]; ring
    have hquad : (∑ i, ∑ j, u i * A i j * u j) = ∑ j, vals j * c j ^ 2 := by
      have hAu : ∀ i, (∑ j, A i j * u j) = ∑ m, vals m * vecs i m * c m := by
        intro i
        calc (∑ j, A i j * u j) = ∑ j, A i j * (∑ m, vecs j m * c m) := by simp_rw [← hrec]
          _ = ∑ m, (∑ j, A i j * vecs j m) * c m := by simp only [Fin.sum_univ_three]; ring
          _ = _ := by simp_rw [h.eigen]
      calc (∑ i, ∑ j, u i * A i j * u j) = ∑ i, u i * (∑ j, A i j * u j) := by
            simp only [Fin.sum_univ_three]; ring
        _ = ∑ i, u i * (∑ m, vals m * vecs i m * c m) := by simp_rw [hAu]
        _ = ∑ j, vals j * c j ^ 2 := by
          simp only [hc, Fin.sum_univ_three]; ring
    have hone : (∑ j, c j ^ 2) = 1 := by
      rw [← hu]
      calc (∑ j, c j ^ 2) = ∑ i, (∑ j, vecs i j * c j) * u i := by
            simp only [hc, Fin.sum_univ_three]; ring
        _ = ∑ i, u i ^ 2 := by
            simp_rw [← hrec]; congr 1; ext i; ring
    have hv : (∑ i, ∑ j, vecs i 2 * A i j * vecs j 2) = vals 2 := by
      calc (∑ i, ∑ j, vecs i 2 * A i j * vecs j 2) = ∑ i, vecs i 2 * (∑ j, A i j * vecs j 2) := by
            simp only [Fin.sum_univ_three]; ring
        _ = ∑ i, vecs i 2 * (vals 2 * vecs i 2) := by simp_rw [h.eigen]
        _ = vals 2 * ∑ i, vecs i 2 * vecs i 2 := by simp only [Fin.sum_univ_three]; ring
        _ = vals 2 := by rw [h.orthonormal 2 2]; simp
    rw [hquad, hv]
    rw [Fin.sum_univ_three] at hone ⊢
    obtain ⟨a1, a2⟩ := h.ascending
    have b0 := mul_le_mul_of_nonneg_right (a1.trans a2) (sq_nonneg (c 0))
    have b1 := mul_le_mul_of_nonneg_right a2 (sq_nonneg (c 1))
    have : vals 2 * (c 0 ^ 2 + c 1 ^ 2 + c 2 ^ 2) = vals 2 := by rw [hone, mul_one]
    linarith

/-- C76: the axis used for weighting is a principal axis of the matrix of the absolute values of the position
covariances (in map coordinates; the normals are compared with it in the frame of the mean pose). -/
theorem C76_axis {solve : Matrix (Fin 3) (Fin 3) ℝ → (Fin 3 → ℝ) × Matrix (Fin 3) (Fin 3) ℝ}
    (hsolve : ∀ A, A.transpose = A → EigenSolved A (solve A).1 (solve A).2) (rot : Quat ℝ)
    {C : Matrix (Fin 3) (Fin 3) ℝ} (hsym : C.transpose = C) :
    IsPrincipalAxis (Matrix.of fun i j => |C i j|)
      ![(setParticleStatistics solve rot C).evec2.x, (setParticleStatistics solve rot C).evec2.y,
        (setParticleStatistics solve rot C).evec2.z] ∧
    (setParticleStatistics solve rot C).meanRot = rot ∧
    (setParticleStatistics solve rot C).eval1 ≤ (setParticleStatistics solve rot C).eval2 := by
  have hs := hsolve (posCov C) (by
    ext i j
    have := congrFun (congrFun hsym i) j
    simp only [Matrix.transpose_apply] at this
    simp [posCov, this])
  unfold setParticleStatistics
  refine ⟨?_, rfl, hs.ascending.2⟩
  have : (![(solve (posCov C)).2 0 2, (solve (posCov C)).2 1 2, (solve (posCov C)).2 2 2] : Fin 3 → ℝ) =
      fun i => (solve (posCov C)).2 i 2 := by
    funext i; fin_cases i <;> rfl
  simp only
  rw [this]
  exact eigen_principal hs

/-- C76: if no entry of the position covariance is negative, the axis used for weighting is a principal
axis of it.  (With a negative entry it need not be, `C76_negative_correlation`.) -/
theorem C76_nonneg {solve : Matrix (Fin 3) (Fin 3) ℝ → (Fin 3 → ℝ) × Matrix (Fin 3) (Fin 3) ℝ}
    (hsolve : ∀ A, A.transpose = A → EigenSolved A (solve A).1 (solve A).2) (rot : Quat ℝ)
    {C : Matrix (Fin 3) (Fin 3) ℝ} (hsym : C.transpose = C) (hpos : ∀ i j, 0 ≤ C i j) :
    IsPrincipalAxis C ![(setParticleStatistics solve rot C).evec2.x, (setParticleStatistics solve rot C).evec2.y,
      (setParticleStatistics solve rot C).evec2.z] ∧
    (setParticleStatistics solve rot C).eval1 ≤ (setParticleStatistics solve rot C).eval2 := by
  have hA : posCov C = C := by
    ext i j; simp [posCov, abs_of_nonneg (hpos i j)]
  have hs := hsolve C hsym
  unfold setParticleStatistics
  simp only [hA]
  refine ⟨?_, hs.ascending.2⟩
  have : (![(solve C).2 0 2, (solve C).2 1 2, (solve C).2 2 2] : Fin 3 → ℝ) = fun i => (solve C).2 i 2 := by
    funext i; fin_cases i <;> rfl
  rw [this]
  exact eigen_principal hs

/-- The covariance of a particle cloud stretched along the direction (1, -1, 0). -/
noncomputable def antiCov : Matrix (Fin 3) (Fin 3) ℝ := !![1, -1/2, 0; -1/2, 1, 0; 0, 0, 1/4]

/-- C76, the effect of a negative covariance: for particles spread along (1, -1, 0) the axis used is not a principal axis (it is
(1, 1, 0), the direction of smaller variance in the plane), for every correct eigen solver. -/
theorem C76_negative_correlation
    {solve : Matrix (Fin 3) (Fin 3) ℝ → (Fin 3 → ℝ) × Matrix (Fin 3) (Fin 3) ℝ}
    (hsolve : ∀ A, A.transpose = A → EigenSolved A (solve A).1 (solve A).2) (rot : Quat ℝ) :
    antiCov.transpose = antiCov ∧ (∀ u : Fin 3 → ℝ, 0 ≤ ∑ i, ∑ j, u i * antiCov i j * u j) ∧
    ¬ IsPrincipalAxis antiCov ![(setParticleStatistics solve rot antiCov).evec2.x,
      (setParticleStatistics solve rot antiCov).evec2.y, (setParticleStatistics solve rot antiCov).evec2.z] ∧
    (setParticleStatistics solve rot antiCov).evec2.x = (setParticleStatistics solve rot antiCov).evec2.y := by
  have hP : posCov antiCov = !![1, 1/2, 0; 1/2, 1, 0; 0, 0, 1/4] := by
    ext i j; fin_cases i <;> fin_cases j <;> norm_num [posCov, antiCov]
  have hs := hsolve (posCov antiCov) (by
    rw [hP]; ext i j; fin_cases i <;> fin_cases j <;> rfl)
  unfold setParticleStatistics
  simp only
  rw [hP] at hs ⊢
  set A : Matrix (Fin 3) (Fin 3) ℝ := !![1, 1/2, 0; 1/2, 1, 0; 0, 0, 1/4] with hA
  set v := (solve A).2 with hv
  set l := (solve A).1 with hl
  have e0 := hs.eigen 2 0
  have e1 := hs.eigen 2 1
  have e2 := hs.eigen 2 2
  have o2 := hs.orthonormal 2 2
  have hmax := (eigen_principal hs).2 ![3/5, 4/5, 0] (by
    rw [Fin.sum_univ_three]; change (3 / 5 : ℝ) ^ 2 + (4 / 5) ^ 2 + 0 ^ 2 = 1; norm_num)
  simp only [Fin.sum_univ_three, hA] at e0 e1 e2 hmax
  simp [Fin.sum_univ_three] at e0 e1 e2 hmax o2
  -- the largest eigenvalue exceeds 1/4 and 1/2
  have hquad : v 0 2 * (v 0 2 + 2⁻¹ * v 1 2) + v 1 2 * (2⁻¹ * v 0 2 + v 1 2) + v 2 2 * (4⁻¹ * v 2 2) = l 2 := by
    have e2' : 4⁻¹ * v 2 2 = l 2 * v 2 2 := by
      rcases e2 with h | h
      · rw [h]
      · rw [h]; ring
    rw [e0, e1, e2']
    have : l 2 * (v 0 2 * v 0 2 + v 1 2 * v 1 2 + v 2 2 * v 2 2) = l 2 := by rw [o2, mul_one]
    linarith
  have hlam : 1 < l 2 := by
    rw [← hquad]
    norm_num at hmax ⊢
    linarith
  have hz : v 2 2 = 0 := by
    rcases e2 with h | h
    · exfalso; norm_num at h; linarith
    · exact h
  have hxy : v 0 2 = v 1 2 := by
    have : (2⁻¹ - l 2) * (v 0 2 - v 1 2) = 0 := by linarith
    rcases mul_eq_zero.1 this with h | h
    · exfalso; norm_num at h; linarith
    · linarith
  refine ⟨?_, ?_, ?_, hxy⟩
  · ext i j; fin_cases i <;> fin_cases j <;> rfl
  · intro u
    have : (∑ i, ∑ j, u i * antiCov i j * u j) = 3 / 4 * (u 0 - u 1) ^ 2 + 1 / 4 * (u 0 + u 1) ^ 2 + 1 / 4 * u 2 ^ 2 := by
      simp [Fin.sum_univ_three, antiCov]; ring
    rw [this]; positivity
  · rintro ⟨-, h⟩
    have h := h ![3/5, -4/5, 0] (by
      rw [Fin.sum_univ_three]; change (3 / 5 : ℝ) ^ 2 + (-4 / 5) ^ 2 + 0 ^ 2 = 1; norm_num)
    simp [Fin.sum_univ_three, antiCov] at h
    rw [← hxy, hz] at h o2
    nlinarith

/-- C76: correct eigen solvers exist for the example, e.g. for the matrix the sampler builds from
`antiCov`. -/
example : ∃ vals vecs, EigenSolved (posCov antiCov) vals vecs := by
  have hP : posCov antiCov = !![1, 1/2, 0; 1/2, 1, 0; 0, 0, 1/4] := by
    ext i j; fin_cases i <;> fin_cases j <;> norm_num [posCov, antiCov]
  have hs : Real.sqrt 2 / 2 * (Real.sqrt 2 / 2) = 1 / 2 := by
    have := Real.mul_self_sqrt (show (0 : ℝ) ≤ 2 by norm_num); nlinarith
  refine ⟨![1/4, 1/2, 3/2], !![0, Real.sqrt 2 / 2, Real.sqrt 2 / 2; 0, -(Real.sqrt 2 / 2), Real.sqrt 2 / 2; 1, 0, 0], ?_⟩
  rw [hP]
  generalize Real.sqrt 2 / 2 = r at hs
  refine ⟨?_, ?_, ?_⟩
  · constructor
    · change (1 / 4 : ℝ) ≤ 1 / 2; norm_num
    · change (1 / 2 : ℝ) ≤ 3 / 2; norm_num
  · intro j i
    fin_cases i <;> fin_cases j <;> simp [Fin.sum_univ_three] <;> ring
  · intro i j
    fin_cases i <;> fin_cases j <;> simp [Fin.sum_univ_three] <;> linarith

end Sampler
end Mcl3dl
