import Verif.Spec.SamplerLaw
import Verif.Props.Sampler
import Verif.Proofs.NodeReal
import Mathlib.MeasureTheory.Measure.Prod

/-!
# Streams of random numbers
-/

set_option linter.unusedSectionVars false

namespace Mcl3dl
namespace Sampler

open MeasureTheory

instance : IsProbabilityMeasure (volume.restrict (Set.Ico (0 : ℝ) 1)) := ⟨by simp⟩

instance : IsProbabilityMeasure uniformStream := by unfold uniformStream; infer_instance

/-- A stream with one more number in front. -/
def consS (u : ℝ) (ω : ℕ → ℝ) : ℕ → ℝ
  | 0 => u
  | k + 1 => ω k

theorem measurable_consS : Measurable fun x : ℝ × (ℕ → ℝ) => consS x.1 x.2 := by
  rw [measurable_pi_iff]
  intro k
  cases k with
  | zero => exact measurable_fst
  | succ k => exact (measurable_pi_apply k).comp measurable_snd

/-- The first number and the others are independent. -/
theorem uniformStream_cons :
    uniformStream = ((volume.restrict (Set.Ico (0 : ℝ) 1)).prod uniformStream).map fun x => consS x.1 x.2 := by
  symm
  refine Measure.eq_infinitePi _ fun s t ht => ?_
  classical
  obtain ⟨n, hn⟩ : ∃ n, s ⊆ Finset.range (n + 1) := ⟨s.sup id, fun i hi => by
    rw [Finset.mem_range]
    have := Finset.le_sup (f := id) hi
    simp only [id] at this
    omega⟩
  set t' : ℕ → Set ℝ := fun i => if i ∈ s then t i else Set.univ with ht'
  have hm : ∀ i, MeasurableSet (t' i) := fun i => by
    simp only [ht']
    split_ifs
    · exact ht i
    · exact MeasurableSet.univ
  have h1 : Set.pi (s : Set ℕ) t = Set.pi (Finset.range (n + 1) : Set ℕ) t' := by
    ext x
    simp only [Set.mem_pi, Finset.mem_coe, ht']
    constructor
    · intro h i _
      split_ifs with hi
      · exact h i hi
      · trivial
    · intro h i hi
      have := h i (hn hi)
      rwa [if_pos hi] at this
  have h2 : ∏ i ∈ s, volume.restrict (Set.Ico (0 : ℝ) 1) (t i) =
      ∏ i ∈ Finset.range (n + 1), volume.restrict (Set.Ico (0 : ℝ) 1) (t' i) := by
    rw [← Finset.prod_subset hn]
    · refine Finset.prod_congr rfl fun i hi => ?_
      simp only [ht', if_pos hi]
    · intro i _ hi
      simp only [ht', if_neg hi, measure_univ]
  rw [h1, h2, Measure.map_apply measurable_consS (MeasurableSet.pi (Finset.countable_toSet _) fun i _ => hm i)]
  have h3 : (fun x : ℝ × (ℕ → ℝ) => consS x.1 x.2) ⁻¹' Set.pi (Finset.range (n + 1) : Set ℕ) t' =
      t' 0 ×ˢ Set.pi (Finset.range n : Set ℕ) fun k => t' (k + 1) := by
    ext ⟨u, ω⟩
    simp only [Set.mem_preimage, Set.mem_pi, Finset.coe_range, Set.mem_Iio, Set.mem_prod]
    constructor
    · intro h
      exact ⟨h 0 (by omega), fun i hi => h (i + 1) (by omega)⟩
    · rintro ⟨h0, h⟩ i hi
      cases i with
      | zero => exact h0
      | succ i => exact h i (by omega)
  rw [h3, Measure.prod_prod, Finset.prod_range_succ', mul_comm]
  congr 1
  exact Measure.infinitePi_pi _ fun i _ => hm (i + 1)

section
variable {ws : List ℝ} (hpos : ∀ w ∈ ws, 0 < w) (hne : ws ≠ [])

/-- The position that the number `u` selects. -/
noncomputable def idx (ws : List ℝ) (u : ℝ) : ℕ := lowerBound (cumulative 0 ws) (u * (ws.sum - 0) + 0)

theorem measurable_lowerBound (c : List ℝ) : Measurable fun r : ℝ => lowerBound c r := by
  unfold lowerBound
  induction c with
  | nil => exact measurable_const
  | cons a c ih =>
    simp only [List.findIdx_cons]
    have : (fun r : ℝ => bif !decide (a < r) then 0 else List.findIdx (fun x => !decide (x < r)) c + 1) =
        fun r => if a < r then List.findIdx (fun x => !decide (x < r)) c + 1 else 0 := by
      funext r
      by_cases h : a < r <;> simp [h]
    rw [this]
    exact Measurable.ite measurableSet_Ioi (ih.add_const 1) measurable_const

theorem measurable_idx (ws : List ℝ) : Measurable (idx ws) :=
  (measurable_lowerBound _).comp (by fun_prop)

include hpos hne

/-- A position is selected with a probability proportional to its weight. -/
theorem idx_prob {i : ℕ} (hi : i < ws.length) :
    volume.restrict (Set.Ico (0 : ℝ) 1) (idx ws ⁻¹' {i}) = ENNReal.ofReal (ws[i] / ws.sum) := by
  have hsum : 0 < ws.sum := List.sum_pos _ hpos hne
  have hcl : (cumulative 0 ws).length = ws.length := cumulative_length ws 0
  set a := (ws.take i).sum / ws.sum with ha
  set b := (ws.take (i + 1)).sum / ws.sum with hb
  have hab : b - a = ws[i] / ws.sum := by
    rw [ha, hb, ← sub_div, List.sum_take_succ ws i hi]
    congr 1
    ring
  have ha0 : 0 ≤ a := div_nonneg (List.sum_nonneg fun x hx => (hpos x (List.mem_of_mem_take hx)).le) hsum.le
  have hb1 : b ≤ 1 := by
    rw [hb, div_le_one hsum]
    rcases eq_or_lt_of_le (show i + 1 ≤ ws.length by omega) with h | h
    · rw [h, List.take_length]
    · have := take_sum_lt hpos h le_rfl
      rw [List.take_length] at this; exact this.le
  rw [Measure.restrict_apply (measurable_idx ws (measurableSet_singleton i)), ← hab]
  refine le_antisymm ?_ ?_
  · refine (measure_mono (t := Set.Icc a b) ?_).trans (by rw [Real.volume_Icc])
    rintro u ⟨h1, h2, h3⟩
    have h1 : (cumulative 0 ws).findIdx (fun x => !decide (x < u * (ws.sum - 0) + 0)) = i := h1
    rw [List.findIdx_eq (by omega)] at h1
    obtain ⟨e1, e2⟩ := h1
    constructor
    · cases i with
      | zero => simpa [ha] using h2
      | succ i =>
        have := e2 i (by omega)
        rw [cumulative_get] at this
        simp only [zero_add, Bool.not_eq_false', decide_eq_true_eq] at this
        rw [ha, div_le_iff₀ hsum]
        linarith
    · rw [cumulative_get] at e1
      simp only [zero_add, Bool.not_eq_true', decide_eq_false_iff_not, not_lt] at e1
      rw [hb, le_div_iff₀ hsum]
      linarith
  · refine le_trans (by rw [Real.volume_Ioo]) (measure_mono (s := Set.Ioo a b) ?_)
    rintro u ⟨h1, h2⟩
    refine ⟨lowerBound_eq hpos hi (.inr ?_) ?_, by linarith, by linarith⟩
    · rw [ha, div_lt_iff₀ hsum] at h1; linarith
    · rw [hb, lt_div_iff₀ hsum] at h2; linarith

/-- Averaging over the first number. -/
theorem uniformStream_first {A : Set (ℕ → ℝ)} (hA : MeasurableSet A) {B : ℕ → Set (ℕ → ℝ)}
    (hAB : ∀ u ω, consS u ω ∈ A ↔ ω ∈ B (idx ws u)) :
    uniformStream A = ∑ i : Fin ws.length, ENNReal.ofReal (ws[i] / ws.sum) * uniformStream (B i) := by
  have hsum : 0 < ws.sum := List.sum_pos _ hpos hne
  have hpre : MeasurableSet ((fun x : ℝ × (ℕ → ℝ) => consS x.1 x.2) ⁻¹' A) := measurable_consS hA
  conv_lhs => rw [uniformStream_cons]
  rw [Measure.map_apply measurable_consS hA, Measure.prod_apply hpre]
  have hs : ∀ u, Prod.mk u ⁻¹' ((fun x : ℝ × (ℕ → ℝ) => consS x.1 x.2) ⁻¹' A) = B (idx ws u) := by
    intro u
    ext ω
    exact hAB u ω
  simp only [hs]
  rw [← lintegral_map (f := fun i => uniformStream (B i)) (measurable_of_countable _) (measurable_idx ws), lintegral_countable',
    tsum_eq_sum (s := Finset.range ws.length)]
  · rw [Finset.sum_range]
    refine Finset.sum_congr rfl fun i _ => ?_
    rw [Measure.map_apply (measurable_idx ws) (measurableSet_singleton _), idx_prob hpos hne i.2, mul_comm]
    rfl
  · intro i hi
    rw [Finset.mem_range, not_lt] at hi
    rw [Measure.map_apply (measurable_idx ws) (measurableSet_singleton _),
      Measure.restrict_apply (measurable_idx ws (measurableSet_singleton i))]
    have : idx ws ⁻¹' {i} ∩ Set.Ico 0 1 = ∅ := by
      ext u
      simp only [Set.mem_inter_iff, Set.mem_preimage, Set.mem_singleton_iff, Set.mem_Ico, Set.mem_empty_iff_false, iff_false]
      rintro ⟨h1, h2, h3⟩
      have : idx ws u < ws.length := by
        refine lowerBound_lt hne ?_
        have : u * ws.sum < 1 * ws.sum := mul_lt_mul_of_pos_right h3 hsum
        linarith
      omega
    rw [this, measure_empty, mul_zero]

end

/-! ### The loop as a function of the stream -/

/-- The loop, from the positions `S` on. -/
noncomputable def picked (ws : List ℝ) (num : ℕ) (S : List ℕ) (ω : ℕ → ℝ) : Outcome (List ℕ) :=
  loopO (selectRound ω (cumulative 0 ws) ws.sum num) (0, S)

/-- The positions after a draw. -/
def addPos (S : List ℕ) (i : ℕ) : List ℕ := if i ∈ S then S else i :: S

theorem picked_cons (ws : List ℝ) (num : ℕ) (S : List ℕ) (u : ℝ) (ω : ℕ → ℝ) :
    picked ws num S (consS u ω) = if num ≤ (addPos S (idx ws u)).length then .ok (addPos S (idx ws u))
      else picked ws num (addPos S (idx ws u)) ω := by
  unfold picked
  rw [loopO_eq]
  have h1 : selectRound (consS u ω) (cumulative 0 ws) ws.sum num (0, S) =
      if num ≤ (addPos S (idx ws u)).length then .ok (.inr (addPos S (idx ws u)))
      else .ok (.inl (1, addPos S (idx ws u))) := rfl
  rw [h1]
  split_ifs with h
  · rfl
  · rw [Outcome.bind_ok]
    have := Node.loopO_map (fun s : ℕ × List ℕ => (s.1 + 1, s.2)) (id : List ℕ → List ℕ)
      (step := selectRound ω (cumulative 0 ws) ws.sum num) (step' := selectRound (consS u ω) (cumulative 0 ws) ws.sum num)
      (by
        rintro ⟨k, S⟩
        show (if num ≤ (addPos S (idx ws (ω k))).length then Outcome.ok (Sum.inr (addPos S (idx ws (ω k))))
            else Outcome.ok (Sum.inl (k + 1 + 1, addPos S (idx ws (ω k))))) =
          (if num ≤ (addPos S (idx ws (ω k))).length then Outcome.ok (Sum.inr (addPos S (idx ws (ω k))))
            else Outcome.ok (Sum.inl (k + 1, addPos S (idx ws (ω k))))).bind _
        by_cases hn : num ≤ (addPos S (idx ws (ω k))).length
        · rw [if_pos hn, if_pos hn]; rfl
        · rw [if_neg hn, if_neg hn]; rfl) (0, addPos S (idx ws u))
    simp only [Nat.zero_add] at this
    show loopO (selectRound (consS u ω) (cumulative 0 ws) ws.sum num) (1, addPos S (idx ws u)) = _
    rw [this]
    cases loopO (selectRound ω (cumulative 0 ws) ws.sum num) (0, addPos S (idx ws u)) <;> rfl

theorem loopO_ok_iff {S R : Type*} {step : S → Outcome (S ⊕ R)} {s : S} {r : R} :
    loopO step s = .ok r ↔ ∃ n, iterO step n s = .ok (.inr r) := by
  classical
  constructor
  · intro h
    unfold loopO at h
    split_ifs at h with hn
    refine ⟨Nat.find hn, ?_⟩
    generalize iterO step (Nat.find hn) s = x at h
    rcases x with (_ | _) | _ | _ <;> cases h
    rfl
  · rintro ⟨n, hn⟩
    induction n generalizing s with
    | zero => cases hn
    | succ n ih =>
      rw [iterO_succ] at hn
      rw [loopO_eq]
      revert hn
      rcases step s with (s' | r') | m | m <;> intro hn
      · exact ih hn
      · rw [Outcome.bind_ok] at hn ⊢
        simpa using hn
      · cases hn
      · cases hn

theorem measurable_picked (ws : List ℝ) (num : ℕ) (S sel : List ℕ) : MeasurableSet {ω | picked ws num S ω = .ok sel} := by
  have key : ∀ n k S, MeasurableSet {ω : ℕ → ℝ | iterO (selectRound ω (cumulative 0 ws) ws.sum num) n (k, S) = .ok (.inr sel)} := by
    intro n
    induction n with
    | zero => intro k S; simp [iterO]
    | succ n ih =>
      intro k S
      have e : {ω : ℕ → ℝ | iterO (selectRound ω (cumulative 0 ws) ws.sum num) (n + 1) (k, S) = .ok (.inr sel)} =
          ⋃ i : ℕ, ({ω : ℕ → ℝ | idx ws (ω k) = i} ∩ if num ≤ (addPos S i).length then {_ω | addPos S i = sel}
            else {ω : ℕ → ℝ | iterO (selectRound ω (cumulative 0 ws) ws.sum num) n (k + 1, addPos S i) = .ok (.inr sel)}) := by
        ext ω
        simp only [Set.mem_iUnion, Set.mem_inter_iff, Set.mem_ofPred_eq, exists_eq_left']
        have h1 : selectRound ω (cumulative 0 ws) ws.sum num (k, S) =
            if num ≤ (addPos S (idx ws (ω k))).length then .ok (.inr (addPos S (idx ws (ω k))))
            else .ok (.inl (k + 1, addPos S (idx ws (ω k)))) := rfl
        rw [iterO_succ, h1]
        split_ifs with h
        · simp
        · rfl
      rw [e]
      refine MeasurableSet.iUnion fun i => MeasurableSet.inter ?_ ?_
      · exact ((measurable_idx ws).comp (measurable_pi_apply k)) (measurableSet_singleton i)
      · split_ifs
        · exact MeasurableSet.const _
        · exact ih _ _
  have : {ω | picked ws num S ω = .ok sel} =
      ⋃ n, {ω : ℕ → ℝ | iterO (selectRound ω (cumulative 0 ws) ws.sum num) n (0, S) = .ok (.inr sel)} := by
    ext ω
    simp only [Set.mem_iUnion, Set.mem_ofPred_eq]
    exact loopO_ok_iff
  rw [this]
  exact MeasurableSet.iUnion fun n => key n 0 S

/-- What is selected already stays. -/
theorem picked_suffix {ws : List ℝ} {num : ℕ} {S sel : List ℕ} {ω : ℕ → ℝ} (h : picked ws num S ω = .ok sel) :
    S <:+ sel := by
  refine loopO_inv (I := fun s : ℕ × List ℕ => S <:+ s.2) (Q := fun r => S <:+ r) ?_ ?_ (List.suffix_refl S) h
  all_goals
    intro s s' hs h
    have h : (if num ≤ (addPos s.2 (idx ws (ω s.1))).length then Outcome.ok (Sum.inr (addPos s.2 (idx ws (ω s.1))))
        else Outcome.ok (Sum.inl (s.1 + 1, addPos s.2 (idx ws (ω s.1))))) = _ := h
    have hsuf : S <:+ addPos s.2 (idx ws (ω s.1)) := by
      unfold addPos
      split_ifs
      · exact hs
      · exact hs.trans (List.suffix_cons _ _)
    by_cases hn : num ≤ (addPos s.2 (idx ws (ω s.1))).length
    · rw [if_pos hn] at h
      cases h <;> exact hsuf
    · rw [if_neg hn] at h
      cases h <;> exact hsuf

theorem sum_weightAt (ws : List ℝ) : ∑ i ∈ Finset.range ws.length, weightAt ws i = ws.sum := by
  rw [Finset.sum_range, ← List.sum_ofFn]
  congr 1
  apply List.ext_getElem
  · simp
  · intro i h1 h2
    simp [weightAt]

theorem sum_selected {ws : List ℝ} {S : List ℕ} (hnd : S.Nodup) (hlt : ∀ i ∈ S, i < ws.length) :
    ∑ i ∈ Finset.range ws.length, (if i ∈ S then weightAt ws i else 0) = (S.map (weightAt ws)).sum := by
  classical
  rw [← List.sum_toFinset _ hnd, ← Finset.sum_filter]
  refine Finset.sum_congr ?_ fun _ _ => rfl
  ext i
  simp only [Finset.mem_filter, Finset.mem_range, List.mem_toFinset]
  exact ⟨fun h => h.2, fun h => ⟨hlt i h, h⟩⟩

section
variable {ws : List ℝ} (hpos : ∀ w ∈ ws, 0 < w) (hne : ws ≠ [])
include hpos

theorem weightAt_pos {i : ℕ} (hi : i < ws.length) : 0 < weightAt ws i := by
  have : weightAt ws i = ws[i] := by simp [weightAt, hi]
  rw [this]
  exact hpos _ (List.getElem_mem hi)

theorem selected_lt {S : List ℕ} {i : ℕ} (hnd : (i :: S).Nodup) (hlt : ∀ j ∈ i :: S, j < ws.length) :
    (S.map (weightAt ws)).sum < ws.sum := by
  have h1 := sum_selected hnd hlt
  rw [List.map_cons, List.sum_cons] at h1
  have h2 : ∑ j ∈ Finset.range ws.length, (if j ∈ i :: S then weightAt ws j else 0) ≤ ws.sum := by
    rw [← sum_weightAt]
    refine Finset.sum_le_sum fun j hj => ?_
    split_ifs
    · exact le_rfl
    · exact (weightAt_pos hpos (Finset.mem_range.1 hj)).le
  have := weightAt_pos hpos (hlt i (by simp))
  linarith

include hne

/-- Averaging over the first number, in real numbers. -/
theorem uniformStream_first_real {A : Set (ℕ → ℝ)} (hA : MeasurableSet A) {B : ℕ → Set (ℕ → ℝ)}
    (hAB : ∀ u ω, consS u ω ∈ A ↔ ω ∈ B (idx ws u)) :
    uniformStream.real A = ∑ i ∈ Finset.range ws.length, weightAt ws i / ws.sum * uniformStream.real (B i) := by
  have hsum : 0 < ws.sum := List.sum_pos _ hpos hne
  rw [Measure.real, uniformStream_first hpos hne hA hAB, ENNReal.toReal_sum, Finset.sum_range]
  · refine Finset.sum_congr rfl fun i _ => ?_
    have h0 : (0 : ℝ) ≤ ws[i] / ws.sum := div_nonneg (hpos _ (List.getElem_mem i.2)).le hsum.le
    rw [ENNReal.toReal_mul, ENNReal.toReal_ofReal h0]
    have : weightAt ws i = ws[i] := by simp [weightAt]
    rw [this]
    rfl
  · intro i _
    exact ENNReal.mul_ne_top ENNReal.ofReal_ne_top (measure_ne_top _ _)

/-- The probability that the loop selects the positions `l` one after the other. -/
theorem picked_prob {num : ℕ} (l : List ℕ) (hl : l ≠ []) (S : List ℕ) (hnd : (l ++ S).Nodup)
    (hlt : ∀ i ∈ l ++ S, i < ws.length) (hlen : l.length + S.length = num) :
    uniformStream.real {ω | picked ws num S ω = .ok (l.reverse ++ S)} =
      successive (weightAt ws) (ws.sum - (S.map (weightAt ws)).sum) l := by
  classical
  induction l generalizing S with
  | nil => exact absurd rfl hl
  | cons i l ih =>
    have hsum : 0 < ws.sum := List.sum_pos _ hpos hne
    obtain ⟨hi, hnd'⟩ := List.nodup_cons.1 (show (i :: (l ++ S)).Nodup from hnd)
    have hiS : i ∉ S := fun h => hi (List.mem_append_right _ h)
    have hSnd : S.Nodup := (List.nodup_append.1 hnd').2.1
    have hiSnd : (i :: S).Nodup := List.nodup_cons.2 ⟨hiS, hSnd⟩
    have hSlt : ∀ j ∈ i :: S, j < ws.length := fun j hj => hlt j (by
      rcases List.mem_cons.1 hj with rfl | hj
      · simp
      · exact List.mem_append_right _ hj)
    have hperm : (l ++ i :: S).Perm (i :: l ++ S) := List.perm_middle
    set sel := (i :: l).reverse ++ S with hsel
    have hsel' : sel = l.reverse ++ (i :: S) := by simp [hsel]
    set A := {ω | picked ws num S ω = .ok sel} with hA
    set A' : Set (ℕ → ℝ) := if l = [] then Set.univ else {ω | picked ws num (i :: S) ω = .ok sel} with hA'
    have hq : uniformStream.real A' = successive (weightAt ws) (ws.sum - ((i :: S).map (weightAt ws)).sum) l := by
      by_cases h : l = []
      · rw [hA', if_pos h, h]
        simp [successive]
      · rw [hA', if_neg h, hsel']
        refine ih h (i :: S) (hperm.nodup_iff.2 hnd) (fun j hj => hlt j (hperm.mem_iff.1 hj)) ?_
        simp only [List.length_cons] at hlen ⊢
        omega
    have hfirst := uniformStream_first_real hpos hne (A := A)
      (B := fun n => if n ∈ S then A else if n = i then A' else ∅) (measurable_picked ws num S sel) (by
        intro u ω
        show picked ws num S (consS u ω) = .ok sel ↔ _
        rw [picked_cons]
        generalize idx ws u = n
        simp only [List.length_cons] at hlen
        by_cases h1 : n ∈ S
        · simp only [addPos, if_pos h1]
          rw [if_neg (by omega)]
          exact Iff.rfl
        · simp only [addPos, if_neg h1, List.length_cons]
          by_cases h2 : n = i
          · subst h2
            rw [if_pos rfl, hA']
            by_cases h3 : l = []
            · rw [if_pos h3, if_pos (by rw [h3] at hlen; simp at hlen; omega), hsel', h3]
              simp
            · have : 0 < l.length := List.length_pos_iff.2 h3
              rw [if_neg h3, if_neg (by omega)]
              exact Iff.rfl
          · rw [if_neg h2]
            simp only [Set.mem_empty_iff_false, iff_false]
            have hno : ¬ (n :: S) <:+ sel := by
              intro h
              have h' : (i :: S) <:+ sel := by rw [hsel']; exact List.suffix_append _ _
              have := List.suffix_of_suffix_length_le h h' (by simp)
              have := this.eq_of_length (by simp)
              exact h2 (List.cons.inj this).1
            split_ifs with h3
            · intro h
              rw [Outcome.ok.injEq] at h
              exact hno (h ▸ List.suffix_refl _)
            · exact fun h => hno (picked_suffix h))
    have hsplit : ∀ n ∈ Finset.range ws.length, weightAt ws n / ws.sum *
        uniformStream.real (if n ∈ S then A else if n = i then A' else ∅) =
        (if n ∈ S then weightAt ws n else 0) * (uniformStream.real A / ws.sum) +
          (if n = i then weightAt ws i / ws.sum * uniformStream.real A' else 0) := by
      intro n _
      by_cases h1 : n ∈ S
      · have h2 : n ≠ i := fun h => hiS (h ▸ h1)
        rw [if_pos h1, if_pos h1, if_neg h2]
        ring
      · rw [if_neg h1, if_neg h1]
        by_cases h2 : n = i
        · rw [if_pos h2, if_pos h2, h2]; ring
        · rw [if_neg h2, if_neg h2]; simp
    rw [Finset.sum_congr rfl hsplit, Finset.sum_add_distrib, ← Finset.sum_mul,
      sum_selected hSnd (fun j hj => hSlt j (List.mem_cons_of_mem _ hj)), Finset.sum_ite_eq', if_pos
      (Finset.mem_range.2 (hSlt i (by simp))), hq] at hfirst
    have hgt := selected_lt hpos hiSnd hSlt
    have e : ws.sum - (S.map (weightAt ws)).sum - weightAt ws i = ws.sum - ((i :: S).map (weightAt ws)).sum := by
      rw [List.map_cons, List.sum_cons]; ring
    rw [successive, e]
    generalize successive (weightAt ws) (ws.sum - ((i :: S).map (weightAt ws)).sum) l = q at hfirst ⊢
    generalize (S.map (weightAt ws)).sum = t at hfirst hgt ⊢
    have hd : ws.sum - t ≠ 0 := sub_ne_zero.2 hgt.ne'
    rw [div_mul_eq_mul_div, eq_div_iff hd]
    have : uniformStream.real A * ws.sum = t * uniformStream.real A + weightAt ws i * q := by
      conv_lhs => rw [hfirst]
      field_simp
    linarith

/-- The loop ends with probability 1 if it does from every larger selection. -/
theorem picked_ends_step {num : ℕ} (S : List ℕ) (hnd : S.Nodup) (hlt : ∀ i ∈ S, i < ws.length)
    (hS : S.length < num ∧ S.length < ws.length) (hnext : ∀ n < ws.length, n ∉ S → num ≤ S.length + 1 ∨
      uniformStream.real {ω | ∃ sel, picked ws num (n :: S) ω = .ok sel} = 1) :
    uniformStream.real {ω | ∃ sel, picked ws num S ω = .ok sel} = 1 := by
  classical
  have hsum : 0 < ws.sum := List.sum_pos _ hpos hne
  set A := {ω | ∃ sel, picked ws num S ω = .ok sel} with hA
  have hm : MeasurableSet A := by
    have : A = ⋃ sel, {ω | picked ws num S ω = .ok sel} := by ext ω; simp [hA]
    rw [this]
    exact MeasurableSet.iUnion fun sel => measurable_picked ws num S sel
  set A' : ℕ → Set (ℕ → ℝ) := fun n => if num ≤ S.length + 1 then Set.univ
    else {ω | ∃ sel, picked ws num (n :: S) ω = .ok sel} with hA'
  have hfirst := uniformStream_first_real hpos hne (A := A) (B := fun n => if n ∈ S then A else A' n) hm (by
    intro u ω
    show (∃ sel, picked ws num S (consS u ω) = .ok sel) ↔ _
    simp only [picked_cons]
    generalize idx ws u = n
    by_cases h1 : n ∈ S
    · simp only [addPos, if_pos h1]
      rw [if_neg (by omega)]
      exact Iff.rfl
    · simp only [addPos, if_neg h1, List.length_cons, hA']
      by_cases h2 : num ≤ S.length + 1
      · simp [if_pos h2]
      · rw [if_neg h2, if_neg h2]
        exact Iff.rfl)
  have hone : ∀ n < ws.length, n ∉ S → uniformStream.real (A' n) = 1 := by
    intro n hn hnS
    rw [hA']
    by_cases h2 : num ≤ S.length + 1
    · simp [if_pos h2]
    · simp only [if_neg h2]
      exact (hnext n hn hnS).resolve_left h2
  have hsplit : ∀ n ∈ Finset.range ws.length, weightAt ws n / ws.sum * uniformStream.real (if n ∈ S then A else A' n) =
      weightAt ws n / ws.sum + (if n ∈ S then weightAt ws n else 0) * ((uniformStream.real A - 1) / ws.sum) := by
    intro n hn
    by_cases h1 : n ∈ S
    · rw [if_pos h1, if_pos h1]; ring
    · rw [if_neg h1, if_neg h1, hone n (Finset.mem_range.1 hn) h1]; ring
  rw [Finset.sum_congr rfl hsplit, Finset.sum_add_distrib, ← Finset.sum_mul, sum_selected hnd hlt, ← Finset.sum_div,
    sum_weightAt, div_self hsum.ne'] at hfirst
  obtain ⟨i, hi, hiS⟩ : ∃ i < ws.length, i ∉ S := by
    by_contra h
    push Not at h
    have h1 : Finset.range ws.length ⊆ S.toFinset := fun i hi => List.mem_toFinset.2 (h i (Finset.mem_range.1 hi))
    have := Finset.card_le_card h1
    rw [Finset.card_range] at this
    have := List.toFinset_card_le S
    omega
  have hgt := selected_lt hpos (List.nodup_cons.2 ⟨hiS, hnd⟩) (by
    intro j hj
    rcases List.mem_cons.1 hj with rfl | hj
    · exact hi
    · exact hlt j hj)
  generalize (S.map (weightAt ws)).sum = t at hfirst hgt
  generalize uniformStream.real A = x at hfirst
  have h : (x - 1) * (ws.sum - t) = 0 := by
    field_simp at hfirst
    linarith
  rcases mul_eq_zero.1 h with h | h <;> linarith

/-- The loop ends with probability 1. -/
theorem picked_ends {num : ℕ} (hnum : num ≤ ws.length) (S : List ℕ) (hnd : S.Nodup) (hlt : ∀ i ∈ S, i < ws.length)
    (hS : S.length < num) : uniformStream.real {ω | ∃ sel, picked ws num S ω = .ok sel} = 1 := by
  classical
  obtain ⟨d, hd⟩ : ∃ d, num = S.length + 1 + d := ⟨num - S.length - 1, by omega⟩
  induction d generalizing S with
  | zero => exact picked_ends_step hpos hne S hnd hlt (by omega) fun n _ _ => .inl (by omega)
  | succ d ih =>
    refine picked_ends_step hpos hne S hnd hlt (by omega) fun n hn hnS => .inr ?_
    refine ih (n :: S) (List.nodup_cons.2 ⟨hnS, hnd⟩) ?_ (by simp; omega) (by simp; omega)
    intro j hj
    rcases List.mem_cons.1 hj with rfl | hj
    · exact hn
    · exact hlt j hj

/-- The positions selected exist. -/
theorem picked_lt {num : ℕ} {S sel : List ℕ} {ω : ℕ → ℝ} (hω : ∀ k, ω k ∈ Set.Ico (0 : ℝ) 1) (hlt : ∀ i ∈ S, i < ws.length)
    (h : picked ws num S ω = .ok sel) : ∀ i ∈ sel, i < ws.length := by
  have hsum : 0 < ws.sum := List.sum_pos _ hpos hne
  refine loopO_inv (I := fun s : ℕ × List ℕ => ∀ i ∈ s.2, i < ws.length) (Q := fun r => ∀ i ∈ r, i < ws.length) ?_ ?_ hlt h
  all_goals
    intro s s' hs h
    have h : (if num ≤ (addPos s.2 (idx ws (ω s.1))).length then Outcome.ok (Sum.inr (addPos s.2 (idx ws (ω s.1))))
        else Outcome.ok (Sum.inl (s.1 + 1, addPos s.2 (idx ws (ω s.1))))) = _ := h
    have hin : ∀ i ∈ addPos s.2 (idx ws (ω s.1)), i < ws.length := by
      unfold addPos
      split_ifs
      · exact hs
      · intro i hi
        rcases List.mem_cons.1 hi with rfl | hi
        · refine lowerBound_lt hne ?_
          have := mul_lt_mul_of_pos_right (hω s.1).2 hsum
          linarith
        · exact hs i hi
    by_cases hn : num ≤ (addPos s.2 (idx ws (ω s.1))).length
    · rw [if_pos hn] at h
      cases h <;> exact hin
    · rw [if_neg hn] at h
      cases h <;> exact hin

end

/-- All numbers of the stream lie in [0, 1). -/
theorem uniformStream_mem : ∀ᵐ ω ∂uniformStream, ∀ k, ω k ∈ Set.Ico (0 : ℝ) 1 := by
  rw [ae_all_iff]
  intro k
  have h := (measurePreserving_eval_infinitePi (fun _ : ℕ => volume.restrict (Set.Ico (0 : ℝ) 1)) k).quasiMeasurePreserving.ae
    (p := fun u => u ∈ Set.Ico (0 : ℝ) 1) (ae_restrict_mem measurableSet_Ico)
  exact h

end Sampler
end Mcl3dl
