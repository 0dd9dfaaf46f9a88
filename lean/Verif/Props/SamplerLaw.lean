import Verif.Proofs.SamplerLaw

/-!
# C167: the law of the normal-weighted sampler
-/

set_option linter.unusedSectionVars false

namespace Mcl3dl
namespace Sampler

open MeasureTheory

theorem axisWeight_eq (p : Params ℝ) (e1 e2 : ℝ) :
    axisWeight p e1 e2 = if e1 = 0 then p.maxWeight else maxWeightOf p (Real.sqrt (e2 / e1)) := rfl

theorem weights_eq (p : Params ℝ) (st : Stats ℝ) (normals : List (Option (Vec3 ℝ))) :
    weights p st normals = normals.map (pointWeight (axisWeight p st.eval1 st.eval2) (st.meanRot.inv.rotate st.evec2)) := by
  unfold weights
  refine List.map_congr_left fun n _ => ?_
  cases n with
  | none => rfl
  | some n =>
    rw [pointWeight_some]
    have : Real.pi / 2 ≠ 0 := by positivity
    simp only [faces, facing, sub_div, div_self this]

section
variable {H P : Type} {p : Params ℝ} {st : Stats ℝ} (hrot : st.meanRot.dot st.meanRot = 1)
  {normalsOf : List P → List (Option (Vec3 ℝ))} (hnormals : ∀ l, (normalsOf l).length = l.length)
  {order : List ℕ → List ℕ} (horder : ∀ l, (order l).Perm l)
  (hmax : 1 ≤ p.maxWeight) (hr : p.performWeightingRatio < p.maxWeightRatio)
  (he1 : 0 ≤ st.eval1) (he2 : 0 < st.eval2) {pc : Cloud H P} {num : ℕ} (hnum : 0 < num) (hlen : num < pc.points.length)
include hrot hmax hr he1 he2 hnormals hnum hlen

theorem weights_pos : ∀ w ∈ weights p st (normalsOf pc.points), 0 < w := by
  intro w hw
  have hm : 1 ≤ if st.eval1 = 0 then p.maxWeight else maxWeightOf p (Real.sqrt (st.eval2 / st.eval1)) := by
    split_ifs
    · exact hmax
    · exact (maxWeightOf_mem hmax hr _).1
  rw [weights_eq] at hw
  rw [← axisWeight_eq] at hm
  obtain ⟨n, -, rfl⟩ := List.mem_map.1 hw
  cases n with
  | none => exact one_pos
  | some n =>
    rw [pointWeight_some]
    have := (facing_mem (st.meanRot.inv.rotate st.evec2) n).1
    nlinarith

theorem weights_length : (weights p st (normalsOf pc.points)).length = pc.points.length := by
  rw [weights, List.length_map, hnormals]

theorem sample_picked (canon : ℕ → ℝ) :
    sampleWithNormal (finP p) (some (finS st)) (fun l => (normalsOf l).map (Option.map finV))
      (fun k => .fin (canon k)) order pc num =
    (picked (weights p st (normalsOf pc.points)) num [] canon).bind fun sel =>
      (pick pc.points (order sel)).bind fun ps => .ok ⟨pc.header, ps⟩ := by
  have hwl := weights_length hrot hnormals hmax hr he1 he2 hnum hlen (pc := pc)
  unfold sampleWithNormal
  rw [if_neg (by omega), if_neg (by omega)]
  simp only [cumulativeWeights]
  have e1 : (finS st).eval1 = .fin st.eval1 := rfl
  have e2 : (finS st).eval2 = .fin st.eval2 := rfl
  have e3 : (finS st).meanRot = finQ st.meanRot := rfl
  have e4 : (finS st).evec2 = finV st.evec2 := rfl
  have hm : maxWeightOf (finP p) (Transc.sqrt (XR.fin st.eval2 / XR.fin st.eval1)) =
      .fin (axisWeight p st.eval1 st.eval2) := by
    rw [axisWeight_eq]
    rcases he1.eq_or_lt with h | h
    · rw [if_pos h.symm, ← h, XR.fin_div_zero_pos _ he2]
      unfold maxWeightOf
      have ha : ¬ Transc.sqrt XR.pinf < (finP p).performWeightingRatio := fun h => h
      have hb : (finP p).maxWeightRatio < Transc.sqrt XR.pinf := trivial
      rw [if_neg ha, if_pos hb]; rfl
    · rw [if_neg h.ne', XR.fin_div _ _ h.ne', XR.transc_sqrt, XR.sqrt_fin _ (by positivity)]
      have hd : p.maxWeightRatio - p.performWeightingRatio ≠ 0 := by linarith
      unfold maxWeightOf
      simp only [finP, XR.fin_lt, XR.one_def, XR.fin_sub, XR.fin_div _ _ hd, XR.fin_mul, XR.fin_add]
      split_ifs <;> rfl
  rw [e1, e2, e3, e4, hm, finQ_inv _ hrot, finQ_rotate]
  have hmap : ((normalsOf pc.points).map (Option.map finV)).map
      (pointWeight (XR.fin (axisWeight p st.eval1 st.eval2))
        (finV (st.meanRot.inv.rotate st.evec2))) = (weights p st (normalsOf pc.points)).map XR.fin := by
    rw [weights_eq, List.map_map, List.map_map]
    apply List.map_congr_left
    intro n _
    exact fin_pointWeight _ _ n
  rw [hmap, XR.zero_def, fin_cumulative]
  have hback : (cumulative 0 (weights p st (normalsOf pc.points))).getLast? = some (weights p st (normalsOf pc.points)).sum := by
    have hcl := cumulative_length (weights p st (normalsOf pc.points)) 0
    rw [List.getLast?_eq_getElem?, hcl, List.getElem?_eq_getElem (by omega), cumulative_get]
    rw [show (weights p st (normalsOf pc.points)).length - 1 + 1 = (weights p st (normalsOf pc.points)).length by omega,
      List.take_length, zero_add]
  rw [List.getLast?_map, hback]
  simp only [Option.map_some, fin_selectRound]
  rfl

include horder

/-- The points handed out are those at the selected positions. -/
theorem sample_iff (hnd : pc.points.Nodup) {T : Finset ℕ} (hT : ∀ i ∈ T, i < pc.points.length) (canon : ℕ → ℝ) :
    (∃ out, sampleWithNormal (finP p) (some (finS st)) (fun l => (normalsOf l).map (Option.map finV))
      (fun k => .fin (canon k)) order pc num = .ok out ∧
      ∀ i (h : i < pc.points.length), pc.points[i] ∈ out.points ↔ i ∈ T) ↔
    ∃ l ∈ T.toList.permutations, picked (weights p st (normalsOf pc.points)) num [] canon = .ok l.reverse := by
  classical
  rw [sample_picked hrot hnormals hmax hr he1 he2 hnum hlen]
  have hmem : ∀ {ids : List ℕ} {ps : List P}, pick pc.points ids = .ok ps →
      (∀ j ∈ ids, j < pc.points.length) ∧ ∀ i (h : i < pc.points.length), pc.points[i] ∈ ps ↔ i ∈ ids := by
    intro ids ps h
    have hf := pick_ok ids h
    clear h
    induction hf with
    | nil => simp
    | @cons j q ids ps hj _ ih =>
      obtain ⟨hjl, hjq⟩ := List.getElem?_eq_some_iff.1 hj
      refine ⟨?_, fun i hi => ?_⟩
      · intro k hk
        rcases List.mem_cons.1 hk with rfl | hk
        · exact hjl
        · exact ih.1 k hk
      · rw [List.mem_cons, List.mem_cons, ih.2 i hi, ← hjq, hnd.getElem_inj_iff]
  constructor
  · rintro ⟨out, hout, hiff⟩
    obtain ⟨sel, hsel, hout⟩ := DDA.bind_eq_ok hout
    obtain ⟨ps, hps, hout⟩ := DDA.bind_eq_ok hout
    cases hout
    obtain ⟨h1, h2⟩ := hmem hps
    refine ⟨sel.reverse, ?_, by rw [List.reverse_reverse]; exact hsel⟩
    rw [List.mem_permutations]
    refine (List.reverse_perm sel).trans ?_
    rw [List.perm_ext_iff_of_nodup (select_result hnum hsel).1 T.nodup_toList]
    intro i
    rw [Finset.mem_toList]
    constructor
    · intro hi
      have hi' := (horder sel).mem_iff.2 hi
      exact (hiff i (h1 i hi')).1 ((h2 i (h1 i hi')).2 hi')
    · intro hi
      exact (horder sel).mem_iff.1 ((h2 i (hT i hi)).1 ((hiff i (hT i hi)).2 hi))
  · rintro ⟨l, hl, hp⟩
    rw [List.mem_permutations] at hl
    have hin : ∀ i, i ∈ order l.reverse ↔ i ∈ T := by
      intro i
      rw [(horder _).mem_iff, List.mem_reverse, hl.mem_iff, Finset.mem_toList]
    obtain ⟨ps, hps⟩ := pick_exists pc.points (order l.reverse) fun i hi => hT i ((hin i).1 hi)
    refine ⟨⟨pc.header, ps⟩, by rw [hp, Outcome.bind_ok, hps]; rfl, fun i hi => ?_⟩
    rw [← hin]
    exact (hmem hps).2 i hi

/-- C167: the probability that the sampler hands out exactly the points at the positions `T` is the probability of
drawing them one after the other without replacement, each time with a probability proportional to the weight. -/
theorem C167_law (hnd : pc.points.Nodup) {T : Finset ℕ} (hT : ∀ i ∈ T, i < pc.points.length) (hcard : T.card = num) :
    uniformStream.real {canon | ∃ out, sampleWithNormal (finP p) (some (finS st))
        (fun l => (normalsOf l).map (Option.map finV)) (fun k => .fin (canon k)) order pc num = .ok out ∧
        ∀ i (h : i < pc.points.length), pc.points[i] ∈ out.points ↔ i ∈ T} =
      drawProb (weightAt (weights p st (normalsOf pc.points))) (weights p st (normalsOf pc.points)).sum T := by
  classical
  have hpos := weights_pos hrot hnormals hmax hr he1 he2 hnum hlen (pc := pc)
  have hwl := weights_length hrot hnormals hmax hr he1 he2 hnum hlen (pc := pc)
  simp only [sample_iff hrot hnormals horder hmax hr he1 he2 hnum hlen hnd hT]
  generalize weights p st (normalsOf pc.points) = ws at hpos hwl ⊢
  have hne : ws ≠ [] := by rintro rfl; simp at hwl; omega
  have hset : {canon : ℕ → ℝ | ∃ l ∈ T.toList.permutations, picked ws num [] canon = .ok l.reverse} =
      ⋃ l ∈ T.toList.permutations.toFinset, {canon | picked ws num [] canon = .ok l.reverse} := by
    ext canon
    simp
  rw [hset, measureReal_biUnion_finset]
  · rw [List.sum_toFinset _ (List.nodup_permutations _ T.nodup_toList), drawProb]
    congr 1
    refine List.map_congr_left fun l hl => ?_
    rw [List.mem_permutations] at hl
    have hll : l.length = num := by rw [hl.length_eq, Finset.length_toList, hcard]
    have := picked_prob hpos hne (num := num) l (by rintro rfl; simp at hll; omega) [] (by simpa using hl.nodup_iff.2 T.nodup_toList)
      (by
        intro i hi
        rw [List.append_nil, hl.mem_iff, Finset.mem_toList] at hi
        rw [hwl]; exact hT i hi) (by simpa using hll)
    simpa using this
  · intro l _ l' _ hne
    rw [Function.onFun, Set.disjoint_left]
    intro canon h h'
    rw [Set.mem_ofPred_eq] at h h'
    rw [h, Outcome.ok.injEq] at h'
    exact hne (List.reverse_injective h')
  · intro l _
    exact measurable_picked ws num [] l.reverse

/-- C167: a single point is chosen with a probability proportional to its weight. -/
theorem C167_single (hnd : pc.points.Nodup) {i : ℕ} (hi : i < pc.points.length) (hone : num = 1) :
    uniformStream.real {canon | ∃ out, sampleWithNormal (finP p) (some (finS st))
        (fun l => (normalsOf l).map (Option.map finV)) (fun k => .fin (canon k)) order pc num = .ok out ∧
        out.points = [pc.points[i]]} =
      weightAt (weights p st (normalsOf pc.points)) i / (weights p st (normalsOf pc.points)).sum := by
  classical
  have h := C167_law hrot hnormals horder hmax hr he1 he2 hnum hlen hnd (T := {i}) (by simpa using hi) (by simp [hone])
  rw [drawProb, Finset.toList_singleton] at h
  have hperm : List.permutations [i] = [[i]] := by
    obtain ⟨x, hx⟩ := List.length_eq_one_iff.1 (show (List.permutations [i]).length = 1 by rw [List.length_permutations]; rfl)
    have : [i] ∈ List.permutations [i] := List.mem_permutations.2 (List.Perm.refl _)
    rw [hx, List.mem_singleton] at this
    rw [hx, this]
  simp only [hperm, List.map_cons, List.map_nil, List.sum_cons, List.sum_nil, successive,
    mul_one, add_zero] at h
  rw [← h]
  congr 1
  ext canon
  simp only [Set.mem_ofPred_eq]
  refine exists_congr fun out => and_congr_right fun hout => ?_
  rw [sample_picked hrot hnormals hmax hr he1 he2 hnum hlen] at hout
  obtain ⟨sel, hsel, hout⟩ := DDA.bind_eq_ok hout
  obtain ⟨ps, hps, hout⟩ := DDA.bind_eq_ok hout
  cases hout
  have hl : ps.length = 1 := by
    rw [← (pick_ok _ hps).length_eq, (horder sel).length_eq, (select_result hnum hsel).2, hone]
  obtain ⟨x, hx⟩ := List.length_eq_one_iff.1 hl
  subst hx
  show [x] = [pc.points[i]] ↔ ∀ j (h : j < pc.points.length), pc.points[j] ∈ [x] ↔ j ∈ ({i} : Finset ℕ)
  simp only [List.cons.injEq, and_true, List.mem_singleton, Finset.mem_singleton]
  constructor
  · rintro rfl j hj
    exact hnd.getElem_inj_iff
  · intro h
    exact ((h i hi).2 rfl).symm

/-- C167: the sampler returns with probability 1. -/
theorem C167_returns :
    uniformStream.real {canon | (sampleWithNormal (finP p) (some (finS st))
        (fun l => (normalsOf l).map (Option.map finV)) (fun k => .fin (canon k)) order pc num).isOk = true} = 1 := by
  have hpos := weights_pos hrot hnormals hmax hr he1 he2 hnum hlen (pc := pc)
  have hwl := weights_length hrot hnormals hmax hr he1 he2 hnum hlen (pc := pc)
  simp only [sample_picked hrot hnormals hmax hr he1 he2 hnum hlen]
  generalize weights p st (normalsOf pc.points) = ws at hpos hwl ⊢
  have hne : ws ≠ [] := by rintro rfl; simp at hwl; omega
  have h1 := picked_ends hpos hne (num := num) (by omega) [] List.nodup_nil (by simp) (by simpa using hnum)
  rw [← h1]
  refine measureReal_congr ?_
  filter_upwards [uniformStream_mem] with canon hcanon
  refine propext ?_
  show Outcome.isOk _ = true ↔ ∃ sel, picked ws num [] canon = .ok sel
  constructor
  · intro h
    revert h
    rcases picked ws num [] canon with sel | m | m <;> intro h
    · exact ⟨sel, rfl⟩
    · cases h
    · cases h
  · rintro ⟨sel, hsel⟩
    rw [hsel, Outcome.bind_ok]
    obtain ⟨ps, hps⟩ := pick_exists pc.points (order sel) (by
      intro i hi
      rw [(horder _).mem_iff] at hi
      rw [← hwl]; exact picked_lt hpos hne hcanon (by simp) hsel i hi)
    rw [hps]; rfl

end

/-- The parameters of the example. -/
def exP : Params ℝ := ⟨2, 5, 3⟩

/-- The particles of the example are spread along the x axis. -/
def exStats : Stats ℝ := ⟨⟨0, 0, 0, 1⟩, 1, 49, ⟨1, 0, 0⟩⟩

/-- The normals of the example: the point 10 faces the x axis, the point 20 the y axis, the point 30 has no normal. -/
def exNormals (l : List ℕ) : List (Option (Vec3 ℝ)) :=
  l.map fun x => if x = 10 then some ⟨1, 0, 0⟩ else if x = 20 then some ⟨0, 1, 0⟩ else none

/-- The points of the example. -/
def exCloud : Cloud Unit ℕ := ⟨(), [10, 20, 30]⟩

theorem ex_weights : weights exP exStats (exNormals exCloud.points) = [3, 1, 1] := by
  have h1 : axisWeight exP exStats.eval1 exStats.eval2 = 3 := by
    have : Real.sqrt 49 = 7 := by rw [show (49 : ℝ) = 7 ^ 2 by norm_num, Real.sqrt_sq (by norm_num)]
    norm_num [axisWeight, exP, exStats, this]
  have h2 : exStats.meanRot.inv.rotate exStats.evec2 = ⟨1, 0, 0⟩ := by
    rw [Vec3.ext_iff]
    norm_num [exStats, Quat.inv, Quat.rotate_x, Quat.rotate_y, Quat.rotate_z, Quat.dot, Quat.conj, Quat.sdiv]
  have h3 : Real.pi / 2 ≠ 0 := by positivity
  unfold weights
  rw [h1, h2]
  norm_num [exNormals, exCloud, faces, div_self h3]

/-- Example: of three points, one of which faces the principal axis and has the maximal weight of 3, a single one is
drawn: the point facing the axis with probability 3/5. -/
example : uniformStream.real {canon | ∃ out, sampleWithNormal (finP exP) (some (finS exStats))
    (fun l => (exNormals l).map (Option.map finV)) (fun k => .fin (canon k)) id exCloud 1 = .ok out ∧ out.points = [10]} = 3 / 5 := by
  have := C167_single (p := exP) (st := exStats) (by norm_num [exStats, Quat.dot]) (normalsOf := exNormals) (fun l => by simp [exNormals])
    (order := id) (fun l => List.Perm.refl l) (by norm_num [exP]) (by norm_num [exP]) (by norm_num [exStats]) (by norm_num [exStats])
    (pc := exCloud) (num := 1) (by norm_num) (by decide) (by decide) (i := 0) (by decide) rfl
  rw [ex_weights] at this
  refine this.trans ?_
  norm_num [weightAt]

theorem drawProb_eq {T : Finset ℕ} {l : List ℕ} (h : l.Perm T.toList) (w : ℕ → ℝ) (W : ℝ) :
    drawProb w W T = (l.permutations'.map (successive w W)).sum := by
  unfold drawProb
  exact ((h.symm.permutations.trans (List.permutations_perm_permutations' l)).map _).sum_eq

/-- Example: two of the three points are drawn; the first two with probability 3/5 · 1/2 + 1/5 · 3/4 = 9/20. -/
example : uniformStream.real {canon | ∃ out, sampleWithNormal (finP exP) (some (finS exStats))
    (fun l => (exNormals l).map (Option.map finV)) (fun k => .fin (canon k)) id exCloud 2 = .ok out ∧
      ∀ i (h : i < exCloud.points.length), exCloud.points[i] ∈ out.points ↔ i ∈ ({0, 1} : Finset ℕ)} = 9 / 20 := by
  have := C167_law (p := exP) (st := exStats) (by norm_num [exStats, Quat.dot]) (normalsOf := exNormals) (fun l => by simp [exNormals])
    (order := id) (fun l => List.Perm.refl l) (by norm_num [exP]) (by norm_num [exP]) (by norm_num [exStats]) (by norm_num [exStats])
    (pc := exCloud) (num := 2) (by norm_num) (by decide) (by decide) (T := {0, 1}) (by decide) rfl
  rw [ex_weights] at this
  refine this.trans ?_
  rw [drawProb_eq (l := [0, 1])]
  · norm_num [List.permutations', List.permutations'Aux, successive, weightAt]
  · rw [List.perm_ext_iff_of_nodup (by decide) (Finset.nodup_toList _)]
    simp

/-- Example: the sampler returns with probability 1. -/
example : uniformStream.real {canon | (sampleWithNormal (finP exP) (some (finS exStats))
    (fun l => (exNormals l).map (Option.map finV)) (fun k => .fin (canon k)) id exCloud 2).isOk = true} = 1 :=
  C167_returns (p := exP) (st := exStats) (by norm_num [exStats, Quat.dot]) (normalsOf := exNormals) (fun l => by simp [exNormals])
    (order := id) (fun l => List.Perm.refl l) (by norm_num [exP]) (by norm_num [exP]) (by norm_num [exStats]) (by norm_num [exStats])
    (pc := exCloud) (num := 2) (by norm_num) (by decide)

end Sampler
end Mcl3dl
