import Verif.Spec.MapLocal
import Verif.Props.Smooth

/-! # C178: what the likelihood field takes from the map -/

set_option linter.unusedSectionVars false

namespace Mcl3dl
namespace Lidar

open Classical

variable {A : Type}

theorem nearestSq_mono {map map' : List (Vec3 ℝ)} (h : map ⊆ map') (w q : Vec3 ℝ) : nearestSq map' w q ≤ nearestSq map w q := by
  cases e : nearestSq map w q with
  | top => exact le_top
  | coe x =>
    obtain ⟨m, hm, hx⟩ := List.mem_map.1 (List.minimum_mem e)
    rw [← hx]
    exact List.minimum_le_of_mem' (List.mem_map_of_mem (h hm))

/-- Below the radius the nearest distances of maps that agree nearby are the same. -/
theorem nearestSq_agree {map map' : List (Vec3 ℝ)} {w q : Vec3 ℝ} {d : ℝ} (h : AgreeNear map map' w d q)
    (hlt : nearestSq map w q < ((d ^ 2 : ℝ) : WithTop ℝ)) : nearestSq map' w q = nearestSq map w q := by
  obtain ⟨x, hx⟩ := WithTop.ne_top_iff_exists.1 (ne_top_of_lt hlt)
  obtain ⟨m, hm, hmx⟩ := List.mem_map.1 (List.minimum_mem hx.symm)
  rw [← hx, WithTop.coe_lt_coe, ← hmx] at hlt
  have hle : nearestSq map' w q ≤ ((x : ℝ) : WithTop ℝ) := by
    rw [← hmx]; exact List.minimum_le_of_mem' (List.mem_map_of_mem ((h m hlt).1 hm))
  rw [← hx]
  obtain ⟨y, hy⟩ := WithTop.ne_top_iff_exists.1 (ne_top_of_le_ne_top WithTop.coe_ne_top hle)
  obtain ⟨m', hm', hmy⟩ := List.mem_map.1 (List.minimum_mem hy.symm)
  rw [← hy, WithTop.coe_le_coe] at hle
  have : nearestSq map w q ≤ ((y : ℝ) : WithTop ℝ) := by
    rw [← hmy]
    refine List.minimum_le_of_mem' (List.mem_map_of_mem ((h m' ?_).2 hm'))
    rw [hmy]; exact lt_of_le_of_lt hle (hmx ▸ hlt)
  rw [← hx, WithTop.coe_le_coe] at this
  rw [← hy, le_antisymm hle this]

theorem AgreeNear.symm {map map' : List (Vec3 ℝ)} {w q : Vec3 ℝ} {d : ℝ} (h : AgreeNear map map' w d q) : AgreeNear map' map w d q :=
  fun m hm => (h m hm).symm

theorem point_agree (p : LikeParams) {map map' : List (Vec3 ℝ)} {w q : Vec3 ℝ} (h : AgreeNear map map' w p.matchDistMin q) :
    gain p (nearestSq map' w q) = gain p (nearestSq map w q) ∧ matched p (nearestSq map' w q) = matched p (nearestSq map w q) := by
  by_cases h1 : nearestSq map w q < ((p.matchDistMin ^ 2 : ℝ) : WithTop ℝ)
  · rw [nearestSq_agree h h1]; exact ⟨rfl, rfl⟩
  · by_cases h2 : nearestSq map' w q < ((p.matchDistMin ^ 2 : ℝ) : WithTop ℝ)
    · rw [nearestSq_agree h.symm h2]; exact ⟨rfl, rfl⟩
    · unfold gain matched
      rw [if_neg (fun hh => h2 hh.1), if_neg (fun hh => h1 hh.1), if_neg (fun hh => h2 hh.1), if_neg (fun hh => h1 hh.1)]
      exact ⟨rfl, rfl⟩

theorem seen_mem {s : State6 ℝ} {pc : List (Pt ℝ A)} {q : Pt ℝ A} (hq : q ∈ s.transform pc) : q.pos ∈ seenFrom s pc := by
  unfold State6.transform at hq
  obtain ⟨x, hx, rfl⟩ := List.mem_map.1 hq
  exact List.mem_map_of_mem (f := fun q : Pt ℝ A => s.rot.normalized.rotate q.pos + s.pos) hx

/-- **C178**: two maps that have the same points within `match_dist_min` of the points of the scan give the same likelihood
and the same match ratio, so that points farther away, repetitions and the order of the map points do not matter. -/
theorem C178_local {l l' : Like} {p : LikeParams} (hl : Like.Reach p l) (hl' : Like.Reach p l') (h0 : 0 ≤ p.matchDistMin)
    {search search' : Vec3 ℝ → ℝ → Outcome (List (ℕ × ℝ))} {map map' : List (Vec3 ℝ)} {w : Vec3 ℝ}
    (hs : ExactAt map w search p.matchDistMin) (hs' : ExactAt map' w search' p.matchDistMin) {pc : List (Pt ℝ A)}
    (s : State6 ℝ) (h : ∀ q ∈ seenFrom s pc, AgreeNear map map' w p.matchDistMin q) :
    l'.measure search' (some pc) s = l.measure search (some pc) s := by
  by_cases hne : pc = []
  · subst hne; rw [(C71_empty l search s).2, (C71_empty l' search' s).2]
  · rw [C71_score hl h0 hs hne s, C71_score hl' h0 hs' hne s]
    have e1 : ((s.transform pc).map fun q => gain p (nearestSq map' w q.pos)) = (s.transform pc).map fun q => gain p (nearestSq map w q.pos) :=
      List.map_congr_left fun q hq => (point_agree p (h q.pos (seen_mem hq))).1
    have e2 : ((s.transform pc).map fun q => matched p (nearestSq map' w q.pos)) = (s.transform pc).map fun q => matched p (nearestSq map w q.pos) :=
      List.map_congr_left fun q hq => (point_agree p (h q.pos (seen_mem hq))).2
    rw [e1, e2]

theorem matched_antitone (p : LikeParams) {d e : WithTop ℝ} (h : d ≤ e) : matched p e ≤ matched p d := by
  unfold matched
  split_ifs with h1 h2 h2
  · exact le_rfl
  · exact absurd ⟨lt_of_le_of_lt h h1.1, h1.2⟩ h2
  · exact Nat.zero_le _
  · exact le_rfl

/-- **C178**: more map points never lower the likelihood or the match ratio of a scan, and raise the likelihood by at most
`match_weight · (match_dist_min - match_dist_flat)` for each scan point that has one of the new points within
`match_dist_min`. -/
theorem C178_more {l l' : Like} {p : LikeParams} (hl : Like.Reach p l) (hl' : Like.Reach p l') (h0 : 0 ≤ p.matchDistMin)
    (hw : 0 ≤ p.matchWeight)
    {search search' : Vec3 ℝ → ℝ → Outcome (List (ℕ × ℝ))} {map map' : List (Vec3 ℝ)} {w : Vec3 ℝ} (hsub : map ⊆ map')
    (hs : ExactAt map w search p.matchDistMin) (hs' : ExactAt map' w search' p.matchDistMin) {pc : List (Pt ℝ A)}
    (hne : pc ≠ []) (s : State6 ℝ) {res res' : Result} (hm : l.measure search (some pc) s = .ok res)
    (hm' : l'.measure search' (some pc) s = .ok res') :
    res.likelihood ≤ res'.likelihood ∧ res.quality ≤ res'.quality ∧
    res'.likelihood ≤ res.likelihood + howMany (fun q => ¬ AgreeNear map map' w p.matchDistMin q) (seenFrom s pc) *
      (p.matchWeight * max 0 (p.matchDistMin - p.matchDistFlat)) := by
  have q1 := C71_score hl h0 hs hne s
  have q2 := C71_score hl' h0 hs' hne s
  rw [hm] at q1; rw [hm'] at q2
  simp only [Outcome.ok.injEq] at q1 q2
  have hcount : ∀ qs : List (Vec3 ℝ), (qs.map fun q => gain p (nearestSq map w q)).sum ≤ (qs.map fun q => gain p (nearestSq map' w q)).sum ∧
      (qs.map fun q => gain p (nearestSq map' w q)).sum ≤ (qs.map fun q => gain p (nearestSq map w q)).sum +
        howMany (fun q => ¬ AgreeNear map map' w p.matchDistMin q) qs * (p.matchWeight * max 0 (p.matchDistMin - p.matchDistFlat)) := by
    intro qs
    induction qs with
    | nil => simp [howMany]
    | cons q qs ih =>
      have hle := gain_antitone hw h0 (nearestSq_mono hsub w q)
      simp only [List.map_cons, List.sum_cons, howMany, List.countP_cons] at ih ⊢
      refine ⟨by linarith [ih.1], ?_⟩
      by_cases ha : AgreeNear map map' w p.matchDistMin q
      · rw [(point_agree p ha).1]
        simp only [ha, not_true_eq_false, decide_false, Bool.false_eq_true, if_false, add_zero]
        linarith [ih.2]
      · have g1 := gain_mem hw h0 (nearestSq map' w q)
        have g2 := gain_mem hw h0 (nearestSq map w q)
        simp only [ha, not_false_eq_true, decide_true, if_true, Nat.cast_add, Nat.cast_one, add_mul, one_mul]
        linarith [ih.2, g1.2, g2.1]
  have k := hcount (seenFrom s pc)
  rw [← seen_gains hl h0 hs hne s hm, ← seen_gains hl' h0 hs' hne s hm'] at k
  refine ⟨k.1, ?_, k.2⟩
  rw [q1, q2]
  simp only
  refine div_le_div_of_nonneg_right ?_ (Nat.cast_nonneg _)
  rw [Nat.cast_le]
  generalize s.transform pc = qs
  induction qs with
  | nil => simp
  | cons q qs ih =>
    simp only [List.map_cons, List.sum_cons]
    have := matched_antitone p (nearestSq_mono hsub w q.pos)
    omega

/-! ## Non-vacuity -/

/-- C178 applied: one scan point at the origin, a map point 0.1 away; a repeated and a far map point change nothing; a map
point at the origin raises the likelihood from 0.5 to 0.75 (`match_weight` 5, distances 0.2 and 0.05). -/
example : ∃ (search search1 search2 : Vec3 ℝ → ℝ → Outcome (List (ℕ × ℝ))) (r r1 r2 : Result),
    (Like.make smoothParams).measure search (some [(⟨⟨0, 0, 0⟩, 0⟩ : Pt ℝ ℕ)]) (poseAt 0) = .ok r ∧
    (Like.make smoothParams).measure search1 (some [(⟨⟨0, 0, 0⟩, 0⟩ : Pt ℝ ℕ)]) (poseAt 0) = .ok r1 ∧
    (Like.make smoothParams).measure search2 (some [(⟨⟨0, 0, 0⟩, 0⟩ : Pt ℝ ℕ)]) (poseAt 0) = .ok r2 ∧
    r1 = r ∧ r.likelihood ≤ r2.likelihood ∧ r2.likelihood ≤ r.likelihood + 1 * (5 * 0.15) := by
  obtain ⟨search, hs⟩ := KDRay.exactSearch_exists [⟨0.1, 0, 0⟩] ⟨1, 1, 1⟩
  obtain ⟨search1, hs1⟩ := KDRay.exactSearch_exists [⟨7, 0, 0⟩, ⟨0.1, 0, 0⟩, ⟨0.1, 0, 0⟩] ⟨1, 1, 1⟩
  obtain ⟨search2, hs2⟩ := KDRay.exactSearch_exists [⟨0.1, 0, 0⟩, ⟨0, 0, 0⟩] ⟨1, 1, 1⟩
  have h0 : 0 ≤ smoothParams.matchDistMin := by norm_num [smoothParams]
  have hw : 0 ≤ smoothParams.matchWeight := by norm_num [smoothParams]
  have e0 : ExactAt [⟨0.1, 0, 0⟩] ⟨1, 1, 1⟩ search smoothParams.matchDistMin := fun q => hs q _
  have e1 : ExactAt [⟨7, 0, 0⟩, ⟨0.1, 0, 0⟩, ⟨0.1, 0, 0⟩] ⟨1, 1, 1⟩ search1 smoothParams.matchDistMin := fun q => hs1 q _
  have e2 : ExactAt [⟨0.1, 0, 0⟩, ⟨0, 0, 0⟩] ⟨1, 1, 1⟩ search2 smoothParams.matchDistMin := fun q => hs2 q _
  have m0 := C71_score (Like.Reach.make (p := smoothParams)) h0 e0 (pc := [(⟨⟨0, 0, 0⟩, 0⟩ : Pt ℝ ℕ)]) (by simp) (poseAt 0)
  have m2 := C71_score (Like.Reach.make (p := smoothParams)) h0 e2 (pc := [(⟨⟨0, 0, 0⟩, 0⟩ : Pt ℝ ℕ)]) (by simp) (poseAt 0)
  have sn : seenFrom (poseAt 0) [(⟨⟨0, 0, 0⟩, 0⟩ : Pt ℝ ℕ)] = [⟨0, 0, 0⟩] := by
    simp only [seenFrom, List.map_cons, List.map_nil, poseAt_point]; norm_num
  have m1 := C178_local (Like.Reach.make (p := smoothParams)) (Like.Reach.make (p := smoothParams)) h0 e0 e1
    (pc := [(⟨⟨0, 0, 0⟩, 0⟩ : Pt ℝ ℕ)]) (poseAt 0) (by
      intro q hq m hd
      rw [sn, List.mem_singleton] at hq
      subst hq
      simp only [List.mem_cons, List.not_mem_nil, or_false]
      constructor
      · intro h; exact Or.inr (Or.inl h)
      · rintro (h | h | h)
        · subst h; norm_num [weightedDist, smoothParams] at hd
        · exact h
        · exact h)
  have more := C178_more (Like.Reach.make (p := smoothParams)) (Like.Reach.make (p := smoothParams)) h0 hw
    (map := [⟨0.1, 0, 0⟩]) (map' := [⟨0.1, 0, 0⟩, ⟨0, 0, 0⟩]) (by intro x hx; simp at hx; simp [hx]) e0 e2 (by simp) (poseAt 0) m0 m2
  refine ⟨search, search1, search2, _, _, _, m0, m1.trans m0, m2, rfl, more.1, more.2.2.trans ?_⟩
  gcongr
  · rw [sn]; norm_num [howMany, List.countP_cons]
    split_ifs <;> norm_num
  · norm_num [smoothParams]
  · norm_num [smoothParams]

end Lidar
end Mcl3dl
