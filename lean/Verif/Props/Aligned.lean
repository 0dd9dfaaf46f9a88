import Verif.Spec.Aligned
import Verif.Props.LidarLike
import Verif.Props.Concentrate

/-! # C157: the likelihood field is highest where the scan lies on the map -/

set_option linter.unusedSectionVars false

namespace Mcl3dl
namespace Lidar

open Classical

variable {A : Type}

theorem near_iff (map : List (Vec3 ℝ)) (w q : Vec3 ℝ) (d : ℝ) :
    Near map w d q ↔ nearestSq map w q ≤ ((d ^ 2 : ℝ) : WithTop ℝ) := by
  constructor
  · rintro ⟨m, hm, h⟩
    exact le_trans (List.minimum_le_of_mem' (List.mem_map_of_mem hm)) (WithTop.coe_le_coe.2 h)
  · intro h
    obtain ⟨x, hx⟩ := WithTop.ne_top_iff_exists.1 (ne_top_of_le_ne_top (WithTop.coe_ne_top) h)
    obtain ⟨m, hm, hmx⟩ := List.mem_map.1 (List.minimum_mem hx.symm)
    refine ⟨m, hm, ?_⟩
    rw [← hx, WithTop.coe_le_coe, ← hmx] at h
    exact h

theorem gain_near {p : LikeParams} (h0 : 0 ≤ p.matchDistFlat) (h1 : p.matchDistFlat < p.matchDistMin) {map : List (Vec3 ℝ)}
    {w q : Vec3 ℝ} (h : Near map w p.matchDistFlat q) :
    gain p (nearestSq map w q) = p.matchWeight * (p.matchDistMin - p.matchDistFlat) ∧ matched p (nearestSq map w q) = 1 := by
  have hle := (near_iff map w q _).1 h
  have hlt : ((p.matchDistFlat ^ 2 : ℝ) : WithTop ℝ) < ((p.matchDistMin ^ 2 : ℝ) : WithTop ℝ) := by
    rw [WithTop.coe_lt_coe]; nlinarith
  have hc := And.intro (lt_of_le_of_lt hle hlt) h1.le
  obtain ⟨x, hx⟩ := WithTop.ne_top_iff_exists.1 (ne_top_of_lt hc.1)
  unfold gain matched
  rw [if_pos hc, if_pos hc, ← hx]
  rw [← hx, WithTop.coe_le_coe] at hle
  have hs : Real.sqrt x ≤ p.matchDistFlat := by rw [Real.sqrt_le_left h0]; exact hle
  rw [WithTop.untopD_coe, max_eq_right hs]
  exact ⟨rfl, rfl⟩

/-- A point farther than `flat + δ` from the map loses at least `weight * δ`. -/
theorem gain_far {p : LikeParams} (hw : 0 ≤ p.matchWeight) {δ : ℝ}
    (h1 : p.matchDistFlat + δ ≤ p.matchDistMin) {map : List (Vec3 ℝ)} {w q : Vec3 ℝ}
    (h : ¬ Near map w (p.matchDistFlat + δ) q) :
    gain p (nearestSq map w q) ≤ p.matchWeight * (p.matchDistMin - p.matchDistFlat) - p.matchWeight * δ := by
  rw [near_iff, not_le] at h
  unfold gain
  split_ifs with hc
  · obtain ⟨x, hx⟩ := WithTop.ne_top_iff_exists.1 (ne_top_of_lt hc.1)
    rw [← hx, WithTop.coe_lt_coe] at h
    rw [← hx, WithTop.untopD_coe]
    have hs : p.matchDistFlat + δ ≤ Real.sqrt x := by
      apply Real.le_sqrt_of_sq_le h.le
    have := le_max_left (Real.sqrt x) p.matchDistFlat
    rw [← mul_sub]
    exact mul_le_mul_of_nonneg_left (by linarith) hw
  · rw [← mul_sub]
    exact mul_nonneg hw (by linarith)

/-- Strictly less for a point that is not within the flat range. -/
theorem gain_lt {p : LikeParams} (hw : 0 < p.matchWeight) (h1 : p.matchDistFlat < p.matchDistMin)
    {map : List (Vec3 ℝ)} {w q : Vec3 ℝ} (h : ¬ Near map w p.matchDistFlat q) :
    gain p (nearestSq map w q) < p.matchWeight * (p.matchDistMin - p.matchDistFlat) := by
  rw [near_iff, not_le] at h
  unfold gain
  split_ifs with hc
  · obtain ⟨x, hx⟩ := WithTop.ne_top_iff_exists.1 (ne_top_of_lt hc.1)
    rw [← hx, WithTop.coe_lt_coe] at h
    rw [← hx, WithTop.untopD_coe]
    have hs : p.matchDistFlat < Real.sqrt x := Real.lt_sqrt_of_sq_lt h
    have := le_max_left (Real.sqrt x) p.matchDistFlat
    exact mul_lt_mul_of_pos_left (by linarith) hw
  · exact mul_pos hw (by linarith)

theorem gain_le {p : LikeParams} (hw : 0 ≤ p.matchWeight) (h0 : 0 ≤ p.matchDistFlat) (h1 : p.matchDistFlat < p.matchDistMin)
    (d : WithTop ℝ) : 0 ≤ gain p d ∧ gain p d ≤ p.matchWeight * (p.matchDistMin - p.matchDistFlat) := by
  have h := gain_mem hw (h0.trans h1.le) d
  rwa [max_eq_right (by linarith)] at h

/-- **C157**: among all poses the likelihood of a scan is at most one fixed value, and the poses that reach it are exactly
those from which every point lies within the flat range of a map point; the match ratio is then 1. -/
theorem C157_best {l : Like} {p : LikeParams} (hl : Like.Reach p l) (h0 : 0 ≤ p.matchDistFlat)
    (h1 : p.matchDistFlat < p.matchDistMin) (hw : 0 < p.matchWeight)
    {search : Vec3 ℝ → ℝ → Outcome (List (ℕ × ℝ))} {map : List (Vec3 ℝ)} {w : Vec3 ℝ}
    (hs : ExactAt map w search p.matchDistMin) {pc : List (Pt ℝ A)} (hne : pc ≠ []) (s : State6 ℝ) {res : Result}
    (hm : l.measure search (some pc) s = .ok res) :
    res.likelihood ≤ pc.length * (p.matchWeight * (p.matchDistMin - p.matchDistFlat)) ∧
    (res.likelihood = pc.length * (p.matchWeight * (p.matchDistMin - p.matchDistFlat)) ↔ OnMap map w p.matchDistFlat s pc) ∧
    (OnMap map w p.matchDistFlat s pc → res.quality = 1) := by
  have hmin : 0 ≤ p.matchDistMin := h0.trans h1.le
  rw [C71_score hl hmin hs hne] at hm
  cases hm
  simp only [State6.transform, List.map_map]
  set G := p.matchWeight * (p.matchDistMin - p.matchDistFlat) with hG
  have hlen : (0 : ℝ) < pc.length := by exact_mod_cast List.length_pos_iff.2 hne
  have key : ∀ l : List (Pt ℝ A), (l.map ((fun q : Pt ℝ A => gain p (nearestSq map w q.pos)) ∘
        fun q => { q with pos := s.rot.normalized.rotate q.pos + s.pos })).sum ≤ l.length * G ∧
      ((l.map ((fun q : Pt ℝ A => gain p (nearestSq map w q.pos)) ∘
        fun q => { q with pos := s.rot.normalized.rotate q.pos + s.pos })).sum = l.length * G ↔
        OnMap map w p.matchDistFlat s l) := by
    intro l
    induction l with
    | nil => simp [OnMap]
    | cons q l ih =>
      simp only [List.map_cons, List.sum_cons, List.length_cons, Function.comp, Nat.cast_add, Nat.cast_one]
      have hle := (gain_le hw.le h0 h1 (nearestSq map w (s.rot.normalized.rotate q.pos + s.pos))).2
      refine ⟨by linarith [ih.1], ?_, ?_⟩
      · intro h
        have e2 := ih.2.1 (le_antisymm ih.1 (by linarith))
        intro x hx
        rcases List.mem_cons.1 hx with rfl | hx
        · by_contra hn
          have := gain_lt hw h1 hn
          linarith [ih.1]
        · exact e2 x hx
      · intro h
        have e1 := (gain_near h0 h1 (h q List.mem_cons_self)).1
        have e2 := ih.2.2 fun x hx => h x (List.mem_cons_of_mem _ hx)
        rw [e1, e2]; ring
  refine ⟨(key pc).1, (key pc).2, ?_⟩
  intro h
  have hc : ∀ l : List (Pt ℝ A), OnMap map w p.matchDistFlat s l →
      (l.map ((fun q : Pt ℝ A => matched p (nearestSq map w q.pos)) ∘
        fun q => { q with pos := s.rot.normalized.rotate q.pos + s.pos })).sum = l.length := by
    intro l
    induction l with
    | nil => intro _; rfl
    | cons q l ih =>
      intro h
      simp only [List.map_cons, List.sum_cons, List.length_cons]
      rw [ih fun x hx => h x (List.mem_cons_of_mem _ hx)]
      have := (gain_near h0 h1 (h q List.mem_cons_self)).2
      simp only [Function.comp]
      rw [this]; omega
  rw [hc pc h, div_self hlen.ne']

/-- **C157**: every point that is more than `δ` beyond the flat range costs at least `match_weight * δ`. -/
theorem C157_gap {l : Like} {p : LikeParams} (hl : Like.Reach p l) (h0 : 0 ≤ p.matchDistFlat)
    (h1 : p.matchDistFlat < p.matchDistMin) (hw : 0 < p.matchWeight)
    {search : Vec3 ℝ → ℝ → Outcome (List (ℕ × ℝ))} {map : List (Vec3 ℝ)} {w : Vec3 ℝ}
    (hs : ExactAt map w search p.matchDistMin) {pc : List (Pt ℝ A)} (hne : pc ≠ []) (s : State6 ℝ) {res : Result}
    (hm : l.measure search (some pc) s = .ok res) {δ : ℝ} (h2 : p.matchDistFlat + δ ≤ p.matchDistMin) :
    0 ≤ res.likelihood ∧
    res.likelihood ≤ pc.length * (p.matchWeight * (p.matchDistMin - p.matchDistFlat)) -
      offMap map w (p.matchDistFlat + δ) s pc * (p.matchWeight * δ) := by
  have hmin : 0 ≤ p.matchDistMin := h0.trans h1.le
  refine ⟨(C71_bounds hl hmin hw.le hs hne s hm).1, ?_⟩
  rw [C71_score hl hmin hs hne] at hm
  cases hm
  simp only [State6.transform, List.map_map, offMap]
  set G := p.matchWeight * (p.matchDistMin - p.matchDistFlat) with hG
  clear hne
  induction pc with
  | nil => simp
  | cons q l ih =>
    simp only [List.map_cons, List.sum_cons, List.length_cons, Function.comp, Nat.cast_add, Nat.cast_one, List.countP_cons]
    by_cases hq : Near map w (p.matchDistFlat + δ) (s.rot.normalized.rotate q.pos + s.pos)
    · have hle := (gain_le hw.le h0 h1 (nearestSq map w (s.rot.normalized.rotate q.pos + s.pos))).2
      simp only [hq, not_true_eq_false, decide_false, Bool.false_eq_true, if_false, Nat.cast_zero, add_zero]
      linarith
    · have hle := gain_far hw.le h2 hq
      simp only [hq, not_false_eq_true, decide_true, if_true, Nat.cast_one]
      linarith

/-- **C157**: stationary robot, scans that lie on the map as seen from the pose of particle `j`, while from the pose of
every other particle at least the fraction `κ` of the points is more than `δ` beyond the flat range.  Each scan, weighed
with the likelihood field, shrinks the weight of the others relative to `j` at least by `1 - κ δ / (min - flat)`; the weight
of `j` tends to 1, and from some scan on `max` returns the pose of `j`. -/
theorem C157_converges {l : Like} {p : LikeParams} (hl : Like.Reach p l) (h0 : 0 ≤ p.matchDistFlat)
    (h1 : p.matchDistFlat < p.matchDistMin) (hw : 0 < p.matchWeight)
    {search : Vec3 ℝ → ℝ → Outcome (List (ℕ × ℝ))} {map : List (Vec3 ℝ)} {w : Vec3 ℝ}
    (hs : ExactAt map w search p.matchDistMin) {δ κ : ℝ} (hδ : 0 < δ) (h2 : p.matchDistFlat + δ ≤ p.matchDistMin)
    (hκ : 0 < κ) (hκ1 : κ ≤ 1) (scan : ℕ → List (Pt ℝ A)) (hne : ∀ n, scan n ≠ []) (res : ℕ → State6 ℝ → Result)
    (hm : ∀ n s, l.measure search (some (scan n)) s = .ok (res n s))
    (log : ℝ → ℝ) (f : PF.Filter (State6 ℝ) ℝ) {j : ℕ} (hj : j < f.particles.length)
    (hnn : ∀ q ∈ f.particles, 0 ≤ q.prob) (hp : 0 < f.particles[j].prob)
    (hon : ∀ n, OnMap map w p.matchDistFlat f.particles[j].state (scan n))
    (hoff : ∀ n, ∀ i (hi : i < f.particles.length), i ≠ j →
      κ * (scan n).length ≤ offMap map w (p.matchDistFlat + δ) f.particles[i].state (scan n)) :
    (∀ n, PF.Favours f.particles ⟨j, hj⟩ (1 - κ * δ / (p.matchDistMin - p.matchDistFlat)) fun s => (res n s).likelihood) ∧
    Filter.Tendsto (fun n => ((f.measureAll log ((List.range n).map fun k s => (res k s).likelihood)).particles[j]?.map
      PF.Particle.prob).getD 0) Filter.atTop (nhds 1) ∧
    ∀ᶠ n in Filter.atTop, (f.measureAll log ((List.range n).map fun k s => (res k s).likelihood)).max =
      .ok f.particles[j].state := by
  have hD : 0 < p.matchDistMin - p.matchDistFlat := by linarith
  have hfrac : 0 < κ * δ / (p.matchDistMin - p.matchDistFlat) := div_pos (mul_pos hκ hδ) hD
  have hfrac1 : κ * δ / (p.matchDistMin - p.matchDistFlat) ≤ 1 := by
    rw [div_le_one hD]; nlinarith
  have hfav : ∀ n, PF.Favours f.particles ⟨j, hj⟩ (1 - κ * δ / (p.matchDistMin - p.matchDistFlat))
      fun s => (res n s).likelihood := by
    intro n
    have hlen : (0 : ℝ) < (scan n).length := by exact_mod_cast List.length_pos_iff.2 (hne n)
    have hbest := ((C157_best hl h0 h1 hw hs (hne n) f.particles[j].state (hm n _)).2.1).2 (hon n)
    refine ⟨?_, ?_⟩
    · simp only [Fin.getElem_fin]
      rw [hbest]; positivity
    · intro i hij
      simp only [Fin.getElem_fin]
      have hg := C157_gap hl h0 h1 hw hs (hne n) f.particles[i].state (hm n _) h2
      refine ⟨hg.1, hg.2.trans ?_⟩
      rw [hbest]
      have ho := hoff n i i.2 fun h => hij (Fin.ext h)
      simp only [Fin.getElem_fin] at ho ⊢
      have := mul_le_mul_of_nonneg_right ho (mul_pos hw hδ).le
      have e : (1 - κ * δ / (p.matchDistMin - p.matchDistFlat)) * ((scan n).length *
          (p.matchWeight * (p.matchDistMin - p.matchDistFlat))) = (scan n).length *
          (p.matchWeight * (p.matchDistMin - p.matchDistFlat)) - κ * (scan n).length * (p.matchWeight * δ) := by
        field_simp
      rw [e]; linarith
  refine ⟨hfav, ?_⟩
  exact PF.C155_limit log (by linarith) (by linarith) (fun n s => (res n s).likelihood) f hj hnn hp hfav

/-! ## Non-vacuity -/

/-- A pose without rotation. -/
noncomputable def poseAt (x : ℝ) : State6 ℝ := { State6.default with pos := ⟨x, 0, 0⟩ }

theorem poseAt_point (x : ℝ) (v : Vec3 ℝ) : (poseAt x).rot.normalized.rotate v + (poseAt x).pos = ⟨v.x + x, v.y, v.z⟩ := by
  have hn : (1 : Quat ℝ).normalized = 1 := Quat.C31_normalized_unit 1 (by simp [Quat.dot])
  have hr : ∀ v : Vec3 ℝ, (1 : Quat ℝ).rotate v = v := fun v => (Quat.C29_one 1 v).2.2
  have h1 : (poseAt x).rot = 1 := rfl
  rw [h1, hn, hr]
  ext
  · rfl
  · exact add_zero _
  · exact add_zero _

/-- C157 applied: two map points at x = 0 and x = 3, a scan of two points at x = 1 and x = 4, and the particles at
x = -1 (where the scan lies on the map) and x = 0 (where both points are 1 away from it). -/
example : ∃ search : Vec3 ℝ → ℝ → Outcome (List (ℕ × ℝ)),
    let map : List (Vec3 ℝ) := [⟨0, 0, 0⟩, ⟨3, 0, 0⟩]
    let scan : List (Pt ℝ ℕ) := [⟨⟨1, 0, 0⟩, 0⟩, ⟨⟨4, 0, 0⟩, 0⟩]
    ExactAt map ⟨1, 1, 1⟩ search (1 / 2) ∧ OnMap map ⟨1, 1, 1⟩ (1 / 20) (poseAt (-1)) scan ∧
    offMap map ⟨1, 1, 1⟩ (1 / 20 + 1 / 4) (poseAt 0) scan = 2 := by
  obtain ⟨search, hs⟩ := KDRay.exactSearch_exists [⟨0, 0, 0⟩, ⟨3, 0, 0⟩] ⟨1, 1, 1⟩
  refine ⟨search, fun q => hs q _, ?_, ?_⟩
  · intro q hq
    rw [poseAt_point]
    simp only [List.mem_cons, List.not_mem_nil, or_false] at hq
    rcases hq with rfl | rfl
    · exact ⟨⟨0, 0, 0⟩, by simp, by norm_num [weightedDist]⟩
    · exact ⟨⟨3, 0, 0⟩, by simp, by norm_num [weightedDist]⟩
  · have h1 : ¬ Near [⟨0, 0, 0⟩, ⟨3, 0, 0⟩] ⟨1, 1, 1⟩ (1 / 20 + 1 / 4) ⟨1, 0, 0⟩ := by
      rintro ⟨m, hm, h⟩
      simp only [List.mem_cons, List.not_mem_nil, or_false] at hm
      rcases hm with rfl | rfl <;> norm_num [weightedDist] at h
    have h2 : ¬ Near [⟨0, 0, 0⟩, ⟨3, 0, 0⟩] ⟨1, 1, 1⟩ (1 / 20 + 1 / 4) ⟨4, 0, 0⟩ := by
      rintro ⟨m, hm, h⟩
      simp only [List.mem_cons, List.not_mem_nil, or_false] at hm
      rcases hm with rfl | rfl <;> norm_num [weightedDist] at h
    unfold offMap
    simp only [List.countP_cons, List.countP_nil, poseAt_point, add_zero, h1, h2, not_false_eq_true, decide_true, if_true]

end Lidar
end Mcl3dl
