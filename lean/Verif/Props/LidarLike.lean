import Verif.Spec.Lidar
import Verif.Props.KDRay
import Verif.Props.LidarBeam
import Verif.Model.XR
import Verif.Props.QuatAlgebra
import Mathlib.Algebra.Order.Floor.Semifield

set_option linter.unusedSectionVars false

/-! # C69, C70, C71: clip filter, number of points, likelihood-field model -/

namespace Mcl3dl
namespace Lidar

/-! ## C69 -/

/-- The point is in the clip range. -/
def InRange (c : Clip ℝ) (p : Vec3 ℝ) : Prop :=
  c.near ≤ Real.sqrt (p.x ^ 2 + p.y ^ 2) ∧ Real.sqrt (p.x ^ 2 + p.y ^ 2) ≤ c.far ∧
  c.zMin ≤ p.z ∧ p.z ≤ c.zMax

theorem rejected_iff {c : Clip ℝ} (hn : 0 ≤ c.near) (hf : 0 ≤ c.far) (p : Vec3 ℝ) :
    (!rejected c (c.near * c.near) (c.far * c.far) p) = true ↔ InRange c p := by
  have e : p.x * p.x + p.y * p.y = p.x ^ 2 + p.y ^ 2 := by ring
  have h0 : 0 ≤ p.x ^ 2 + p.y ^ 2 := by positivity
  have h1 : Real.sqrt (p.x ^ 2 + p.y ^ 2) ≤ c.far ↔ p.x ^ 2 + p.y ^ 2 ≤ c.far * c.far := by
    rw [Real.sqrt_le_left hf, sq c.far]
  have h2 : c.near ≤ Real.sqrt (p.x ^ 2 + p.y ^ 2) ↔ c.near * c.near ≤ p.x ^ 2 + p.y ^ 2 := by
    rw [← sq c.near, ← Real.sqrt_le_sqrt_iff h0, Real.sqrt_sq hn]
  unfold rejected InRange
  rw [e, h1, h2]
  split_ifs with a1 a2 a3
  · simp; intro _ h; linarith
  · simp; intro h; linarith
  · simp; intro _ _ h; rcases a3 with h' | h' <;> linarith
  · push Not at a1 a2 a3
    simp [a1, a2, a3]

open Classical in
/-- C69: both models pass to the sampler exactly the points in the clip range, in the original order,
and ask for the number of points in effect. -/
theorem C69_filter {A R : Type} (sampler : List (Pt ℝ A) → ℕ → R) (pc : List (Pt ℝ A)) :
    (∀ (p : BeamParams) (b : Beam), Beam.Reach p b → 0 ≤ p.clip.near → 0 ≤ p.clip.far →
      b.filter sampler pc = sampler (pc.filter fun x => decide (InRange p.clip x.pos)) b.numPoints) ∧
    (∀ (p : LikeParams) (l : Like), Like.Reach p l → 0 ≤ p.clip.near → 0 ≤ p.clip.far →
      l.filter sampler pc = sampler (pc.filter fun x => decide (InRange p.clip x.pos)) l.numPoints) := by
  have key : ∀ c : Clip ℝ, 0 ≤ c.near → 0 ≤ c.far →
      (pc.filter fun p => !rejected c (c.near * c.near) (c.far * c.far) p.pos) =
      pc.filter fun x => decide (InRange c x.pos) := by
    intro c hn hf
    apply List.filter_congr
    intro x _
    rw [Bool.eq_iff_iff, rejected_iff hn hf]; simp
  constructor
  · intro p b hb hn hf
    have hbp : b.params = p ∧ b.clipNearSq = p.clip.near * p.clip.near ∧ b.clipFarSq = p.clip.far * p.clip.far := by
      induction hb with
      | make => exact ⟨rfl, rfl, rfl⟩
      | set _ _ _ ih => exact ih
    unfold Beam.filter Lidar.filter
    rw [hbp.1, hbp.2.1, hbp.2.2, key _ hn hf]
  · intro p b hb hn hf
    have hbp : b.params = p ∧ b.clipNearSq = p.clip.near * p.clip.near ∧ b.clipFarSq = p.clip.far * p.clip.far := by
      induction hb with
      | make => exact ⟨rfl, rfl, rfl⟩
      | set _ _ _ ih => exact ih
    unfold Like.filter Lidar.filter
    rw [hbp.1, hbp.2.1, hbp.2.2, key _ hn hf]

/-- C69 for points that are not numbers: a point all of whose coordinates are NaN passes any
clip range. -/
theorem C69_nan_passes {A R : Type} (a : A) (c : Clip XR) (nearSq farSq : XR) (n : ℕ)
    (sampler : List (Pt XR A) → ℕ → R) :
    Lidar.filter c nearSq farSq n sampler [⟨⟨.nan, .nan, .nan⟩, a⟩] =
      sampler [⟨⟨.nan, .nan, .nan⟩, a⟩] n := by
  unfold Lidar.filter rejected
  simp

/-- C69 applied: the range 1..10 m, height -1..1 m keeps the middle point of three. -/
example : (Beam.make { exParams with clip := ⟨1, 10, -1, 1⟩ }).filter (fun l n => (l, n))
    [⟨⟨0, 0, 0⟩, 0⟩, ⟨⟨3, 4, 0⟩, 1⟩, ⟨⟨3, 4, 2⟩, 2⟩] = (([⟨⟨3, 4, 0⟩, 1⟩] : List (Pt ℝ ℕ)), 4) := by
  rw [(C69_filter _ _).1 _ _ .make (by norm_num) (by norm_num)]
  have h5 : Real.sqrt ((3 : ℝ) ^ 2 + 4 ^ 2) = 5 := by
    rw [show ((3 : ℝ) ^ 2 + 4 ^ 2) = 5 ^ 2 by norm_num]; exact Real.sqrt_sq (by norm_num)
  have a1 : ¬ InRange ⟨1, 10, -1, 1⟩ ⟨0, 0, 0⟩ := by norm_num [InRange]
  have a2 : InRange ⟨1, 10, -1, 1⟩ ⟨3, 4, 0⟩ := by
    refine ⟨?_, ?_, ?_, ?_⟩ <;> simp only [h5] <;> norm_num
  have a3 : ¬ InRange ⟨1, 10, -1, 1⟩ ⟨3, 4, 2⟩ := by
    rintro ⟨-, -, -, h⟩; norm_num at h
  simp [a1, a2, a3, Beam.make, exParams]

/-! ## C70 -/

/-- C70: the number of points is the default one if the number of particles is not above the normal
one; otherwise it is the default number scaled down (rounding down), but at least the number for
global localization.  It never exceeds the larger of both. -/
theorem C70_number_of_points {numDefault numGlobal numParticles current : ℕ}
    (hov : numDefault * numParticles < 2 ^ 64) :
    (current ≤ numParticles → globalNumPoints numDefault numGlobal numParticles current = numDefault) ∧
    (numParticles < current → globalNumPoints numDefault numGlobal numParticles current =
      max numGlobal ⌊((numDefault : ℚ) * numParticles) / current⌋₊) ∧
    globalNumPoints numDefault numGlobal numParticles current ≤ max numDefault numGlobal := by
  unfold globalNumPoints
  rw [Nat.mod_eq_of_lt hov]
  refine ⟨fun h => by rw [if_pos h], fun h => ?_, ?_⟩
  · rw [if_neg (by omega)]
    have : ⌊((numDefault : ℚ) * numParticles) / current⌋₊ = numDefault * numParticles / current := by
      rw [← Nat.cast_mul, Nat.floor_div_natCast, Nat.floor_natCast]
    rw [this]
    simp only
    split_ifs with h'
    · rw [max_eq_left h'.le]
    · rw [max_eq_right (not_lt.1 h')]
  · split_ifs with h
    · exact le_max_left _ _
    · have hd : numDefault * numParticles / current ≤ numDefault := by
        apply Nat.div_le_of_le_mul
        rw [Nat.mul_comm current]
        exact Nat.mul_le_mul_left _ (by omega)
      simp only
      split_ifs with h'
      · exact le_max_right _ _
      · exact hd.trans (le_max_left _ _)

/-- C70: both models use this number, for any history of calls only the last call matters, and a new
object uses the default. -/
theorem C70_models (p : BeamParams) (q : LikeParams) (n cur : ℕ) :
    (Beam.make p).numPoints = p.numDefault ∧ (Like.make q).numPoints = q.numDefault ∧
    (∀ b, Beam.Reach p b → (b.setGlobalLocalizationStatus n cur).numPoints =
      globalNumPoints p.numDefault p.numGlobal n cur) ∧
    (∀ l, Like.Reach q l → (l.setGlobalLocalizationStatus n cur).numPoints =
      globalNumPoints q.numDefault q.numGlobal n cur) := by
  refine ⟨rfl, rfl, fun b hb => ?_, fun l hl => ?_⟩
  · have hbp : b.params = p := hb.facts.1
    unfold Beam.setGlobalLocalizationStatus; rw [hbp]
  · have hbp : l.params = q := by
      induction hl with
      | make => rfl
      | set _ _ _ ih => exact ih
    unfold Like.setGlobalLocalizationStatus; rw [hbp]

/-- C70 applied: 96 points, 8 for global localization, 64 particles grown to 300 and to 1000. -/
example : globalNumPoints 96 8 64 300 = 20 ∧ globalNumPoints 96 8 64 1000 = 8 ∧ globalNumPoints 96 8 64 64 = 96 := by
  refine ⟨?_, ?_, ?_⟩ <;> rfl

/-! ## C71 -/

theorem search_result {map : List (Vec3 ℝ)} {w q : Vec3 ℝ} {r : ℝ} {res : List (ℕ × ℝ)}
    (h : ExactSearch map (weightedDist w q) r 1 res) :
    (res = [] ∧ ¬ nearestSq map w q < ((r ^ 2 : ℝ) : WithTop ℝ)) ∨
    (∃ i d, res = [(i, d)] ∧ nearestSq map w q = (d : WithTop ℝ) ∧ d < r ^ 2) := by
  cases res with
  | nil =>
    left
    refine ⟨rfl, ?_⟩
    intro hlt
    unfold nearestSq at hlt
    obtain ⟨m, hm⟩ := WithTop.ne_top_iff_exists.1 (ne_top_of_lt hlt)
    rw [← hm, WithTop.coe_lt_coe] at hlt
    obtain ⟨p, hp, hpm⟩ := List.mem_map.1 (List.minimum_mem hm.symm)
    obtain ⟨i, hi⟩ := List.mem_iff_getElem?.1 hp
    rcases h.complete i p hi (by rw [hpm]; exact hlt) with h' | ⟨-, h', -⟩
    · simp at h'
    · simp at h'
  | cons a l =>
    right
    have hl : l = [] := by
      have := h.bounded one_ne_zero
      simpa using this
    subst hl
    obtain ⟨i, d⟩ := a
    obtain ⟨p, hp, hd, hr⟩ := h.sound (i, d) (by simp)
    simp only at hp hd
    refine ⟨i, d, rfl, ?_, by rw [hd]; exact hr⟩
    unfold nearestSq
    rw [List.minimum_eq_coe_iff]
    refine ⟨?_, ?_⟩
    · rw [hd]; exact List.mem_map.2 ⟨p, List.mem_of_getElem? hp, rfl⟩
    · intro x hx
      obtain ⟨p', hp', rfl⟩ := List.mem_map.1 hx
      by_cases hlt : weightedDist w q p' < r ^ 2
      · obtain ⟨j, hj⟩ := List.mem_iff_getElem?.1 hp'
        rcases h.complete j p' hj hlt with h' | ⟨-, -, h'⟩
        · simp at h'; subst h'
          rw [hp] at hj; cases hj
          exact hd.le
        · exact h' (i, d) (by simp)
      · have := not_lt.1 hlt
        rw [hd]; linarith

/-- The search for one neighbour within `r` answers exactly for the points `map`. -/
def ExactAt (map : List (Vec3 ℝ)) (w : Vec3 ℝ) (search : Vec3 ℝ → ℝ → Outcome (List (ℕ × ℝ))) (r : ℝ) : Prop :=
  ∀ q, ∃ res, search q r = .ok res ∧ ExactSearch map (weightedDist w q) r 1 res

theorem likeLoop_eq {A : Type} {p : LikeParams} {search : Vec3 ℝ → ℝ → Outcome (List (ℕ × ℝ))}
    {map : List (Vec3 ℝ)} {w : Vec3 ℝ} (hs : ExactAt map w search p.matchDistMin) (h0 : 0 ≤ p.matchDistMin)
    (qs : List (Pt ℝ A)) : ∀ (score : ℝ) (num : ℕ),
    likeLoop p search qs score num = .ok
      (score + (qs.map fun q => gain p (nearestSq map w q.pos)).sum,
       num + (qs.map fun q => matched p (nearestSq map w q.pos)).sum) := by
  induction qs with
  | nil => intro s n; simp [likeLoop]
  | cons q qs ih =>
    intro s n
    obtain ⟨res, hres, hex⟩ := hs q.pos
    rw [likeLoop, hres, Outcome.bind_ok]
    rcases search_result hex with ⟨rfl, hno⟩ | ⟨i, d, rfl, hmin, hlt⟩
    · simp only [ih, List.map_cons, List.sum_cons]
      have g0 : gain p (nearestSq map w q.pos) = 0 := by unfold gain; rw [if_neg]; exact fun h => hno h.1
      have m0 : matched p (nearestSq map w q.pos) = 0 := by unfold matched; rw [if_neg]; exact fun h => hno h.1
      rw [g0, m0]; simp
    · simp only [ih, List.map_cons, List.sum_cons]
      rw [hmin]
      have hd' : Real.sqrt d < p.matchDistMin ∨ p.matchDistMin = 0 := by
        rcases eq_or_lt_of_le h0 with h | h
        · right; exact h.symm
        · left; rw [Real.sqrt_lt' h]; exact hlt
      by_cases hf : p.matchDistFlat ≤ p.matchDistMin
      · have g1 : gain p (d : WithTop ℝ) = (p.matchDistMin - max (Real.sqrt d) p.matchDistFlat) * p.matchWeight := by
          unfold gain
          rw [if_pos ⟨WithTop.coe_lt_coe.2 hlt, hf⟩]
          simp; ring
        have m1 : matched p (d : WithTop ℝ) = 1 := by
          unfold matched; rw [if_pos ⟨WithTop.coe_lt_coe.2 hlt, hf⟩]
        have hge : ¬ (p.matchDistMin - max (Real.sqrt d) p.matchDistFlat < 0) := by
          rw [not_lt, sub_nonneg]
          refine max_le ?_ hf
          rcases hd' with h | h
          · exact h.le
          · have : d < 0 := by rw [h] at hlt; simpa using hlt
            rw [Real.sqrt_eq_zero_of_nonpos this.le]; exact h0
        rw [if_neg hge, g1, m1]
        congr 2
        · ring
        · omega
      · have g0 : gain p (d : WithTop ℝ) = 0 := by unfold gain; rw [if_neg]; exact fun h => hf h.2
        have m0 : matched p (d : WithTop ℝ) = 0 := by unfold matched; rw [if_neg]; exact fun h => hf h.2
        have hlt0 : p.matchDistMin - max (Real.sqrt d) p.matchDistFlat < 0 := by
          have := le_max_right (Real.sqrt d) p.matchDistFlat
          push Not at hf; linarith
        rw [if_pos hlt0, g0, m0]; simp

/-- C71: for a non-empty cloud the likelihood is the sum of the gains of the points moved to the pose
`s`, and the quality is the fraction of matched points; `map` are the points of the kd-tree. -/
theorem C71_score {A : Type} {l : Like} {p : LikeParams} (hl : Like.Reach p l) (h0 : 0 ≤ p.matchDistMin)
    {search : Vec3 ℝ → ℝ → Outcome (List (ℕ × ℝ))} {map : List (Vec3 ℝ)} {w : Vec3 ℝ}
    (hs : ExactAt map w search p.matchDistMin) {pc : List (Pt ℝ A)} (hne : pc ≠ []) (s : State6 ℝ) :
    l.measure search (some pc) s = .ok
      ⟨((s.transform pc).map fun q => gain p (nearestSq map w q.pos)).sum,
       (((s.transform pc).map fun q => matched p (nearestSq map w q.pos)).sum : ℕ) / pc.length⟩ := by
  have hlp : l.params = p := by
    induction hl with
    | make => rfl
    | set _ _ _ ih => exact ih
  have hlen : ¬ pc.length = 0 := by simpa using hne
  unfold Like.measure
  simp only [if_neg hlen, hlp]
  rw [likeLoop_eq hs h0, Outcome.bind_ok]
  simp [State6.transform]

/-- C71: an empty or missing cloud yields likelihood 1 and quality 0. -/
theorem C71_empty {A : Type} (l : Like) (search : Vec3 ℝ → ℝ → Outcome (List (ℕ × ℝ))) (s : State6 ℝ) :
    l.measure search (none : Option (List (Pt ℝ A))) s = .ok ⟨1, 0⟩ ∧
    l.measure search (some ([] : List (Pt ℝ A))) s = .ok ⟨1, 0⟩ := ⟨rfl, by simp [Like.measure]⟩

theorem gain_mem {p : LikeParams} (hw : 0 ≤ p.matchWeight) (h0 : 0 ≤ p.matchDistMin) (d : WithTop ℝ) :
    0 ≤ gain p d ∧ gain p d ≤ p.matchWeight * max 0 (p.matchDistMin - p.matchDistFlat) := by
  unfold gain
  split_ifs with h
  · obtain ⟨x, rfl⟩ := WithTop.ne_top_iff_exists.1 (ne_top_of_lt h.1)
    have hx := WithTop.coe_lt_coe.1 h.1
    have hsq : Real.sqrt x ≤ p.matchDistMin := by
      rw [Real.sqrt_le_left h0]; exact hx.le
    simp only [WithTop.untopD_coe]
    have hm : max (Real.sqrt x) p.matchDistFlat ≤ p.matchDistMin := max_le hsq h.2
    refine ⟨mul_nonneg hw (by linarith), mul_le_mul_of_nonneg_left ?_ hw⟩
    have := le_max_right (Real.sqrt x) p.matchDistFlat
    exact le_trans (by linarith) (le_max_right _ _)
  · exact ⟨le_rfl, mul_nonneg hw (le_max_left _ _)⟩

/-- C71: bounds of score and quality. -/
theorem C71_bounds {A : Type} {l : Like} {p : LikeParams} (hl : Like.Reach p l) (h0 : 0 ≤ p.matchDistMin)
    (hw : 0 ≤ p.matchWeight) {search : Vec3 ℝ → ℝ → Outcome (List (ℕ × ℝ))} {map : List (Vec3 ℝ)} {w : Vec3 ℝ}
    (hs : ExactAt map w search p.matchDistMin) {pc : List (Pt ℝ A)} (hne : pc ≠ []) (s : State6 ℝ) {res : Result}
    (hm : l.measure search (some pc) s = .ok res) :
    0 ≤ res.likelihood ∧
    res.likelihood ≤ pc.length * (p.matchWeight * max 0 (p.matchDistMin - p.matchDistFlat)) ∧
    0 ≤ res.quality ∧ res.quality ≤ 1 := by
  rw [C71_score hl h0 hs hne] at hm
  cases hm
  have hlen : (0 : ℝ) < pc.length := by
    have : 0 < pc.length := List.length_pos_iff.2 hne
    exact_mod_cast this
  refine ⟨?_, ?_, by positivity, ?_⟩
  · apply List.sum_nonneg
    intro x hx
    obtain ⟨q, -, rfl⟩ := List.mem_map.1 hx
    exact (gain_mem hw h0 _).1
  · have := List.sum_le_card_nsmul ((s.transform pc).map fun q => gain p (nearestSq map w q.pos))
      (p.matchWeight * max 0 (p.matchDistMin - p.matchDistFlat)) (by
        intro x hx
        obtain ⟨q, -, rfl⟩ := List.mem_map.1 hx
        exact (gain_mem hw h0 _).2)
    rw [nsmul_eq_mul] at this
    simpa [State6.transform] using this
  · rw [div_le_one hlen]
    have := List.sum_le_card_nsmul ((s.transform pc).map fun q => matched p (nearestSq map w q.pos)) 1 (by
        intro x hx
        obtain ⟨q, -, rfl⟩ := List.mem_map.1 hx
        unfold matched; split_ifs <;> norm_num)
    have h2 : ((s.transform pc).map fun q => matched p (nearestSq map w q.pos)).sum ≤ pc.length := by
      simpa [State6.transform] using this
    exact_mod_cast h2

theorem gain_antitone {p : LikeParams} (hw : 0 ≤ p.matchWeight) (h0 : 0 ≤ p.matchDistMin) {d e : WithTop ℝ} (h : d ≤ e) :
    gain p e ≤ gain p d ∧ matched p e ≤ matched p d := by
  by_cases he : e < ((p.matchDistMin ^ 2 : ℝ) : WithTop ℝ) ∧ p.matchDistFlat ≤ p.matchDistMin
  · have hd : d < ((p.matchDistMin ^ 2 : ℝ) : WithTop ℝ) ∧ p.matchDistFlat ≤ p.matchDistMin := ⟨lt_of_le_of_lt h he.1, he.2⟩
    obtain ⟨x, rfl⟩ := WithTop.ne_top_iff_exists.1 (ne_top_of_lt hd.1)
    obtain ⟨y, rfl⟩ := WithTop.ne_top_iff_exists.1 (ne_top_of_lt he.1)
    unfold gain matched
    rw [if_pos he, if_pos hd, if_pos he, if_pos hd]
    refine ⟨mul_le_mul_of_nonneg_left ?_ hw, le_rfl⟩
    simp only [WithTop.untopD_coe]
    have := max_le_max (Real.sqrt_le_sqrt (WithTop.coe_le_coe.1 h)) (le_refl p.matchDistFlat)
    linarith
  · have : gain p e = 0 ∧ matched p e = 0 := by unfold gain matched; rw [if_neg he, if_neg he]; exact ⟨rfl, rfl⟩
    rw [this.1, this.2]
    exact ⟨(gain_mem hw h0 _).1, by omega⟩

/-- C71: if every point of the second cloud (in map coordinates) is at most as far from the map as the
corresponding point of the first, neither likelihood nor quality is lower. -/
theorem C71_monotone {A : Type} {l : Like} {p : LikeParams} (hl : Like.Reach p l) (h0 : 0 ≤ p.matchDistMin)
    (hw : 0 ≤ p.matchWeight) {search : Vec3 ℝ → ℝ → Outcome (List (ℕ × ℝ))} {map : List (Vec3 ℝ)} {w : Vec3 ℝ}
    (hs : ExactAt map w search p.matchDistMin) {pc pc' : List (Pt ℝ A)} {s s' : State6 ℝ} {res res' : Result}
    (hne : pc ≠ [])
    (hm : l.measure search (some pc) s = .ok res) (hm' : l.measure search (some pc') s' = .ok res')
    (hle : List.Forall₂ (fun q q' => nearestSq map w q'.pos ≤ nearestSq map w q.pos)
      (s.transform pc) (s'.transform pc')) :
    res.likelihood ≤ res'.likelihood ∧ res.quality ≤ res'.quality := by
  have hlen : pc.length = pc'.length := by
    have := hle.length_eq
    simpa [State6.transform] using this
  have hne' : pc' ≠ [] := by
    intro h; rw [h] at hlen; simp at hlen; exact hne hlen
  rw [C71_score hl h0 hs hne] at hm
  rw [C71_score hl h0 hs hne'] at hm'
  cases hm
  cases hm'
  rw [hlen]
  have hsum : ∀ a b : List (Pt ℝ A), List.Forall₂ (fun q q' => nearestSq map w q'.pos ≤ nearestSq map w q.pos) a b →
      (a.map fun q => gain p (nearestSq map w q.pos)).sum ≤ (b.map fun q => gain p (nearestSq map w q.pos)).sum ∧
      (a.map fun q => matched p (nearestSq map w q.pos)).sum ≤ (b.map fun q => matched p (nearestSq map w q.pos)).sum := by
    intro a b h
    induction h with
    | nil => simp
    | cons hab _ ih =>
      obtain ⟨g1, g2⟩ := gain_antitone hw h0 hab
      simp only [List.map_cons, List.sum_cons]
      exact ⟨add_le_add g1 ih.1, add_le_add g2 ih.2⟩
  obtain ⟨k1, k2⟩ := hsum _ _ hle
  refine ⟨k1, ?_⟩
  have : (0 : ℝ) ≤ pc'.length := Nat.cast_nonneg _
  apply div_le_div_of_nonneg_right _ this
  exact_mod_cast k2

/-- C71 applied: one map point at the origin, two measured points at distance 1/4 and 2, identity pose. -/
example : ∃ search : Vec3 ℝ → ℝ → Outcome (List (ℕ × ℝ)),
    (Like.make ⟨96, 8, ⟨0, 10, -1, 1⟩, 5, 1 / 2, 1 / 20⟩).measure search
      (some [⟨⟨1 / 4, 0, 0⟩, ()⟩, ⟨⟨2, 0, 0⟩, ()⟩]) State6.default = .ok ⟨5 / 4, 1 / 2⟩ := by
  obtain ⟨search, hs⟩ := KDRay.exactSearch_exists [⟨0, 0, 0⟩] ⟨1, 1, 1⟩
  refine ⟨search, ?_⟩
  rw [C71_score .make (by norm_num) (fun q => hs q _) (by simp)]
  have ht : (State6.default : State6 ℝ).transform [⟨⟨1 / 4, 0, 0⟩, ()⟩, ⟨⟨2, 0, 0⟩, ()⟩] =
      [⟨⟨1 / 4, 0, 0⟩, ()⟩, ⟨⟨2, 0, 0⟩, ()⟩] := by
    have hn : (1 : Quat ℝ).normalized = 1 := Quat.C31_normalized_unit 1 (by simp [Quat.dot])
    have hr : ∀ v : Vec3 ℝ, (1 : Quat ℝ).rotate v = v := fun v => (Quat.C29_one 1 v).2.2
    have hz : ∀ v : Vec3 ℝ, v + 0 = v := fun v => Vec3.ext (add_zero _) (add_zero _) (add_zero _)
    simp only [State6.transform, State6.default, hn, hr, hz, List.map_cons, List.map_nil]
  rw [ht]
  have n1 : nearestSq [⟨0, 0, 0⟩] ⟨1, 1, 1⟩ ⟨1 / 4, 0, 0⟩ = ((1 / 16 : ℝ) : WithTop ℝ) := by
    unfold nearestSq weightedDist
    simp only [List.map_cons, List.map_nil, List.minimum_singleton]
    norm_num
  have n2 : nearestSq [⟨0, 0, 0⟩] ⟨1, 1, 1⟩ ⟨2, 0, 0⟩ = ((4 : ℝ) : WithTop ℝ) := by
    unfold nearestSq weightedDist
    simp only [List.map_cons, List.map_nil, List.minimum_singleton]
    norm_num
  have hsq : Real.sqrt (1 / 16) = 1 / 4 := by
    rw [show (1 / 16 : ℝ) = (1 / 4) ^ 2 by norm_num]; exact Real.sqrt_sq (by norm_num)
  simp only [List.map_cons, List.map_nil, n1, n2, gain, matched]
  rw [if_pos ⟨by rw [WithTop.coe_lt_coe]; norm_num, by norm_num⟩, if_neg (by
      rintro ⟨h, -⟩; rw [WithTop.coe_lt_coe] at h; norm_num at h),
    if_pos ⟨by rw [WithTop.coe_lt_coe]; norm_num, by norm_num⟩, if_neg (by
      rintro ⟨h, -⟩; rw [WithTop.coe_lt_coe] at h; norm_num at h)]
  simp only [WithTop.untopD_coe, hsq]
  norm_num

end Lidar
end Mcl3dl
