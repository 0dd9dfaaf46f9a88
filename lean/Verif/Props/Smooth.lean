import Verif.Spec.Smooth
import Verif.Props.Aligned
import Mathlib.Analysis.InnerProductSpace.PiL2

/-! # C176: the likelihood field changes at most as much as the scan points move -/

set_option linter.unusedSectionVars false

namespace Mcl3dl
namespace Lidar

open Classical

variable {A : Type}

/-- The weighted coordinates. -/
noncomputable def wvec (w v : Vec3 ℝ) : EuclideanSpace ℝ (Fin 3) := !₂[w.x * v.x, w.y * v.y, w.z * v.z]

theorem wdist_eq (w a b : Vec3 ℝ) : wdist w a b = Dist.dist (wvec w a) (wvec w b) := by
  rw [EuclideanSpace.dist_eq, wdist, Fin.sum_univ_three]
  congr 1
  simp only [weightedDist, wvec, Real.dist_eq, sq_abs]
  simp
  ring

theorem wdist_triangle (w a b c : Vec3 ℝ) : wdist w a c ≤ wdist w a b + wdist w b c := by
  simp only [wdist_eq]; exact dist_triangle _ _ _

theorem wdist_comm (w a b : Vec3 ℝ) : wdist w a b = wdist w b a := by
  simp only [wdist_eq]; exact dist_comm _ _

theorem weightedDist_nonneg (w a b : Vec3 ℝ) : 0 ≤ weightedDist w a b := by
  unfold weightedDist; positivity

theorem gain_top (p : LikeParams) : gain p ⊤ = 0 := by
  unfold gain; rw [if_neg]; rintro ⟨h, -⟩; exact absurd h (by simp)

/-- The gain as a formula. -/
theorem gain_coe {p : LikeParams} (h0 : 0 ≤ p.matchDistMin) (x : ℝ) :
    gain p (x : WithTop ℝ) = p.matchWeight * max 0 (p.matchDistMin - max (Real.sqrt x) p.matchDistFlat) := by
  unfold gain
  simp only [WithTop.coe_lt_coe, WithTop.untopD_coe]
  by_cases hf : p.matchDistFlat ≤ p.matchDistMin
  · by_cases hx : x < p.matchDistMin ^ 2
    · rw [if_pos ⟨hx, hf⟩]
      have : Real.sqrt x ≤ p.matchDistMin := by rw [Real.sqrt_le_left h0]; exact hx.le
      rw [max_eq_right (a := (0 : ℝ)) (by linarith [max_le this hf])]
    · rw [if_neg (fun h => hx h.1)]
      have : p.matchDistMin ≤ Real.sqrt x := Real.le_sqrt_of_sq_le (not_lt.1 hx)
      rw [max_eq_left (a := (0 : ℝ)) (by linarith [le_max_left (Real.sqrt x) p.matchDistFlat]), mul_zero]
  · rw [if_neg (fun h => hf h.2)]
    rw [max_eq_left (a := (0 : ℝ)) (by linarith [le_max_right (Real.sqrt x) p.matchDistFlat]), mul_zero]

theorem gain_step {p : LikeParams} (hw : 0 ≤ p.matchWeight) (h0 : 0 ≤ p.matchDistMin) (map : List (Vec3 ℝ))
    (w a b : Vec3 ℝ) : gain p (nearestSq map w a) ≤ gain p (nearestSq map w b) + p.matchWeight * wdist w a b := by
  cases ha : nearestSq map w a with
  | top =>
    rw [gain_top]
    exact add_nonneg (gain_mem hw h0 _).1 (mul_nonneg hw (Real.sqrt_nonneg _))
  | coe x =>
    obtain ⟨m, hm, hmx⟩ := List.mem_map.1 (List.minimum_mem ha)
    have hle : nearestSq map w b ≤ ((weightedDist w b m : ℝ) : WithTop ℝ) :=
      List.minimum_le_of_mem' (List.mem_map_of_mem hm)
    have h1 := gain_antitone hw h0 hle
    rw [gain_coe h0] at h1 ⊢
    have tri : wdist w b m ≤ wdist w a b + Real.sqrt x := by
      have := wdist_triangle w b a m
      rw [wdist_comm w b a] at this
      rw [← hmx]; exact this
    have key : max 0 (p.matchDistMin - max (Real.sqrt x) p.matchDistFlat) ≤
        max 0 (p.matchDistMin - max (Real.sqrt (weightedDist w b m)) p.matchDistFlat) + wdist w a b := by
      have n : 0 ≤ wdist w a b := Real.sqrt_nonneg _
      change wdist w b m ≤ _ at tri
      have : max (Real.sqrt (weightedDist w b m)) p.matchDistFlat ≤ max (Real.sqrt x) p.matchDistFlat + wdist w a b := by
        refine max_le ?_ ?_
        · have := le_max_left (Real.sqrt x) p.matchDistFlat
          change wdist w b m ≤ _
          linarith
        · have := le_max_right (Real.sqrt x) p.matchDistFlat
          linarith
      refine max_le (add_nonneg (le_max_left _ _) n) ?_
      have := le_max_right 0 (p.matchDistMin - max (Real.sqrt (weightedDist w b m)) p.matchDistFlat)
      linarith
    calc _ ≤ p.matchWeight * (max 0 (p.matchDistMin - max (Real.sqrt (weightedDist w b m)) p.matchDistFlat) + wdist w a b) :=
          mul_le_mul_of_nonneg_left key hw
      _ ≤ _ := by rw [mul_add]; linarith

theorem gain_lipschitz {p : LikeParams} (hw : 0 ≤ p.matchWeight) (h0 : 0 ≤ p.matchDistMin) (map : List (Vec3 ℝ))
    (w a b : Vec3 ℝ) : |gain p (nearestSq map w a) - gain p (nearestSq map w b)| ≤ p.matchWeight * wdist w a b := by
  rw [abs_le]
  have h1 := gain_step hw h0 map w a b
  have h2 := gain_step hw h0 map w b a
  rw [wdist_comm w b a] at h2
  constructor <;> linarith

theorem gains_lipschitz {p : LikeParams} (hw : 0 ≤ p.matchWeight) (h0 : 0 ≤ p.matchDistMin) (map : List (Vec3 ℝ)) (w : Vec3 ℝ)
    (as bs : List (Vec3 ℝ)) (h : as.length = bs.length) :
    |(as.map fun q => gain p (nearestSq map w q)).sum - (bs.map fun q => gain p (nearestSq map w q)).sum| ≤
      p.matchWeight * totalDist w as bs := by
  induction as generalizing bs with
  | nil =>
    cases bs with
    | nil => simp [totalDist]
    | cons b bs => cases h
  | cons a as ih =>
    cases bs with
    | nil => cases h
    | cons b bs =>
      have h1 := ih bs (by simpa using h)
      have h2 := gain_lipschitz hw h0 map w a b
      simp only [List.map_cons, List.sum_cons, totalDist, List.zipWith_cons_cons] at h1 ⊢
      rw [abs_le] at h1 h2 ⊢
      rw [mul_add]
      constructor <;> linarith [h1.1, h1.2, h2.1, h2.2]

theorem seen_gains {l : Like} {p : LikeParams} (hl : Like.Reach p l) (h0 : 0 ≤ p.matchDistMin)
    {search : Vec3 ℝ → ℝ → Outcome (List (ℕ × ℝ))} {map : List (Vec3 ℝ)} {w : Vec3 ℝ}
    (hs : ExactAt map w search p.matchDistMin) {pc : List (Pt ℝ A)} (hne : pc ≠ []) (s : State6 ℝ) {res : Result}
    (hm : l.measure search (some pc) s = .ok res) :
    res.likelihood = ((seenFrom s pc).map fun q => gain p (nearestSq map w q)).sum := by
  have h := C71_score hl h0 hs hne s
  rw [hm] at h
  simp only [Outcome.ok.injEq] at h
  rw [h]
  simp only [seenFrom, State6.transform, List.map_map]
  rfl

/-- **C176**: the likelihoods of two scans with the same number of points, seen from two poses, differ by at most
`match_weight` times the sum of the distances between corresponding points, wherever the map points are. -/
theorem C176_smooth {l : Like} {p : LikeParams} (hl : Like.Reach p l) (h0 : 0 ≤ p.matchDistMin) (hw : 0 ≤ p.matchWeight)
    {search : Vec3 ℝ → ℝ → Outcome (List (ℕ × ℝ))} {map : List (Vec3 ℝ)} {w : Vec3 ℝ}
    (hs : ExactAt map w search p.matchDistMin) {pc pc' : List (Pt ℝ A)} (hne : pc ≠ []) (hlen : pc.length = pc'.length)
    (s s' : State6 ℝ) {res res' : Result} (hm : l.measure search (some pc) s = .ok res)
    (hm' : l.measure search (some pc') s' = .ok res') :
    |res.likelihood - res'.likelihood| ≤ p.matchWeight * totalDist w (seenFrom s pc) (seenFrom s' pc') := by
  have hne' : pc' ≠ [] := by
    intro e; rw [e] at hlen; exact hne (List.length_eq_zero_iff.1 hlen)
  rw [seen_gains hl h0 hs hne s hm, seen_gains hl h0 hs hne' s' hm']
  exact gains_lipschitz hw h0 map w _ _ (by simp [seenFrom, hlen])

theorem totalDist_le {w : Vec3 ℝ} {f g : Pt ℝ A → Vec3 ℝ} {e : Pt ℝ A → ℝ} (pc : List (Pt ℝ A))
    (h : ∀ q ∈ pc, wdist w (f q) (g q) ≤ e q) : totalDist w (pc.map f) (pc.map g) ≤ (pc.map e).sum := by
  induction pc with
  | nil => simp [totalDist]
  | cons q pc ih =>
    have := ih fun x hx => h x (List.mem_cons_of_mem _ hx)
    simp only [totalDist, List.map_cons, List.zipWith_cons_cons, List.sum_cons] at this ⊢
    linarith [h q List.mem_cons_self]

/-- **C176**: shifting the pose by `d` changes the likelihood by at most `match_weight` times the number of points times the
(weighted) length of `d`. -/
theorem C176_shift {l : Like} {p : LikeParams} (hl : Like.Reach p l) (h0 : 0 ≤ p.matchDistMin) (hw : 0 ≤ p.matchWeight)
    {search : Vec3 ℝ → ℝ → Outcome (List (ℕ × ℝ))} {map : List (Vec3 ℝ)} {w : Vec3 ℝ}
    (hs : ExactAt map w search p.matchDistMin) {pc : List (Pt ℝ A)} (hne : pc ≠ []) (s : State6 ℝ) (d : Vec3 ℝ)
    {res res' : Result} (hm : l.measure search (some pc) s = .ok res)
    (hm' : l.measure search (some pc) { s with pos := s.pos + d } = .ok res') :
    |res.likelihood - res'.likelihood| ≤
      p.matchWeight * (pc.length * Real.sqrt ((w.x * d.x) ^ 2 + (w.y * d.y) ^ 2 + (w.z * d.z) ^ 2)) := by
  refine (C176_smooth hl h0 hw hs hne rfl s _ hm hm').trans (mul_le_mul_of_nonneg_left ?_ hw)
  refine (totalDist_le (e := fun _ => Real.sqrt ((w.x * d.x) ^ 2 + (w.y * d.y) ^ 2 + (w.z * d.z) ^ 2)) pc fun q _ => le_of_eq ?_).trans
    (le_of_eq ?_)
  · unfold wdist weightedDist
    congr 1
    simp only [Vec3.add_x, Vec3.add_y, Vec3.add_z]
    ring
  · simp

/-- **C176**: turning the robot in place by the unit quaternion `q`, that is by an angle whose half has the sine
`√(x² + y² + z²)`, changes the likelihood by at most `match_weight` times twice this sine times the sum of the ranges of
the points (times the largest axis weight). -/
theorem C176_turn {l : Like} {p : LikeParams} (hl : Like.Reach p l) (h0 : 0 ≤ p.matchDistMin) (hw : 0 ≤ p.matchWeight)
    {search : Vec3 ℝ → ℝ → Outcome (List (ℕ × ℝ))} {map : List (Vec3 ℝ)} {w : Vec3 ℝ} {W : ℝ} (hW : |w.x| ≤ W ∧ |w.y| ≤ W ∧ |w.z| ≤ W)
    (hs : ExactAt map w search p.matchDistMin) {pc : List (Pt ℝ A)} (hne : pc ≠ []) (s : State6 ℝ) (hu : s.rot.dot s.rot = 1)
    (q : Quat ℝ) (hq : q.dot q = 1) {res res' : Result} (hm : l.measure search (some pc) s = .ok res)
    (hm' : l.measure search (some pc) { s with rot := s.rot * q } = .ok res') :
    |res.likelihood - res'.likelihood| ≤ p.matchWeight * (W * (2 * Real.sqrt (q.x ^ 2 + q.y ^ 2 + q.z ^ 2) *
      (pc.map fun v => Real.sqrt (v.pos.x ^ 2 + v.pos.y ^ 2 + v.pos.z ^ 2)).sum)) := by
  have hW0 : 0 ≤ W := (abs_nonneg _).trans hW.1
  refine (C176_smooth hl h0 hw hs hne rfl s _ hm hm').trans (mul_le_mul_of_nonneg_left ?_ hw)
  refine (totalDist_le (e := fun v => W * (2 * Real.sqrt (q.x ^ 2 + q.y ^ 2 + q.z ^ 2)) *
    Real.sqrt (v.pos.x ^ 2 + v.pos.y ^ 2 + v.pos.z ^ 2)) pc fun v _ => ?_).trans (le_of_eq ?_)
  · have hu' : (s.rot * q).dot (s.rot * q) = 1 := by
      simp only [Quat.dot, Quat.mul_x, Quat.mul_y, Quat.mul_z, Quat.mul_w] at hu hq ⊢
      linear_combination (q.x * q.x + q.y * q.y + q.z * q.z + q.w * q.w) * hu + hq
    rw [Quat.C31_normalized_unit _ hu, Quat.C31_normalized_unit _ hu', Quat.C29_mul_rotate]
    generalize v.pos = v
    -- remove the weights
    have h1 : ∀ a b : Vec3 ℝ, weightedDist w a b ≤ W ^ 2 * ((b - a).dot (b - a)) := by
      intro a b
      have hx : w.x ^ 2 ≤ W ^ 2 := by rw [← sq_abs w.x]; exact pow_le_pow_left₀ (abs_nonneg _) hW.1 2
      have hy : w.y ^ 2 ≤ W ^ 2 := by rw [← sq_abs w.y]; exact pow_le_pow_left₀ (abs_nonneg _) hW.2.1 2
      have hz : w.z ^ 2 ≤ W ^ 2 := by rw [← sq_abs w.z]; exact pow_le_pow_left₀ (abs_nonneg _) hW.2.2 2
      simp only [weightedDist, Vec3.dot, Vec3.sub_x, Vec3.sub_y, Vec3.sub_z]
      have := mul_le_mul_of_nonneg_right hx (sq_nonneg (b.x - a.x))
      have := mul_le_mul_of_nonneg_right hy (sq_nonneg (b.y - a.y))
      have := mul_le_mul_of_nonneg_right hz (sq_nonneg (b.z - a.z))
      nlinarith
    have h2 : ((s.rot.rotate (q.rotate v) + s.pos) - (s.rot.rotate v + s.pos)).dot
        ((s.rot.rotate (q.rotate v) + s.pos) - (s.rot.rotate v + s.pos)) = (q.rotate v - v).dot (q.rotate v - v) := by
      have e : (s.rot.rotate (q.rotate v) + s.pos) - (s.rot.rotate v + s.pos) = s.rot.rotate (q.rotate v - v) := by
        ext
        · simp only [Vec3.sub_x, Vec3.sub_y, Vec3.sub_z, Vec3.add_x, Quat.rotate_x]; ring
        · simp only [Vec3.sub_x, Vec3.sub_y, Vec3.sub_z, Vec3.add_y, Quat.rotate_y]; ring
        · simp only [Vec3.sub_x, Vec3.sub_y, Vec3.sub_z, Vec3.add_z, Quat.rotate_z]; ring
      rw [e, Quat.C28_rotate_dot, hu]; ring
    have h3 : (q.rotate v - v).dot (q.rotate v - v) ≤ 4 * (q.x ^ 2 + q.y ^ 2 + q.z ^ 2) * (v.x ^ 2 + v.y ^ 2 + v.z ^ 2) := by
      have hq' : q.x * q.x + q.y * q.y + q.z * q.z + q.w * q.w = 1 := hq
      have ex : (q.rotate v - v).x = 2 * (q.w * (q.y * v.z - q.z * v.y) + (q.y * (q.x * v.y - q.y * v.x) - q.z * (q.z * v.x - q.x * v.z))) := by
        rw [Vec3.sub_x, Quat.rotate_x]; linear_combination v.x * hq'
      have ey : (q.rotate v - v).y = 2 * (q.w * (q.z * v.x - q.x * v.z) + (q.z * (q.y * v.z - q.z * v.y) - q.x * (q.x * v.y - q.y * v.x))) := by
        rw [Vec3.sub_y, Quat.rotate_y]; linear_combination v.y * hq'
      have ez : (q.rotate v - v).z = 2 * (q.w * (q.x * v.y - q.y * v.x) + (q.x * (q.z * v.x - q.x * v.z) - q.y * (q.y * v.z - q.z * v.y))) := by
        rw [Vec3.sub_z, Quat.rotate_z]; linear_combination v.z * hq'
      have e : (q.rotate v - v).dot (q.rotate v - v) = 4 * ((q.y * v.z - q.z * v.y) ^ 2 + (q.z * v.x - q.x * v.z) ^ 2 +
          (q.x * v.y - q.y * v.x) ^ 2) := by
        unfold Vec3.dot
        rw [ex, ey, ez]
        linear_combination 4 * ((q.y * v.z - q.z * v.y) ^ 2 + (q.z * v.x - q.x * v.z) ^ 2 + (q.x * v.y - q.y * v.x) ^ 2) * hq'
      rw [e]
      nlinarith [sq_nonneg (q.x * v.x + q.y * v.y + q.z * v.z)]
    have := h1 (s.rot.rotate v + s.pos) (s.rot.rotate (q.rotate v) + s.pos)
    rw [h2] at this
    unfold wdist
    refine Real.sqrt_le_iff.2 ⟨by positivity, ?_⟩
    rw [mul_pow, mul_pow, mul_pow, Real.sq_sqrt (by positivity), Real.sq_sqrt (by positivity)]
    have := mul_le_mul_of_nonneg_left h3 (sq_nonneg W)
    nlinarith
  · rw [List.sum_map_mul_left]; ring

/-- **C176**: errors of at most `ε` in the coordinates of each scan point change the likelihood by at most `match_weight`
times the number of points times `ε` (times the largest axis weight). -/
theorem C176_noise {l : Like} {p : LikeParams} (hl : Like.Reach p l) (h0 : 0 ≤ p.matchDistMin) (hw : 0 ≤ p.matchWeight)
    {search : Vec3 ℝ → ℝ → Outcome (List (ℕ × ℝ))} {map : List (Vec3 ℝ)} {w : Vec3 ℝ} {W : ℝ} (hW : |w.x| ≤ W ∧ |w.y| ≤ W ∧ |w.z| ≤ W)
    (hs : ExactAt map w search p.matchDistMin) {pc pc' : List (Pt ℝ A)} (hne : pc ≠ []) (s : State6 ℝ) (hu : s.rot.dot s.rot = 1)
    {ε : ℝ} (hε : 0 ≤ ε) (hp : List.Forall₂ (fun q q' => dist q.pos q'.pos ≤ ε) pc pc') {res res' : Result}
    (hm : l.measure search (some pc) s = .ok res) (hm' : l.measure search (some pc') s = .ok res') :
    |res.likelihood - res'.likelihood| ≤ p.matchWeight * (pc.length * (W * ε)) := by
  have hW0 : 0 ≤ W := (abs_nonneg _).trans hW.1
  refine (C176_smooth hl h0 hw hs hne hp.length_eq s s hm hm').trans (mul_le_mul_of_nonneg_left ?_ hw)
  clear hm hm' hne
  induction hp with
  | nil => simp [totalDist, seenFrom]
  | @cons q q' pc pc' h _ ih =>
    simp only [seenFrom, totalDist, List.map_cons, List.zipWith_cons_cons, List.sum_cons, List.length_cons, Nat.cast_add,
      Nat.cast_one] at ih ⊢
    have : wdist w (s.rot.normalized.rotate q.pos + s.pos) (s.rot.normalized.rotate q'.pos + s.pos) ≤ W * ε := by
      rw [Quat.C31_normalized_unit _ hu]
      have h1 : weightedDist w (s.rot.rotate q.pos + s.pos) (s.rot.rotate q'.pos + s.pos) ≤
          W ^ 2 * (s.rot.rotate (q'.pos - q.pos)).dot (s.rot.rotate (q'.pos - q.pos)) := by
        have e : s.rot.rotate (q'.pos - q.pos) = (s.rot.rotate q'.pos + s.pos) - (s.rot.rotate q.pos + s.pos) := by
          ext
          · simp only [Vec3.sub_x, Vec3.sub_y, Vec3.sub_z, Vec3.add_x, Quat.rotate_x]; ring
          · simp only [Vec3.sub_x, Vec3.sub_y, Vec3.sub_z, Vec3.add_y, Quat.rotate_y]; ring
          · simp only [Vec3.sub_x, Vec3.sub_y, Vec3.sub_z, Vec3.add_z, Quat.rotate_z]; ring
        rw [e]
        generalize s.rot.rotate q.pos + s.pos = a
        generalize s.rot.rotate q'.pos + s.pos = b
        have hx : w.x ^ 2 ≤ W ^ 2 := by rw [← sq_abs w.x]; exact pow_le_pow_left₀ (abs_nonneg _) hW.1 2
        have hy : w.y ^ 2 ≤ W ^ 2 := by rw [← sq_abs w.y]; exact pow_le_pow_left₀ (abs_nonneg _) hW.2.1 2
        have hz : w.z ^ 2 ≤ W ^ 2 := by rw [← sq_abs w.z]; exact pow_le_pow_left₀ (abs_nonneg _) hW.2.2 2
        simp only [weightedDist, Vec3.dot, Vec3.sub_x, Vec3.sub_y, Vec3.sub_z]
        have := mul_le_mul_of_nonneg_right hx (sq_nonneg (b.x - a.x))
        have := mul_le_mul_of_nonneg_right hy (sq_nonneg (b.y - a.y))
        have := mul_le_mul_of_nonneg_right hz (sq_nonneg (b.z - a.z))
        nlinarith
      rw [Quat.C28_rotate_dot, hu, one_pow, one_mul] at h1
      have h2 : (q'.pos - q.pos).dot (q'.pos - q.pos) ≤ ε ^ 2 := by
        unfold dist at h
        rw [Real.sqrt_le_left hε] at h
        simp only [Vec3.dot, Vec3.sub_x, Vec3.sub_y, Vec3.sub_z]
        linarith
      unfold wdist
      rw [Real.sqrt_le_left (mul_nonneg hW0 hε)]
      nlinarith [mul_le_mul_of_nonneg_left h2 (sq_nonneg W)]
    linarith

/-- **C176**: the match ratio has no such bound: an arbitrarily small shift can take it from 1 to 0. -/
theorem C176_ratio_jumps {p : LikeParams} (h1 : 0 < p.matchDistMin) (hf : p.matchDistFlat ≤ p.matchDistMin) {ε : ℝ} (hε : 0 < ε) :
    ∃ (search : Vec3 ℝ → ℝ → Outcome (List (ℕ × ℝ))) (map : List (Vec3 ℝ)) (pc : List (Pt ℝ ℕ)) (s s' : State6 ℝ) (res res' : Result),
      ExactAt map ⟨1, 1, 1⟩ search p.matchDistMin ∧ s'.rot = s.rot ∧ dist s.pos s'.pos < ε ∧
      (Like.make p).measure search (some pc) s = .ok res ∧ (Like.make p).measure search (some pc) s' = .ok res' ∧
      res.quality = 1 ∧ res'.quality = 0 := by
  obtain ⟨search, hs⟩ := KDRay.exactSearch_exists [⟨0, 0, 0⟩] ⟨1, 1, 1⟩
  have hs' : ExactAt [⟨0, 0, 0⟩] ⟨1, 1, 1⟩ search p.matchDistMin := fun q => hs q _
  set η := min (ε / 2) (p.matchDistMin / 2) with hη
  have η0 : 0 < η := lt_min (by linarith) (by linarith)
  have η1 : η ≤ ε / 2 := min_le_left _ _
  have η2 : η ≤ p.matchDistMin / 2 := min_le_right _ _
  have sc := fun s : State6 ℝ => C71_score (Like.Reach.make (p := p)) h1.le hs' (pc := [(⟨⟨0, 0, 0⟩, 0⟩ : Pt ℝ ℕ)]) (by simp) s
  have at_ : ∀ x : ℝ, nearestSq [⟨0, 0, 0⟩] ⟨1, 1, 1⟩ ((poseAt x).rot.normalized.rotate (⟨0, 0, 0⟩ : Vec3 ℝ) + (poseAt x).pos) =
      ((x ^ 2 : ℝ) : WithTop ℝ) := by
    intro x
    rw [poseAt_point]
    simp [nearestSq, weightedDist]
  refine ⟨search, [⟨0, 0, 0⟩], [⟨⟨0, 0, 0⟩, 0⟩], poseAt (p.matchDistMin - η), poseAt p.matchDistMin, _, _, hs', rfl, ?_,
    sc _, sc _, ?_, ?_⟩
  · have : dist (poseAt (p.matchDistMin - η)).pos (poseAt p.matchDistMin).pos = η := by
      show Real.sqrt ((p.matchDistMin - η - p.matchDistMin) ^ 2 + (0 - 0) ^ 2 + (0 - 0) ^ 2) = η
      rw [show (p.matchDistMin - η - p.matchDistMin) ^ 2 + (0 - 0) ^ 2 + (0 - 0) ^ 2 = η ^ 2 by ring, Real.sqrt_sq η0.le]
    rw [this]; linarith
  · simp only [State6.transform, List.map_cons, List.map_nil, List.sum_cons, List.sum_nil, at_]
    have : matched p (((p.matchDistMin - η) ^ 2 : ℝ) : WithTop ℝ) = 1 := by
      unfold matched
      rw [if_pos ⟨by rw [WithTop.coe_lt_coe]; nlinarith, hf⟩]
    rw [this]; simp
  · simp only [State6.transform, List.map_cons, List.map_nil, List.sum_cons, List.sum_nil, at_]
    have : matched p ((p.matchDistMin ^ 2 : ℝ) : WithTop ℝ) = 0 := by
      unfold matched
      rw [if_neg (fun h => absurd h.1 (lt_irrefl _))]
    rw [this]; simp

/-! ## Non-vacuity -/

/-- Defaults of the node. -/
noncomputable def smoothParams : LikeParams := { numDefault := 96, numGlobal := 8, clip := ⟨0.5, 10, -2, 2⟩, matchWeight := 5, matchDistMin := 0.2, matchDistFlat := 0.05 }

/-- C176 applied: shifting the robot by 1 cm changes the score of a scan of 96 points by at most 4.8, by at most 5·96·0.01,
whatever the map. -/
example (search : Vec3 ℝ → ℝ → Outcome (List (ℕ × ℝ))) (map : List (Vec3 ℝ)) (hs : ExactAt map ⟨1, 1, 1⟩ search 0.2)
    (pc : List (Pt ℝ ℕ)) (hpc : pc.length = 96) (s : State6 ℝ) : ∃ res res',
    (Like.make smoothParams).measure search (some pc) s = .ok res ∧
    (Like.make smoothParams).measure search (some pc) { s with pos := s.pos + ⟨0.01, 0, 0⟩ } = .ok res' ∧
    |res.likelihood - res'.likelihood| ≤ 4.8 := by
  have hne : pc ≠ [] := by rintro rfl; simp at hpc
  have h0 : 0 ≤ smoothParams.matchDistMin := by norm_num [smoothParams]
  have m1 := C71_score (Like.Reach.make (p := smoothParams)) h0 hs hne s
  have m2 := C71_score (Like.Reach.make (p := smoothParams)) h0 hs hne { s with pos := s.pos + ⟨0.01, 0, 0⟩ }
  refine ⟨_, _, m1, m2, (C176_shift (Like.Reach.make (p := smoothParams)) h0 (by norm_num [smoothParams]) hs hne s _ m1 m2).trans ?_⟩
  rw [hpc]
  simp only [smoothParams]
  rw [show ((1 : ℝ) * 0.01) ^ 2 + (1 * 0) ^ 2 + (1 * 0) ^ 2 = 0.01 ^ 2 by ring, Real.sqrt_sq (by norm_num)]
  norm_num

end Lidar
end Mcl3dl
