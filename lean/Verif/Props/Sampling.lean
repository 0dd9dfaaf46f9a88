import Verif.Spec.Sampling
import Verif.Props.Sampler
import Verif.Props.LidarLike
import Verif.Props.KDRayWall
import Mathlib.Algebra.BigOperators.Pi
import Mathlib.Algebra.BigOperators.Field

/-!
# C166: what sampled points say about all points
-/

set_option linter.unusedSectionVars false

namespace Mcl3dl
namespace Sampler

variable {H P : Type}

theorem uniformLoop_stream (ud : ℕ → ℕ) (pts : List P) (h : ∀ k, ud k < pts.length) (n k : ℕ) :
    uniformLoop ud pts n k = .ok (List.ofFn fun i : Fin n => pts[ud (k + i)]'(h _)) := by
  induction n generalizing k with
  | zero => simp [uniformLoop]
  | succ n ih =>
    rw [uniformLoop, List.getElem?_eq_getElem (h k)]
    simp only [ih (k + 1), Outcome.bind_ok, Outcome.ok.injEq, List.ofFn_succ, Fin.val_zero, Nat.add_zero, Fin.val_succ]
    congr 2
    funext i
    congr 2
    omega

/-- C166: point `k` of the sample is the one of the cloud that the `k`-th draw says. -/
theorem C166_draws (pc : Cloud H P) (num : ℕ) (d : Fin num → Fin pc.points.length) :
    uniform (stream d) pc num = .ok ⟨pc.header, if pc.points = [] then [] else List.ofFn fun k => pc.points[d k]⟩ := by
  unfold uniform
  by_cases h : pc.points.length = 0
  · rw [if_pos h, if_pos (List.length_eq_zero_iff.1 h)]
  · rw [if_neg h, if_neg (fun e => h (by rw [e]; rfl))]
    have hs : ∀ k, stream d k < pc.points.length := by
      intro k
      unfold stream
      split_ifs
      · exact (d _).2
      · omega
    rw [uniformLoop_stream _ _ hs, Outcome.bind_ok]
    congr 3
    funext k
    have : stream d (0 + k) = d k := by simp [stream]
    show pc.points[stream d (0 + k)]'(hs _) = pc.points[(d k : ℕ)]
    simp only [this]

section averages
variable {N num : ℕ}

theorem overSamples_prod (f : Fin num → Fin N → ℝ) :
    overSamples N num (fun d => ∏ k, f k (d k)) = ∏ k, ((∑ i, f k i) / N) := by
  unfold overSamples
  rw [Finset.prod_div_distrib, Finset.prod_const, Finset.card_univ, Fintype.card_fin]
  congr 1
  rw [← Finset.sum_prod_piFinset Finset.univ f, Fintype.piFinset_univ]

theorem overSamples_one (hN : 0 < N) (g : Fin N → ℝ) (k : Fin num) :
    overSamples N num (fun d => g (d k)) = (∑ i, g i) / N := by
  have hN' : (N : ℝ) ≠ 0 := by positivity
  have := overSamples_prod (fun k' i => if k' = k then g i else 1)
  simp only [Finset.prod_ite_eq', Finset.mem_univ, if_true] at this
  rw [this, Finset.prod_eq_single k]
  · simp
  · intro k' _ hk
    simp [hk, hN']
  · simp

theorem overSamples_two (hN : 0 < N) (g : Fin N → ℝ) {k l : Fin num} (hkl : k ≠ l) :
    overSamples N num (fun d => g (d k) * g (d l)) = (∑ i, g i) / N * ((∑ i, g i) / N) := by
  have hN' : (N : ℝ) ≠ 0 := by positivity
  have := overSamples_prod (fun k' i => (if k' = k then g i else 1) * (if k' = l then g i else 1))
  simp only [Finset.prod_mul_distrib, Finset.prod_ite_eq', Finset.mem_univ, if_true] at this
  rw [this, ← Finset.prod_mul_prod_compl {k, l}, Finset.prod_pair hkl]
  rw [Finset.prod_eq_one (s := {k, l}ᶜ)]
  · simp [hkl, hkl.symm]
  · intro k' hk
    simp only [Finset.mem_compl, Finset.mem_insert, Finset.mem_singleton, not_or] at hk
    simp [hk.1, hk.2, hN']

theorem overSamples_sum {ι : Type} (s : Finset ι) (F : ι → (Fin num → Fin N) → ℝ) :
    overSamples N num (fun d => ∑ i ∈ s, F i d) = ∑ i ∈ s, overSamples N num (F i) := by
  unfold overSamples
  rw [Finset.sum_comm, Finset.sum_div]

theorem overSamples_div (F : (Fin num → Fin N) → ℝ) (c : ℝ) :
    overSamples N num (fun d => F d / c) = overSamples N num F / c := by
  unfold overSamples
  rw [← Finset.sum_div, div_right_comm]

theorem overSamples_mono {F G : (Fin num → Fin N) → ℝ} (h : ∀ d, F d ≤ G d) :
    overSamples N num F ≤ overSamples N num G := by
  unfold overSamples
  exact div_le_div_of_nonneg_right (Finset.sum_le_sum fun d _ => h d) (by positivity)

theorem overSamples_const (hN : 0 < N) (c : ℝ) : overSamples N num (fun _ => c) = c := by
  have hN' : (N : ℝ) ≠ 0 := by positivity
  simp [overSamples]
  field_simp

end averages

theorem sum_getElem (g : P → ℝ) (l : List P) : ∑ i : Fin l.length, g l[i] = (l.map g).sum := by
  rw [← List.sum_ofFn]
  congr 1
  exact List.ofFn_getElem_eq_map l g

theorem meanOver_ofFn (g : P → ℝ) {n : ℕ} (f : Fin n → P) : meanOver g (List.ofFn f) = (∑ k, g (f k)) / n := by
  unfold meanOver
  rw [List.map_ofFn, List.sum_ofFn, List.length_ofFn]
  rfl

variable {pc : Cloud H P} {num : ℕ}

theorem out_eq (hne : pc.points ≠ []) {out : (Fin num → Fin pc.points.length) → Cloud H P}
    (hout : ∀ d, uniform (stream d) pc num = .ok (out d)) (d) : (out d).points = List.ofFn fun k => pc.points[d k] := by
  have := hout d
  rw [C166_draws, if_neg hne, Outcome.ok.injEq] at this
  rw [← this]

/-- C166: averaged over the draws, the mean of any quantity over the sample is its mean over the cloud. -/
theorem C166_mean (g : P → ℝ) (hne : pc.points ≠ []) (hnum : 0 < num)
    {out : (Fin num → Fin pc.points.length) → Cloud H P} (hout : ∀ d, uniform (stream d) pc num = .ok (out d)) :
    overSamples pc.points.length num (fun d => meanOver g (out d).points) = meanOver g pc.points := by
  have hN : 0 < pc.points.length := List.length_pos_iff.2 hne
  have hn : (num : ℝ) ≠ 0 := by positivity
  simp only [out_eq hne hout, meanOver_ofFn]
  rw [overSamples_div, overSamples_sum]
  simp only [overSamples_one hN fun i => g pc.points[i], sum_getElem]
  simp [meanOver]
  field_simp

/-- C166: the mean square error of the mean over the sample is the variance of the quantity divided by the number of
points asked for. -/
theorem C166_variance (g : P → ℝ) (hne : pc.points ≠ []) (hnum : 0 < num)
    {out : (Fin num → Fin pc.points.length) → Cloud H P} (hout : ∀ d, uniform (stream d) pc num = .ok (out d)) :
    overSamples pc.points.length num (fun d => (meanOver g (out d).points - meanOver g pc.points) ^ 2) =
      varOver g pc.points / num := by
  have hN : 0 < pc.points.length := List.length_pos_iff.2 hne
  have hN' : (pc.points.length : ℝ) ≠ 0 := by positivity
  have hn : (num : ℝ) ≠ 0 := by positivity
  set h : P → ℝ := fun p => g p - meanOver g pc.points with hh
  have h0 : ∑ i : Fin pc.points.length, h pc.points[i] = 0 := by
    rw [hh, Finset.sum_sub_distrib, sum_getElem]
    simp [meanOver]
    field_simp
    ring
  have e : ∀ d : Fin num → Fin pc.points.length, (meanOver g (out d).points - meanOver g pc.points) ^ 2 =
      (∑ k, ∑ l, h pc.points[d k] * h pc.points[d l]) / (num : ℝ) ^ 2 := by
    intro d
    rw [out_eq hne hout, meanOver_ofFn, ← Finset.sum_mul_sum]
    have : ∑ k, h pc.points[d k] = (∑ k, g pc.points[d k]) - num * meanOver g pc.points := by
      rw [hh, Finset.sum_sub_distrib]
      simp
    rw [this]
    field_simp
  simp only [e]
  rw [overSamples_div, overSamples_sum]
  have hk : ∀ k : Fin num, overSamples pc.points.length num (fun d => ∑ l, h pc.points[d k] * h pc.points[d l]) =
      varOver g pc.points := by
    intro k
    rw [overSamples_sum, Finset.sum_eq_single k]
    · have := overSamples_one (num := num) hN (fun i => h pc.points[i] * h pc.points[i]) k
      rw [this, sum_getElem (fun p => h p * h p)]
      simp [varOver, meanOver, hh, sq]
    · intro l _ hl
      rw [overSamples_two hN (fun i => h pc.points[i]) hl.symm, h0]
      simp
    · simp
  simp only [hk]
  simp
  field_simp

open Classical in
/-- C166: so the sample is off by `ε` or more in at most the share `variance / (num ε²)` of all cases. -/
theorem C166_seldom (g : P → ℝ) (hne : pc.points ≠ []) (hnum : 0 < num)
    {out : (Fin num → Fin pc.points.length) → Cloud H P} (hout : ∀ d, uniform (stream d) pc num = .ok (out d))
    {ε : ℝ} (hε : 0 < ε) :
    overSamples pc.points.length num
        (fun d => if ε ≤ |meanOver g (out d).points - meanOver g pc.points| then 1 else 0) ≤
      varOver g pc.points / (num * ε ^ 2) := by
  have := C166_variance g hne hnum hout
  rw [← div_div, ← this, ← overSamples_div]
  refine overSamples_mono fun d => ?_
  split_ifs with h
  · rw [le_div_iff₀ (by positivity), one_mul, ← sq_abs (_ - _)]
    gcongr
  · positivity

theorem varOver_share (g : P → ℝ) (h01 : ∀ q, g q = 0 ∨ g q = 1) {l : List P} (hne : l ≠ []) :
    varOver g l = meanOver g l * (1 - meanOver g l) := by
  have hl : (l.length : ℝ) ≠ 0 := by
    have := List.length_pos_iff.2 hne
    positivity
  have key : ∀ (c : ℝ) (l : List P), (l.map fun q => (g q - c) ^ 2).sum =
      (l.map g).sum * (1 - 2 * c) + l.length * c ^ 2 := by
    intro c l
    induction l with
    | nil => simp
    | cons q l ih =>
      simp only [List.map_cons, List.sum_cons, ih, List.length_cons, Nat.cast_succ]
      rcases h01 q with h | h <;> rw [h] <;> ring
  unfold varOver
  rw [meanOver, key]
  have : (l.map g).sum = meanOver g l * l.length := by unfold meanOver; field_simp
  rw [this]
  field_simp
  ring

open Classical in
/-- C166: averaged over the draws of the uniform sampler, the likelihood-field score of any pose is `num_points` times
the mean gain of all points of the scan within the clip range, and its match ratio is the share of those that are
near the map; its mean square error is `m (1 - m) / num_points` for a share `m`. -/
theorem C166_score {A : Type} {l : Lidar.Like} {p : Lidar.LikeParams} (hl : Lidar.Like.Reach p l)
    (hn : 0 ≤ p.clip.near) (hf : 0 ≤ p.clip.far) (h0 : 0 ≤ p.matchDistMin)
    {search : Vec3 ℝ → ℝ → Outcome (List (ℕ × ℝ))} {map : List (Vec3 ℝ)} {w : Vec3 ℝ}
    (hs : Lidar.ExactAt map w search p.matchDistMin) {scan kept : List (Pt ℝ A)}
    (hk : kept = scan.filter fun x => decide (Lidar.InRange p.clip x.pos)) (hne : kept ≠ []) (hnum : 0 < l.numPoints)
    (s : State6 ℝ) {out : (Fin l.numPoints → Fin kept.length) → Cloud Unit (Pt ℝ A)}
    {res : (Fin l.numPoints → Fin kept.length) → Lidar.Result}
    (hout : ∀ d, l.filter (fun pts n => uniform (stream d) ⟨(), pts⟩ n) scan = .ok (out d))
    (hres : ∀ d, l.measure search (some (out d).points) s = .ok (res d)) {m : ℝ}
    (hm : m = meanOver (fun q : Pt ℝ A => (Lidar.matched p (Lidar.nearestSq map w (s.rot.normalized.rotate q.pos + s.pos)) : ℝ)) kept) :
    overSamples kept.length l.numPoints (fun d => (res d).likelihood) =
      l.numPoints * meanOver (fun q => Lidar.gain p (Lidar.nearestSq map w (s.rot.normalized.rotate q.pos + s.pos))) kept ∧
    overSamples kept.length l.numPoints (fun d => (res d).quality) = m ∧
    overSamples kept.length l.numPoints (fun d => ((res d).quality - m) ^ 2) = m * (1 - m) / l.numPoints := by
  have hout' : ∀ d : Fin l.numPoints → Fin (⟨(), kept⟩ : Cloud Unit (Pt ℝ A)).points.length,
      uniform (stream d) (⟨(), kept⟩ : Cloud Unit (Pt ℝ A)) l.numPoints = .ok (out d) := by
    intro d
    have := hout d
    rw [(Lidar.C69_filter _ _).2 p l hl hn hf, ← hk] at this
    exact this
  have hlen : ∀ d, (out d).points.length = l.numPoints := fun d => by
    rw [out_eq (pc := ⟨(), kept⟩) hne hout' d, List.length_ofFn]
  have hr : ∀ d, (res d).likelihood =
        l.numPoints * meanOver (fun q => Lidar.gain p (Lidar.nearestSq map w (s.rot.normalized.rotate q.pos + s.pos))) (out d).points ∧
      (res d).quality =
        meanOver (fun q : Pt ℝ A => (Lidar.matched p (Lidar.nearestSq map w (s.rot.normalized.rotate q.pos + s.pos)) : ℝ))
          (out d).points := by
    intro d
    have hd := hres d
    rw [Lidar.C71_score hl h0 hs (by rw [← List.length_pos_iff, hlen]; exact hnum), Outcome.ok.injEq] at hd
    rw [← hd]
    have hn' : (l.numPoints : ℝ) ≠ 0 := by positivity
    constructor
    · simp only [meanOver, hlen, State6.transform, List.map_map, Function.comp_def]
      field_simp
    · simp only [meanOver, hlen, State6.transform, List.map_map, Function.comp_def, Nat.cast_list_sum]
  have hmean : ∀ g : Pt ℝ A → ℝ, overSamples kept.length l.numPoints (fun d => meanOver g (out d).points) = meanOver g kept :=
    fun g => C166_mean (pc := ⟨(), kept⟩) g hne hnum hout'
  refine ⟨?_, ?_, ?_⟩
  · have : ∀ d, (res d).likelihood = meanOver (fun q => Lidar.gain p (Lidar.nearestSq map w (s.rot.normalized.rotate q.pos + s.pos)))
        (out d).points / (l.numPoints : ℝ)⁻¹ := fun d => by rw [(hr d).1, div_inv_eq_mul, mul_comm]
    simp only [this]
    rw [overSamples_div, hmean, div_inv_eq_mul, mul_comm]
  · simp only [(hr _).2]
    rw [hmean, hm]
  · simp only [(hr _).2]
    rw [hm]
    refine (C166_variance (pc := ⟨(), kept⟩) _ hne hnum hout').trans ?_
    congr 1
    refine varOver_share _ (fun q => ?_) hne
    unfold Lidar.matched
    split_ifs <;> simp

/-- C166 on four points with the values 0, 0, 0, 4, of which two are sampled: the mean is 1, the mean square error of
the sampled mean 3/2. -/
example : ∃ out : (Fin 2 → Fin 4) → Cloud Unit ℝ, (∀ d, uniform (stream d) ⟨(), [0, 0, 0, 4]⟩ 2 = .ok (out d)) ∧
    overSamples 4 2 (fun d => meanOver id (out d).points) = 1 ∧
    overSamples 4 2 (fun d => (meanOver id (out d).points - 1) ^ 2) = 3 / 2 := by
  refine ⟨_, fun d => C166_draws ⟨(), [0, 0, 0, 4]⟩ 2 d, ?_⟩
  have hm : meanOver id ([0, 0, 0, 4] : List ℝ) = 1 := by norm_num [meanOver]
  have h1 := C166_mean (pc := ⟨(), [0, 0, 0, (4 : ℝ)]⟩) id (by simp) (show 0 < 2 by norm_num)
    (fun d => C166_draws ⟨(), [0, 0, 0, 4]⟩ 2 d)
  have h2 := C166_variance (pc := ⟨(), [0, 0, 0, (4 : ℝ)]⟩) id (by simp) (show 0 < 2 by norm_num)
    (fun d => C166_draws ⟨(), [0, 0, 0, 4]⟩ 2 d)
  simp only [hm] at h1 h2
  refine ⟨h1, h2.trans ?_⟩
  norm_num [varOver, meanOver]

open Classical in
/-- The hypotheses of `C166_score` are met: a map with one point, a scan of three points of which the two nearer than
10 are kept, two points asked for; half of the kept points match. -/
example : ∃ (l : Lidar.Like) (p : Lidar.LikeParams) (search : Vec3 ℝ → ℝ → Outcome (List (ℕ × ℝ)))
    (scan kept : List (Pt ℝ ℕ)) (out : (Fin l.numPoints → Fin kept.length) → Cloud Unit (Pt ℝ ℕ))
    (res : (Fin l.numPoints → Fin kept.length) → Lidar.Result),
    Lidar.Like.Reach p l ∧ 0 ≤ p.clip.near ∧ 0 ≤ p.clip.far ∧ Lidar.ExactAt [⟨1, 0, 0⟩] ⟨1, 1, 5⟩ search p.matchDistMin ∧
    kept = scan.filter (fun x => decide (Lidar.InRange p.clip x.pos)) ∧ kept.length = 2 ∧ l.numPoints = 2 ∧
    (∀ d, l.filter (fun pts n => uniform (stream d) ⟨(), pts⟩ n) scan = .ok (out d)) ∧
    (∀ d, l.measure search (some (out d).points) State6.default = .ok (res d)) ∧
    overSamples kept.length l.numPoints (fun d => (res d).quality) = 1 / 2 := by
  obtain ⟨search, hs⟩ := KDRay.exactSearch_exists [⟨1, 0, 0⟩] ⟨1, 1, 5⟩
  set p : Lidar.LikeParams := ⟨2, 2, ⟨0, 10, -1, 1⟩, 1, 1 / 2, 1 / 4⟩ with hp
  set l := Lidar.Like.make p with hl
  set scan : List (Pt ℝ ℕ) := [⟨⟨1, 0, 0⟩, 0⟩, ⟨⟨3, 0, 0⟩, 0⟩, ⟨⟨30, 0, 0⟩, 0⟩] with hscan
  have hk : scan.filter (fun x => decide (Lidar.InRange p.clip x.pos)) = [⟨⟨1, 0, 0⟩, 0⟩, ⟨⟨3, 0, 0⟩, 0⟩] := by
    have e : ∀ x : ℝ, 0 ≤ x → (Lidar.InRange p.clip ⟨x, 0, 0⟩ ↔ x ≤ 10) := by
      intro x hx
      simp [Lidar.InRange, hp, hx]
    rw [hscan, List.filter_cons_of_pos, List.filter_cons_of_pos, List.filter_cons_of_neg, List.filter_nil]
    all_goals
      rw [decide_eq_true_eq]
      simp only
      rw [e _ (by norm_num)]
      norm_num
  have hf : ∀ d : Fin l.numPoints → Fin 2, l.filter (fun pts n => uniform (stream d) ⟨(), pts⟩ n) scan =
      .ok ⟨(), List.ofFn fun k => ([⟨⟨1, 0, 0⟩, 0⟩, ⟨⟨3, 0, 0⟩, 0⟩] : List (Pt ℝ ℕ))[d k]⟩ := by
    intro d
    rw [(Lidar.C69_filter _ _).2 p l .make (by norm_num [hp]) (by norm_num [hp]), hk]
    have := C166_draws (⟨(), [⟨⟨1, 0, 0⟩, 0⟩, ⟨⟨3, 0, 0⟩, 0⟩]⟩ : Cloud Unit (Pt ℝ ℕ)) l.numPoints d
    rw [if_neg (by simp)] at this
    exact this
  have hx : Lidar.ExactAt [⟨1, 0, 0⟩] ⟨1, 1, 5⟩ search p.matchDistMin := fun q => hs q _
  have hr : ∀ d : Fin l.numPoints → Fin 2, ∃ r, l.measure search
      (some (List.ofFn fun k => ([⟨⟨1, 0, 0⟩, 0⟩, ⟨⟨3, 0, 0⟩, 0⟩] : List (Pt ℝ ℕ))[d k])) State6.default = .ok r := by
    intro d
    exact ⟨_, Lidar.C71_score .make (by norm_num [hp]) hx (by
      rw [← List.length_pos_iff, List.length_ofFn]
      norm_num [hl, hp, Lidar.Like.make]) _⟩
  choose res hres using hr
  refine ⟨l, p, search, scan, [⟨⟨1, 0, 0⟩, 0⟩, ⟨⟨3, 0, 0⟩, 0⟩], _, res, .make, by norm_num [hp], by norm_num [hp], hx,
    hk.symm, rfl, rfl, hf, hres, ?_⟩
  refine (C166_score .make (by norm_num [hp]) (by norm_num [hp]) (by norm_num [hp]) hx hk.symm (by simp)
    (by norm_num [hl, hp, Lidar.Like.make]) State6.default hf hres rfl).2.1.trans ?_
  have hn : (State6.default : State6 ℝ).rot.normalized = 1 := Quat.C31_normalized_unit _ (by
    simp [State6.default, Quat.dot])
  have hpos : ∀ v : Vec3 ℝ, (State6.default : State6 ℝ).rot.normalized.rotate v + (State6.default : State6 ℝ).pos = v := by
    intro v
    rw [hn, (Quat.C29_one 1 v).2.2]
    ext <;> exact add_zero _
  have h1 : Lidar.matched p (Lidar.nearestSq [⟨1, 0, 0⟩] ⟨1, 1, 5⟩ ⟨1, 0, 0⟩) = 1 := by
    rw [Lidar.matched, if_pos]
    refine ⟨?_, by norm_num [hp]⟩
    simp [Lidar.nearestSq, weightedDist, hp]
  have h3 : Lidar.matched p (Lidar.nearestSq [⟨1, 0, 0⟩] ⟨1, 1, 5⟩ ⟨3, 0, 0⟩) = 0 := by
    rw [Lidar.matched, if_neg]
    rintro ⟨h, _⟩
    simp only [Lidar.nearestSq, List.map_cons, List.map_nil, List.minimum_singleton] at h
    rw [WithTop.coe_lt_coe] at h
    norm_num [weightedDist, hp] at h
  simp only [meanOver, hpos, List.map_cons, List.map_nil, h1, h3, List.sum_cons, List.sum_nil, List.length_cons, List.length_nil]
  norm_num

end Sampler
end Mcl3dl
