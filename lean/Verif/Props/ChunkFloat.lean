import Verif.Proofs.ChunkFloat

/-!
# C182: what rounding costs the chunked kd-tree
-/

set_option linter.unusedSectionVars false

namespace Mcl3dl
namespace ChunkedKdtree

open FloatCfg

/-- C182: whatever the rounding does, every id returned is a valid index of the input cloud and no id is returned twice; the
reported point is within the radius, with the distance the search of the chunk computed. -/
theorem C182_sound (M : FloatCfg) (cloud : List (Vec3 ℝ)) (dist : Vec3 ℝ → Vec3 ℝ → ℝ)
    (search : List (Vec3 ℝ) → Vec3 ℝ → ℝ → ℕ → List (ℕ × ℝ))
    (hs : ∀ pts q r num, ExactSearch pts (dist q) r num (search pts q r num))
    (q : Vec3 ℝ) (r : ℝ) (hr : r ≤ M.chunkLength) (num : ℕ) :
    ∃ res, M.radiusSearch (M.setInputCloud cloud) search q r num = .ok res ∧ (res.map Prod.fst).Nodup ∧
      ∀ e ∈ res, ∃ p, cloud[e.1]? = some p ∧ e.2 = dist q p ∧ dist q p < r ^ 2 := by
  obtain ⟨res, h1, cres, _, h3, h4⟩ := FloatCfg.radiusSearch_ok M cloud (dist q) search q r num (fun pts => hs pts q r num) hr
  refine ⟨res, h1, ?_⟩
  rw [h4]
  exact (FloatCfg.refine M cloud (dist q) q r num cres h3).1

/-- C182: let the operations have the relative error `u` and the absolute error `η`, and let all coordinates be at most `b`.
A search whose radius reaches at most `ρ` along each axis, with `ρ` below `max_search_radius` by at least
`12 u (b + chunk_length) + 6 η (chunk_length + 1)`, answers like a search over the whole cloud. -/
theorem C182_complete (M : FloatCfg) (u η b : ℝ) (h : M.Rounds u η) (hR : 0 < M.maxSearchRadius)
    (h2 : 2 * M.maxSearchRadius ≤ M.chunkLength) (cloud : List (Vec3 ℝ)) (hb : ∀ p ∈ cloud, Within b p)
    (dist : Vec3 ℝ → Vec3 ℝ → ℝ) (search : List (Vec3 ℝ) → Vec3 ℝ → ℝ → ℕ → List (ℕ × ℝ))
    (hs : ∀ pts q r num, ExactSearch pts (dist q) r num (search pts q r num))
    (q : Vec3 ℝ) (hq : Within b q) (r ρ : ℝ) (hr : r ≤ M.chunkLength)
    (hd : ∀ p ∈ cloud, dist q p < r ^ 2 → AxisNear ρ q p)
    (hρ : ρ + roundingLoss u η b M.chunkLength ≤ M.maxSearchRadius) (num : ℕ) :
    ∃ res, M.radiusSearch (M.setInputCloud cloud) search q r num = .ok res ∧ ExactSearch cloud (dist q) r num res := by
  have hL : 0 < M.chunkLength := by linarith
  obtain ⟨res, h1, cres, _, h3, h4⟩ := FloatCfg.radiusSearch_ok M cloud (dist q) search q r num (fun pts => hs pts q r num) hr
  refine ⟨res, h1, ?_⟩
  rw [h4]
  refine (FloatCfg.refine M cloud (dist q) q r num cres h3).2.1 fun p hp hpd => ?_
  obtain ⟨n1, n2, n3⟩ := hd p hp hpd
  obtain ⟨b1, b2, b3⟩ := hb p hp
  rw [FloatCfg.mem_targets]
  exact ⟨FloatCfg.axis_overlap h hL hR h2 ρ hρ q.x p.x hq.1 b1 n1, FloatCfg.axis_overlap h hL hR h2 ρ hρ q.y p.y hq.2.1 b2 n2,
    FloatCfg.axis_overlap h hL hR h2 ρ hρ q.z p.z hq.2.2 b3 n3⟩

/-- C182 with exact distances and axis weights of at least 1: the radius itself has to stay below `max_search_radius` by the
loss. -/
theorem C182_weighted (M : FloatCfg) (u η b : ℝ) (h : M.Rounds u η) (hR : 0 < M.maxSearchRadius)
    (h2 : 2 * M.maxSearchRadius ≤ M.chunkLength) (cloud : List (Vec3 ℝ)) (hb : ∀ p ∈ cloud, Within b p)
    (w : Vec3 ℝ) (hw : 1 ≤ w.x ∧ 1 ≤ w.y ∧ 1 ≤ w.z) (search : List (Vec3 ℝ) → Vec3 ℝ → ℝ → ℕ → List (ℕ × ℝ))
    (hs : ∀ pts q r num, ExactSearch pts (weightedDist w q) r num (search pts q r num))
    (q : Vec3 ℝ) (hq : Within b q) (r : ℝ) (hr0 : 0 ≤ r)
    (hr : r + roundingLoss u η b M.chunkLength ≤ M.maxSearchRadius) (num : ℕ) :
    ∃ res, M.radiusSearch (M.setInputCloud cloud) search q r num = .ok res ∧
      ExactSearch cloud (weightedDist w q) r num res := by
  have hb0 : 0 ≤ b := (abs_nonneg _).trans hq.1
  have hl : 0 ≤ roundingLoss u η b M.chunkLength := by
    have hL : 0 < M.chunkLength := by linarith
    have := h.unit_nonneg
    have := h.abs_nonneg
    unfold roundingLoss
    positivity
  exact C182_complete M u η b h hR h2 cloud hb (weightedDist w) search hs q hq r r (by linarith)
    (fun p _ hpd => axis_close w q p hw r hr0 hpd) hr num

/-- C182: with `float` and the default chunk length the loss is below a millimetre if all coordinates are below 1 km. -/
theorem C182_float : roundingLoss (2⁻¹ ^ 24) (2⁻¹ ^ 150) 1000 20 < 1 / 1000 := by
  norm_num [roundingLoss]

/-- A rounding with a relative error of 1/10000: numbers next to 1 become 1. -/
noncomputable def snap (x : ℝ) : ℝ := if |x - 1| ≤ 1 / 20000 then 1 else x

theorem snap_err (x : ℝ) : |snap x - x| ≤ 1 / 10000 * |x| + 0 := by
  unfold snap
  split_ifs with h
  · rw [abs_sub_comm, add_zero]
    have h' := abs_le.1 h
    rw [abs_of_pos (by linarith : (0 : ℝ) < x)]
    linarith
  · simp

/-- C182: the loss is real: with a rounding of this kind a search with a radius of `max_search_radius` misses a point nearer
than that, although the exact tree would find it. -/
theorem C182_lost :
    ∃ (M : FloatCfg) (cloud : List (Vec3 ℝ)) (q p : Vec3 ℝ), M.Rounds (1 / 10000) 0 ∧ p ∈ cloud ∧
      0 < M.maxSearchRadius ∧ 2 * M.maxSearchRadius ≤ M.chunkLength ∧
      weightedDist ⟨1, 1, 1⟩ q p < M.maxSearchRadius ^ 2 ∧
      ∀ search num, M.radiusSearch (M.setInputCloud cloud) search q M.maxSearchRadius num = .ok [] := by
  have hM : (⟨20, 2 / 5, 1 / 20, snap⟩ : FloatCfg).Rounds (1 / 10000) 0 :=
    ⟨by norm_num, by norm_num, le_rfl, snap_err, by norm_num⟩
  refine ⟨⟨20, 2 / 5, 1 / 20, snap⟩, [⟨195995 / 10000, 10, 10⟩], ⟨19999 / 1000, 10, 10⟩, ⟨195995 / 10000, 10, 10⟩, hM,
    by simp, by norm_num, by norm_num, by norm_num [weightedDist], ?_⟩
  intro search num
  have s1 : snap (19999 / 1000 * (1 / 20)) = 1 := by
    unfold snap; rw [if_pos]; rw [abs_le]; constructor <;> norm_num
  have hs : ∀ x : ℝ, x < 1 / 2 ∨ 3 / 2 < x ∨ (6 / 10 < x ∧ x < 99 / 100) → snap x = x := by
    intro x hx
    unfold snap
    rw [if_neg]
    intro h
    have := abs_le.1 h
    rcases hx with h | h | h
    · linarith
    · linarith
    · linarith [h.2]
  have hq : FloatCfg.chunkId ⟨20, 2 / 5, 1 / 20, snap⟩ ⟨19999 / 1000, 10, 10⟩ = ⟨1, 0, 0⟩ := by
    have s2 : snap (10 * (1 / 20)) = 10 * (1 / 20) := by
      unfold snap; rw [if_neg]; intro h; have := (abs_le.1 h).1; norm_num at this
    simp only [FloatCfg.chunkId, FloatCfg.axisId, s1, s2, ChunkId.mk.injEq, Int.floor_eq_iff]
    norm_num
  have hp : FloatCfg.chunkId ⟨20, 2 / 5, 1 / 20, snap⟩ ⟨195995 / 10000, 10, 10⟩ = ⟨0, 0, 0⟩ := by
    have s2 : snap (10 * (1 / 20)) = 10 * (1 / 20) := by
      unfold snap; rw [if_neg]; intro h; have := (abs_le.1 h).1; norm_num at this
    have s3 : snap (195995 / 10000 * (1 / 20)) = 195995 / 10000 * (1 / 20) :=
      hs _ (Or.inr (Or.inr (by norm_num)))
    simp only [FloatCfg.chunkId, FloatCfg.axisId, s2, s3, ChunkId.mk.injEq, Int.floor_eq_iff]
    norm_num
  have hbx : FloatCfg.bound ⟨20, 2 / 5, 1 / 20, snap⟩ (195995 / 10000) 0 = 0 := by
    have a0 : snap ((0 : ℤ) : ℝ) = 0 := by rw [hs _ (Or.inl (by norm_num))]; norm_num
    have a1 : snap (0 * 20) = 0 := by rw [hs _ (Or.inl (by norm_num))]; norm_num
    have a2 : snap (195995 / 10000 - 0) = 195995 / 10000 := by
      rw [hs _ (Or.inr (Or.inl (by norm_num)))]; norm_num
    have a3 : snap (20 - 2 / 5) = 20 - 2 / 5 := hs _ (Or.inr (Or.inl (by norm_num)))
    have e : FloatCfg.inChunk ⟨20, 2 / 5, 1 / 20, snap⟩ (195995 / 10000) 0 = 195995 / 10000 := by
      simp only [FloatCfg.inChunk, a0, a1, a2]
    unfold FloatCfg.bound
    rw [e]
    simp only [a3]
    rw [if_neg (by norm_num), if_neg (by norm_num)]
  have hempty : FloatCfg.setInputCloud ⟨20, 2 / 5, 1 / 20, snap⟩ [⟨195995 / 10000, 10, 10⟩] ⟨1, 0, 0⟩ = [] := by
    rw [FloatCfg.content]
    simp only [List.zipIdx_cons, List.zipIdx_nil, List.filter_cons, List.filter_nil]
    rw [if_neg]
    · rfl
    · rw [decide_eq_true_eq, FloatCfg.mem_targets, hp]
      simp only [hbx]
      simp
  unfold FloatCfg.radiusSearch
  rw [if_neg (by norm_num)]
  simp only [hq, hempty, if_true]

/-- The same search with a radius below the loss of C182_complete finds the point (non-vacuity, with a rounding that does
change numbers): the default chunk length, overlap 0.4 m, radius 0.2 m, coordinates up to 100 m. -/
example : ∃ res, FloatCfg.radiusSearch ⟨20, 2 / 5, 1 / 20, snap⟩
      (FloatCfg.setInputCloud ⟨20, 2 / 5, 1 / 20, snap⟩ [⟨198 / 10, 10, 10⟩])
      (fun pts q r num => (exactSearch_exists pts (weightedDist ⟨1, 1, 5⟩ q) r num).choose)
      ⟨19999 / 1000, 10, 10⟩ (21 / 100) 1 = .ok res ∧
    ExactSearch [⟨198 / 10, 10, 10⟩] (weightedDist ⟨1, 1, 5⟩ ⟨19999 / 1000, 10, 10⟩) (21 / 100) 1 res := by
  have hM : (⟨20, 2 / 5, 1 / 20, snap⟩ : FloatCfg).Rounds (1 / 10000) 0 :=
    ⟨by norm_num, by norm_num, le_rfl, snap_err, by norm_num⟩
  exact C182_weighted _ _ _ 100 hM (by norm_num) (by norm_num) _
    (by intro p hp; simp only [List.mem_singleton] at hp; subst hp; norm_num [Within, abs_of_pos])
    ⟨1, 1, 5⟩ (by norm_num) _ (fun pts q r num => (exactSearch_exists pts (weightedDist ⟨1, 1, 5⟩ q) r num).choose_spec)
    _ (by norm_num [Within, abs_of_pos]) _ (by norm_num) (by norm_num [roundingLoss]) _

end ChunkedKdtree
end Mcl3dl
