import Verif.Proofs.NodeReal

/-! # C131: the settings the node gives its ray caster -/

set_option linter.unusedSectionVars false

namespace Mcl3dl
namespace Node

/-- C131: with the kd-tree caster, a ray advances by the least of the three map cell sizes and ends
`hit_range` behind the point; around each position the map is searched within half the diagonal of a square
whose side is the greatest of the three map cell sizes. -/
theorem C131_kd_ray (P : Params) (cloud : Option DDA.Cloud) (search : Vec3 ℝ → ℝ → Outcome (List (ℕ × ℝ)))
    {b e : Vec3 ℝ} (hne : 0 < DDA.len (e - b)) {c0 : Option KDRay.St} {c : CastSt}
    (hs : (realCaster P cloud search).setRay (.inr c0) b e = .ok c) :
    ∃ m g : ℝ, IsLeast {P.mapDownsample.x, P.mapDownsample.y, P.mapDownsample.z} m ∧
      IsGreatest {P.mapDownsample.x, P.mapDownsample.y, P.mapDownsample.z} g ∧
      (∃ s, c = .inr (some s) ∧ s.length = ⌊(DDA.len (e - b) + P.beam.hitRange) / m⌋) ∧
      (2 ≤ ⌊(DDA.len (e - b) + P.beam.hitRange) / m⌋ →
        (search (DDA.rayPoint b e m) (Real.sqrt 2 * g / 2) = .ok [] →
          ∃ c', (realCaster P cloud search).next c = .ok (some ⟨false, 0, none⟩, c')) ∧
        ∀ w, search (DDA.rayPoint b e m) (Real.sqrt 2 * g / 2) = .ub w →
          (realCaster P cloud search).next c = .ub w) := by
  set cfg : KDRay.Cfg := ⟨P.mapDownsample.x, P.mapDownsample.y, P.mapDownsample.z, P.beam.hitRange⟩ with hcfg
  refine ⟨cfg.gridMin, cfg.gridMax, ?_, ?_, ?_⟩
  · unfold KDRay.Cfg.gridMin
    constructor
    · rcases min_choice (min cfg.gridX cfg.gridY) cfg.gridZ with h | h
      · rw [h]
        rcases min_choice cfg.gridX cfg.gridY with h | h <;> rw [h] <;> simp [hcfg]
      · rw [h]; simp [hcfg]
    · rintro x (rfl | rfl | rfl)
      · exact (min_le_left _ _).trans (min_le_left _ _)
      · exact (min_le_left _ _).trans (min_le_right _ _)
      · exact min_le_right _ _
  · unfold KDRay.Cfg.gridMax
    constructor
    · rcases max_choice (max cfg.gridX cfg.gridY) cfg.gridZ with h | h
      · rw [h]
        rcases max_choice cfg.gridX cfg.gridY with h | h <;> rw [h] <;> simp [hcfg]
      · rw [h]; simp [hcfg]
    · rintro x (rfl | rfl | rfl)
      · exact (le_max_left _ _).trans (le_max_left _ _)
      · exact (le_max_right _ _).trans (le_max_left _ _)
      · exact le_max_right _ _
  · have hz : ¬ (e - b).dot (e - b) = 0 := by
      intro h0
      have : DDA.len (e - b) = 0 := by
        rw [← DDA.norm_eq_len]; unfold Vec3.norm; rw [h0, Transc.sqrt_real, Real.sqrt_zero]
      linarith
    change ((((KDRay.setRay cfg b e).bind fun s => Outcome.ok (some s)).bind fun c =>
      Outcome.ok (Sum.inr c : CastSt))) = .ok c at hs
    obtain ⟨o1, h1, h2⟩ := DDA.bind_eq_ok hs
    obtain ⟨s, h3, h4⟩ := DDA.bind_eq_ok h1
    cases h4
    cases h2
    unfold KDRay.setRay at h3
    by_cases hg0 : cfg.gridMin = 0
    · rw [if_pos hg0] at h3; cases h3
    rw [if_neg hg0] at h3
    obtain ⟨L, hL, h5⟩ := DDA.bind_eq_ok h3
    obtain ⟨rfl, -⟩ := DDA.i32_ok hL
    rw [if_neg hz] at h5
    cases h5
    have hpos : b + (e - b).normalized.smul cfg.gridMin = DDA.rayPoint b e cfg.gridMin := by
      have hb : b = DDA.rayPoint b e 0 := by apply Vec3.ext <;> simp [DDA.rayPoint]
      have := KDRay.rayPoint_add (b := b) (e := e) 0 cfg.gridMin
      rw [← hb, zero_add] at this
      exact this
    rw [hpos]
    refine ⟨⟨_, rfl, ?_⟩, fun hL => ?_⟩
    · show ⌊((e - b).norm + cfg.hitTolerance) / cfg.gridMin⌋ = _
      rw [DDA.norm_eq_len]
    · have hL' : ¬ ⌊((e - b).norm + cfg.hitTolerance) / cfg.gridMin⌋ ≤ 1 := by
        rw [DDA.norm_eq_len]; exact not_le.2 (lt_of_lt_of_le (by norm_num) hL)
      have hnext : ∀ pts : List (Vec3 ℝ × ℕ), (Lidar.kdCaster cfg search pts).next
          (some ⟨DDA.rayPoint b e cfg.gridMin, some ((e - b).normalized.smul cfg.gridMin),
            ⌊((e - b).norm + cfg.hitTolerance) / cfg.gridMin⌋, 1⟩) =
          (((KDRay.resultAt cfg search pts.length (DDA.rayPoint b e cfg.gridMin)
            ((e - b).normalized.smul cfg.gridMin)).bind fun res => Outcome.ok (some res,
              (⟨DDA.rayPoint b e cfg.gridMin + (e - b).normalized.smul cfg.gridMin,
                some ((e - b).normalized.smul cfg.gridMin),
                ⌊((e - b).norm + cfg.hitTolerance) / cfg.gridMin⌋, 1 + 1⟩ : KDRay.St)))).bind fun r =>
            .ok (r.1.map fun x => ⟨x.collision, x.sinAngle, x.point.bind fun i => pts[i]?⟩, some r.2) := by
        intro pts
        simp only [Lidar.kdCaster, KDRay.getNext, if_neg hL']
      constructor
      · intro hq
        refine ⟨.inr (some ⟨DDA.rayPoint b e cfg.gridMin + (e - b).normalized.smul cfg.gridMin,
          some ((e - b).normalized.smul cfg.gridMin),
          ⌊((e - b).norm + cfg.hitTolerance) / cfg.gridMin⌋, 1 + 1⟩), ?_⟩
        show ((Lidar.kdCaster cfg search _).next _).bind _ = _
        rw [hnext]
        unfold KDRay.resultAt KDRay.Cfg.radius
        rw [hq]
        rfl
      · intro w hq
        show ((Lidar.kdCaster cfg search _).next _).bind _ = _
        rw [hnext]
        unfold KDRay.resultAt KDRay.Cfg.radius
        rw [hq]
        rfl

/-- C131: with the grid caster, the caster's settings are the three map cell sizes in order, the grid size of
the ray caster, half of the ray's opening angle and `hit_range`. -/
theorem C131_dda_ray (P : Params) (cloud : Option DDA.Cloud) (search : Vec3 ℝ → ℝ → Outcome (List (ℕ × ℝ))) :
    ∃ cfg : DDA.Cfg, cfg.mapGridX = P.mapDownsample.x ∧ cfg.mapGridY = P.mapDownsample.y ∧
      cfg.mapGridZ = P.mapDownsample.z ∧ cfg.gridSize = P.ddaGridSize ∧ cfg.rayAngleHalf = P.rayAngleHalf ∧
      cfg.hitTolerance = P.beam.hitRange ∧
      (∀ (s : DDA.St) (b e : Vec3 ℝ), (realCaster P cloud search).setRay (.inl s) b e =
        (DDA.setRay cfg s cloud b e).bind fun s => .ok (.inl s)) ∧
      ∀ s : DDA.St, (realCaster P cloud search).next (.inl s) =
        ((Lidar.ddaCaster cfg cloud).next s).bind fun r => .ok (r.1, .inl r.2) :=
  ⟨⟨P.mapDownsample.x, P.mapDownsample.y, P.mapDownsample.z, P.ddaGridSize, P.rayAngleHalf, P.beam.hitRange⟩,
    rfl, rfl, rfl, rfl, rfl, rfl, fun _ _ _ => rfl, fun _ => rfl⟩

/-- C131: which of the two is used is the parameter's choice. -/
theorem C131_caster_choice (P : Params) (flann : List (Vec3 ℝ) → Vec3 ℝ → ℝ → ℕ → List (ℕ × ℝ))
    (solve3 : Matrix (Fin 3) (Fin 3) ℝ → (Fin 3 → ℝ) × Matrix (Fin 3) (Fin 3) ℝ)
    (solve6 : (Fin 6 → Fin 6 → ℝ) → (Fin 6 → ℝ) × (Fin 6 → Fin 6 → ℝ)) :
    (realLib P flann solve3 solve6).caster0.isLeft = P.useDda := by
  show (if P.useDda then Sum.inl DDA.St.fresh else Sum.inr none : CastSt).isLeft = P.useDda
  cases P.useDda <;> rfl

/-- The hypotheses of `C131_kd_ray` are met: a ray of length 5 over cells of size 1/10. -/
example (P : Params) (hp : P.mapDownsample = ⟨1/10, 1/10, 1/10⟩) (hh : P.beam.hitRange = 3/10) :
    ∃ c, (realCaster P none fun _ _ => .ok []).setRay (.inr none) ⟨0, 0, 0⟩ ⟨5, 0, 0⟩ = .ok c := by
  have hlen : DDA.len ((⟨5, 0, 0⟩ : Vec3 ℝ) - ⟨0, 0, 0⟩) = 5 := by
    unfold DDA.len
    change Real.sqrt ((5 - 0) ^ 2 + (0 - 0) ^ 2 + (0 - 0) ^ 2) = 5
    rw [show ((5 : ℝ) - 0) ^ 2 + (0 - 0) ^ 2 + (0 - 0) ^ 2 = 5 ^ 2 by norm_num]
    exact Real.sqrt_sq (by norm_num)
  have hset : ∃ s, KDRay.setRay ⟨P.mapDownsample.x, P.mapDownsample.y, P.mapDownsample.z, P.beam.hitRange⟩
      ⟨0, 0, 0⟩ ⟨5, 0, 0⟩ = .ok s := by
    unfold KDRay.setRay
    have hg : (⟨P.mapDownsample.x, P.mapDownsample.y, P.mapDownsample.z, P.beam.hitRange⟩ : KDRay.Cfg).gridMin = 1 / 10 := by
      simp [KDRay.Cfg.gridMin, hp]
    rw [hg, if_neg (by norm_num), DDA.norm_eq_len, hlen, hh,
      show ⌊((5 : ℝ) + 3 / 10) / (1 / 10)⌋ = 53 by norm_num, DDA.i32_of (by norm_num) (by norm_num), Outcome.bind_ok]
    split_ifs <;> exact ⟨_, rfl⟩
  obtain ⟨s, hs⟩ := hset
  refine ⟨.inr (some s), ?_⟩
  show ((KDRay.setRay _ _ _).bind fun s => Outcome.ok (some s)).bind _ = _
  rw [hs]
  rfl

end Node
end Mcl3dl
