import Verif.Props.KDRay
import Verif.Props.ChunkedKdtree

/-! # Properties C65 and C107 of whole rays, in terms of the constructor arguments -/

set_option linter.unusedSectionVars false

namespace Mcl3dl
namespace KDRay
open DDA (len rayPoint OnRay)

/-- The step along the ray: the smallest of the three grid sizes. -/
noncomputable def stepOf (cfg : Cfg) : ℝ := sInf {cfg.gridX, cfg.gridY, cfg.gridZ}

/-- The largest of the three grid sizes. -/
noncomputable def largest (cfg : Cfg) : ℝ := sSup {cfg.gridX, cfg.gridY, cfg.gridZ}

theorem stepOf_eq (cfg : Cfg) : stepOf cfg = cfg.gridMin := by
  unfold stepOf Cfg.gridMin
  have h : IsLeast {cfg.gridX, cfg.gridY, cfg.gridZ} (min (min cfg.gridX cfg.gridY) cfg.gridZ) := by
    constructor
    · rcases min_choice (min cfg.gridX cfg.gridY) cfg.gridZ with h | h <;> rw [h]
      · rcases min_choice cfg.gridX cfg.gridY with h | h <;> rw [h] <;> simp
      · simp
    · intro x hx
      simp only [Set.mem_insert_iff, Set.mem_singleton_iff] at hx
      rcases hx with rfl | rfl | rfl <;> simp
  exact h.csInf_eq

theorem largest_eq (cfg : Cfg) : largest cfg = cfg.gridMax := by
  unfold largest Cfg.gridMax
  have h : IsGreatest {cfg.gridX, cfg.gridY, cfg.gridZ} (max (max cfg.gridX cfg.gridY) cfg.gridZ) := by
    constructor
    · rcases max_choice (max cfg.gridX cfg.gridY) cfg.gridZ with h | h <;> rw [h]
      · rcases max_choice cfg.gridX cfg.gridY with h | h <;> rw [h] <;> simp
      · simp
    · intro x hx
      simp only [Set.mem_insert_iff, Set.mem_singleton_iff] at hx
      rcases hx with rfl | rfl | rfl <;> simp
  exact h.csSup_eq

theorem radius_sq (cfg : Cfg) : cfg.radius ^ 2 = largest cfg ^ 2 / 2 := by
  rw [largest_eq, Cfg.radius, div_pow, mul_pow, Real.sq_sqrt (by norm_num)]
  ring

/-- The squared distance from a point beside the ray to a point of the ray. -/
theorem dist_beside {b e : Vec3 ℝ} (hne : 0 < len (e - b)) {p : Vec3 ℝ} {t : ℝ}
    (hfoot : (p - rayPoint b e t).dot (e - b) = 0) (s : ℝ) :
    weightedDist ⟨1, 1, 1⟩ (rayPoint b e s) p = weightedDist ⟨1, 1, 1⟩ (rayPoint b e t) p + (t - s) ^ 2 := by
  have hsq : len (e - b) ^ 2 = (e.x - b.x) ^ 2 + (e.y - b.y) ^ 2 + (e.z - b.z) ^ 2 := by
    unfold len; rw [Real.sq_sqrt (by positivity)]; rfl
  have hn := hne.ne'
  change (p.x - (b.x + t * ((e.x - b.x) / len (e - b)))) * (e.x - b.x) +
    (p.y - (b.y + t * ((e.y - b.y) / len (e - b)))) * (e.y - b.y) +
    (p.z - (b.z + t * ((e.z - b.z) / len (e - b)))) * (e.z - b.z) = 0 at hfoot
  change (1 * (p.x - (b.x + s * ((e.x - b.x) / len (e - b))))) ^ 2 + (1 * (p.y - (b.y + s * ((e.y - b.y) / len (e - b))))) ^ 2 +
    (1 * (p.z - (b.z + s * ((e.z - b.z) / len (e - b))))) ^ 2 =
    (1 * (p.x - (b.x + t * ((e.x - b.x) / len (e - b))))) ^ 2 + (1 * (p.y - (b.y + t * ((e.y - b.y) / len (e - b))))) ^ 2 +
    (1 * (p.z - (b.z + t * ((e.z - b.z) / len (e - b))))) ^ 2 + (t - s) ^ 2
  generalize len (e - b) = l at *
  have ht : ∀ (u x : ℝ), u * (x / l) = u / l * x := by intro u x; ring
  simp only [ht] at hfoot ⊢
  have : (t - s) ^ 2 = (t / l - s / l) ^ 2 * l ^ 2 := by field_simp
  rw [this, hsq]
  generalize t / l = t' at *
  generalize s / l = s' at *
  linear_combination 2 * (t' - s') * hfoot

/-- C65, C107: what `n` calls return for a ray of positive length.  There are `floor((length + tolerance) / step) - 1`
samples, at the distances step, 2 step, … from the begin, then `false`; a sample is a collision exactly if a map point
is closer than the largest grid size over the square root of 2 (weighted distance). -/
theorem C107_samples {cfg : Cfg} {cloud : List (Vec3 ℝ)} {w : Vec3 ℝ}
    {search : Vec3 ℝ → ℝ → Outcome (List (ℕ × ℝ))} (hsearch : ExactOver cfg cloud w search) {b e : Vec3 ℝ}
    (hne : 0 < len (e - b)) {s : St} (hs : setRay cfg b e = .ok s) (n : ℕ) :
    ∃ (rs : List CastResult) (s' : St),
      nexts cfg search cloud.length n s = .ok (rs.map some ++ List.replicate (n - rs.length) none, s') ∧
      rs.length = min n (⌊(len (e - b) + cfg.hitTolerance) / stepOf cfg⌋ - 1).toNat ∧
      ∀ k (hk : k < rs.length), rs[k].pos = rayPoint b e ((k + 1) * stepOf cfg) ∧
        (rs[k].collision = true ↔ ∃ p ∈ cloud, weightedDist w rs[k].pos p < largest cfg ^ 2 / 2) ∧
        (rs[k].collision = true ↔ ∃ id, rs[k].point = some id) ∧
        (∀ id, rs[k].point = some id → ∃ p, cloud[id]? = some p ∧
          ∀ q ∈ cloud, weightedDist w rs[k].pos p ≤ weightedDist w rs[k].pos q) := by
  obtain ⟨rs, s', h1, h2, h3⟩ := C65_results hsearch hne hs n
  obtain ⟨rs', s'', g1, g2, g3⟩ := C65_samples hsearch hne hs n
  refine ⟨rs, s', h1, by rw [h2, stepOf_eq], fun k hk => ?_⟩
  have hpos : rs[k].pos = rayPoint b e ((k + 1) * cfg.gridMin) := by
    obtain ⟨res, hr, hp⟩ := resultAt_ok (cfg := cfg) hsearch (rayPoint b e ((k + 1) * cfg.gridMin))
      ((e - b).normalized.smul cfg.gridMin)
    rw [h3 k hk] at hr
    cases hr
    exact hp
  obtain ⟨c1, c2, c3⟩ := C107_collision hsearch (h3 k hk)
  rw [← radius_sq, hpos, stepOf_eq]
  exact ⟨rfl, c1, c2, fun id hid => by obtain ⟨p, a1, _, a3⟩ := c3 id hid; exact ⟨p, a1, a3⟩⟩

/-- C107: with unit weights no obstacle close to the ray is missed: a map point beside the ray, closer to it than half
the largest grid size, makes one of the samples a collision, unless its foot on the ray is nearer than half a step to
the begin or farther than half a step behind the last sample. -/
theorem C107_no_miss {cfg : Cfg} (hg : 0 < stepOf cfg) {cloud : List (Vec3 ℝ)}
    {search : Vec3 ℝ → ℝ → Outcome (List (ℕ × ℝ))} (hsearch : ExactOver cfg cloud ⟨1, 1, 1⟩ search) {b e : Vec3 ℝ}
    (hne : 0 < len (e - b)) {s : St} (hs : setRay cfg b e = .ok s) (n : ℕ) {l : List (Option CastResult)} {s' : St}
    (hn : nexts cfg search cloud.length n s = .ok (l, s')) (hall : none ∈ l) {p : Vec3 ℝ} (hp : p ∈ cloud) {t : ℝ}
    (hfoot : (p - rayPoint b e t).dot (e - b) = 0) (hd : weightedDist ⟨1, 1, 1⟩ (rayPoint b e t) p < (largest cfg / 2) ^ 2)
    (h1 : stepOf cfg / 2 ≤ t)
    (h2 : t ≤ (⌊(len (e - b) + cfg.hitTolerance) / stepOf cfg⌋ - 1) * stepOf cfg + stepOf cfg / 2)
    (h3 : 2 ≤ ⌊(len (e - b) + cfg.hitTolerance) / stepOf cfg⌋) :
    ∃ res, some res ∈ l ∧ res.collision = true := by
  obtain ⟨rs, s2, g1, g2, g3⟩ := C107_samples hsearch hne hs n
  rw [hn] at g1
  simp only [Outcome.ok.injEq, Prod.mk.injEq] at g1
  obtain ⟨rfl, rfl⟩ := g1
  obtain ⟨N, hN⟩ : ∃ N : ℕ, ⌊(len (e - b) + cfg.hitTolerance) / stepOf cfg⌋ = N + 1 :=
    ⟨(⌊(len (e - b) + cfg.hitTolerance) / stepOf cfg⌋ - 1).toNat, by omega⟩
  rw [hN] at h2 h3 g2
  have hlen : rs.length = N := by
    rcases List.mem_append.1 hall with h | h
    · simp at h
    · have := (List.mem_replicate.1 h).1
      omega
  set g := stepOf cfg with hgdef
  have hgM : g ≤ largest cfg := by
    rw [hgdef, stepOf_eq, largest_eq, Cfg.gridMin, Cfg.gridMax]
    exact (min_le_right _ _).trans (le_max_right _ _)
  -- the sample nearest to the foot
  obtain ⟨k, hk, hk1, hk2⟩ : ∃ k : ℕ, k < N ∧ ((k : ℝ) + 1) * g - g / 2 ≤ t ∧ t ≤ ((k : ℝ) + 1) * g + g / 2 := by
    have hq : 1 ≤ t / g + 1 / 2 := by
      have : 1 / 2 ≤ t / g := by rw [le_div_iff₀ hg]; linarith
      linarith
    have hfl : 1 ≤ ⌊t / g + 1 / 2⌋ := Int.le_floor.2 (by exact_mod_cast hq)
    obtain ⟨m, hm⟩ : ∃ m : ℕ, ⌊t / g + 1 / 2⌋ = m + 1 := ⟨(⌊t / g + 1 / 2⌋ - 1).toNat, by omega⟩
    have f1 : (m : ℝ) + 1 ≤ t / g + 1 / 2 := by
      have := Int.floor_le (t / g + 1 / 2); rw [hm] at this; exact_mod_cast this
    have f2 : t / g + 1 / 2 < (m : ℝ) + 2 := by
      have := Int.lt_floor_add_one (t / g + 1 / 2); rw [hm] at this; push_cast at this; linarith
    have ht : t = t / g * g := by field_simp
    have hb : t ≤ (N : ℝ) * g + g / 2 := by push_cast at h2; linarith
    rcases lt_or_ge m N with hmN | hmN
    · refine ⟨m, hmN, ?_, ?_⟩ <;> nlinarith
    · have hN1 : 1 ≤ N := by omega
      have hmN' : (N : ℝ) ≤ m := by exact_mod_cast hmN
      refine ⟨N - 1, by omega, ?_, ?_⟩ <;> push_cast [Nat.cast_sub hN1] <;> nlinarith
  refine ⟨rs[k], List.mem_append_left _ (List.mem_map_of_mem (List.getElem_mem (by omega))), ?_⟩
  obtain ⟨hpos, hcol, _⟩ := g3 k (by omega)
  rw [hcol, hpos]
  refine ⟨p, hp, ?_⟩
  rw [dist_beside hne hfoot]
  have hts : (t - ((k : ℝ) + 1) * g) ^ 2 ≤ (g / 2) ^ 2 := by
    exact sq_le_sq' (by linarith) (by linarith)
  nlinarith

/-- The chunked kd-tree answers exactly at the radii of the caster, if its search radius is at least four times the
largest grid size (the range the beam model asks for), its chunks are at least twice that long and the axis weights
are at least 1. -/
theorem exactOver_chunked {cfg : Cfg} (hg : 0 < stepOf cfg) (kd : ChunkedKdtree.Cfg ℝ)
    (hR : 4 * largest cfg ≤ kd.maxSearchRadius) (h2 : 2 * kd.maxSearchRadius ≤ kd.chunkLength) (cloud : List (Vec3 ℝ))
    {w : Vec3 ℝ} (hw : 1 ≤ w.x ∧ 1 ≤ w.y ∧ 1 ≤ w.z) {flann : List (Vec3 ℝ) → Vec3 ℝ → ℝ → ℕ → List (ℕ × ℝ)}
    (hf : ∀ pts q r num, ExactSearch pts (weightedDist w q) r num (flann pts q r num)) :
    ExactOver cfg cloud w fun q r =>
      ChunkedKdtree.radiusSearch kd (ChunkedKdtree.setInputCloud kd cloud) flann q r 1 := by
  have hgM : cfg.gridMin ≤ cfg.gridMax := (min_le_right _ _).trans (le_max_right _ _)
  rw [stepOf_eq] at hg
  rw [largest_eq] at hR
  have hrt : Real.sqrt 2 ≤ 2 := by
    rw [Real.sqrt_le_left (by norm_num)]; norm_num
  have hr0 : 0 ≤ Real.sqrt 2 := Real.sqrt_nonneg 2
  have hrad : 0 ≤ cfg.radius ∧ cfg.radius ≤ cfg.gridMax := by
    unfold Cfg.radius
    constructor
    · have : 0 ≤ cfg.gridMax := by linarith
      positivity
    · nlinarith
  intro q r hr
  refine ChunkedKdtree.C52_equals_whole_cloud_search kd (by linarith) h2 cloud w hw flann hf q r ?_ ?_ 1
  · rcases hr with rfl | rfl <;> linarith [hrad.1, hrad.2]
  · rcases hr with rfl | rfl <;> linarith [hrad.1, hrad.2]

/-- C107 with the chunked kd-tree: what `C107_samples` says holds for the caster on a chunked kd-tree as the node sets
it up (search radius at least four times the largest grid size, chunks at least twice as long, axis weights at least
1), for every map cloud. -/
theorem C107_chunked {cfg : Cfg} (hg : 0 < stepOf cfg) (kd : ChunkedKdtree.Cfg ℝ)
    (hR : 4 * largest cfg ≤ kd.maxSearchRadius) (h2 : 2 * kd.maxSearchRadius ≤ kd.chunkLength) (cloud : List (Vec3 ℝ))
    {w : Vec3 ℝ} (hw : 1 ≤ w.x ∧ 1 ≤ w.y ∧ 1 ≤ w.z) {flann : List (Vec3 ℝ) → Vec3 ℝ → ℝ → ℕ → List (ℕ × ℝ)}
    (hf : ∀ pts q r num, ExactSearch pts (weightedDist w q) r num (flann pts q r num)) {b e : Vec3 ℝ}
    (hne : 0 < len (e - b)) {s : St} (hs : setRay cfg b e = .ok s) (n : ℕ) :
    ∃ (rs : List CastResult) (s' : St),
      nexts cfg (fun q r => ChunkedKdtree.radiusSearch kd (ChunkedKdtree.setInputCloud kd cloud) flann q r 1)
        cloud.length n s = .ok (rs.map some ++ List.replicate (n - rs.length) none, s') ∧
      rs.length = min n (⌊(len (e - b) + cfg.hitTolerance) / stepOf cfg⌋ - 1).toNat ∧
      ∀ k (hk : k < rs.length), rs[k].pos = rayPoint b e ((k + 1) * stepOf cfg) ∧
        (rs[k].collision = true ↔ ∃ p ∈ cloud, weightedDist w rs[k].pos p < largest cfg ^ 2 / 2) ∧
        (rs[k].collision = true ↔ ∃ id, rs[k].point = some id) ∧
        (∀ id, rs[k].point = some id → ∃ p, cloud[id]? = some p ∧
          ∀ q ∈ cloud, weightedDist w rs[k].pos p ≤ weightedDist w rs[k].pos q) :=
  C107_samples (exactOver_chunked hg kd hR h2 cloud hw hf) hne hs n

/-- The default configuration: grid 0.1, search radius 0.4, chunks of 20, weights 1, 1, 5. -/
example : ∃ (cfg : Cfg) (kd : ChunkedKdtree.Cfg ℝ) (w : Vec3 ℝ), 0 < stepOf cfg ∧ 4 * largest cfg ≤ kd.maxSearchRadius ∧
    2 * kd.maxSearchRadius ≤ kd.chunkLength ∧ 1 ≤ w.x ∧ 1 ≤ w.y ∧ 1 ≤ w.z := by
  refine ⟨⟨1/10, 1/10, 1/10, 3/10⟩, ⟨20, 4/10, false⟩, ⟨1, 1, 5⟩, ?_, ?_, ?_, ?_, ?_, ?_⟩
  · rw [stepOf_eq]; norm_num [Cfg.gridMin]
  · rw [largest_eq]; norm_num [Cfg.gridMax]
  all_goals norm_num

/-- A wall point 0.3 beside the middle of a ray of length 10 on a grid of size 1. -/
example : ∃ (cfg : Cfg) (cloud : List (Vec3 ℝ)) (search : Vec3 ℝ → ℝ → Outcome (List (ℕ × ℝ))) (b e p : Vec3 ℝ) (s : St)
    (t : ℝ), 0 < stepOf cfg ∧ ExactOver cfg cloud ⟨1, 1, 1⟩ search ∧ 0 < len (e - b) ∧ setRay cfg b e = .ok s ∧ p ∈ cloud ∧
    (p - rayPoint b e t).dot (e - b) = 0 ∧ weightedDist ⟨1, 1, 1⟩ (rayPoint b e t) p < (largest cfg / 2) ^ 2 ∧
    stepOf cfg / 2 ≤ t ∧
    t ≤ (⌊(len (e - b) + cfg.hitTolerance) / stepOf cfg⌋ - 1) * stepOf cfg + stepOf cfg / 2 ∧
    2 ≤ ⌊(len (e - b) + cfg.hitTolerance) / stepOf cfg⌋ := by
  have hlen : len ((⟨10, 0, 0⟩ : Vec3 ℝ) - ⟨0, 0, 0⟩) = 10 := by
    show Real.sqrt ((10 - 0) ^ 2 + (0 - 0) ^ 2 + (0 - 0) ^ 2) = 10
    rw [show ((10:ℝ) - 0) ^ 2 + (0 - 0) ^ 2 + (0 - 0) ^ 2 = 10 ^ 2 by norm_num, Real.sqrt_sq (by norm_num)]
  have hstep : stepOf ⟨1, 1, 1, 1/2⟩ = 1 := by rw [stepOf_eq]; simp [Cfg.gridMin]
  have hlarge : largest ⟨1, 1, 1, 1/2⟩ = 1 := by rw [largest_eq]; simp [Cfg.gridMax]
  have hfl : ⌊((10:ℝ) + 1 / 2) / 1⌋ = 10 := by norm_num [Int.floor_eq_iff]
  have hray : rayPoint ⟨0, 0, 0⟩ ⟨10, 0, 0⟩ 5 = ⟨5, 0, 0⟩ := by
    unfold rayPoint; rw [hlen]; norm_num
  choose f hf using fun (q : Vec3 ℝ) (r : ℝ) =>
    ChunkedKdtree.exactSearch_exists [(⟨5, 3/10, 0⟩ : Vec3 ℝ)] (weightedDist ⟨1, 1, 1⟩ q) r 1
  refine ⟨⟨1, 1, 1, 1/2⟩, [⟨5, 3/10, 0⟩], fun q r => .ok (f q r), ⟨0, 0, 0⟩, ⟨10, 0, 0⟩, ⟨5, 3/10, 0⟩,
    ⟨⟨0, 0, 0⟩ + ((⟨10, 0, 0⟩ : Vec3 ℝ) - ⟨0, 0, 0⟩).normalized.smul 1,
      some (((⟨10, 0, 0⟩ : Vec3 ℝ) - ⟨0, 0, 0⟩).normalized.smul 1), 10, 1⟩, 5, ?_, fun q r _ => ⟨_, rfl, hf q r⟩, ?_, ?_, ?_, ?_, ?_, ?_, ?_, ?_⟩
  · rw [hstep]; norm_num
  · rw [hlen]; norm_num
  · unfold setRay
    rw [← stepOf_eq, hstep, if_neg (by norm_num), DDA.norm_eq_len, hlen, hfl]
    have : DDA.i32 10 = .ok 10 := by simp [DDA.i32]
    rw [this, Outcome.bind_ok, if_neg]
    show ¬ ((10:ℝ) - 0) * (10 - 0) + (0 - 0) * (0 - 0) + (0 - 0) * (0 - 0) = 0
    norm_num
  · simp
  · rw [hray]
    show ((5:ℝ) - 5) * (10 - 0) + (3 / 10 - 0) * (0 - 0) + (0 - 0) * (0 - 0) = 0
    norm_num
  · rw [hray, hlarge]; norm_num [weightedDist]
  · rw [hstep]; norm_num
  · rw [hlen, hstep, hfl]; norm_num
  · rw [hlen, hstep, hfl]; norm_num

end KDRay
end Mcl3dl
