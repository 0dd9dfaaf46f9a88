import Verif.Proofs.DDARun

set_option linter.unusedSectionVars false

/-!
# C58 – C64: ray casting through the DDA grid

`Reachable cfg S s0` : `s0` is the caster after any history of calls with map clouds from `S`.
-/

namespace Mcl3dl
namespace DDA

/-! ## C58 -/

/-- C58: in any history, a call of `getNextCastResult` on a ray that has been set is defined (no access
outside `point_exists_`, no dereference of a missing entry), however often it is called. -/
theorem C58_calls_defined {cfg : Cfg} (hg : 0 < cfg.gridSize) {S : Set Cloud} {s : St}
    (h : Reachable cfg S s) (hr : s.ray.isSome) (n : ℕ) : (nexts cfg n s).isOk = true := by
  have hI := reachable_inv hg h
  clear h
  induction n generalizing s with
  | zero => rfl
  | succ n ih =>
    obtain ⟨r, hr'⟩ := Option.isSome_iff_exists.1 hr
    obtain ⟨o, s', h', hI'⟩ := getNext_ok hI hr'
    have hs' : s'.ray.isSome := by
      obtain ⟨g, hgr, -⟩ := hI.ray r hr'
      unfold getNext at h'
      rw [hgr, hr'] at h'
      simp only at h'
      rcases hadv : advance g r with ⟨b, r'⟩
      rw [hadv] at h'
      cases b with
      | false => cases h'; rfl
      | true =>
        simp only at h'
        obtain ⟨x, hx, h'⟩ := bind_eq_ok h'
        cases h'; rfl
    have := ih hs' hI'
    rw [nexts, h', Outcome.bind_ok]
    cases hn : nexts cfg n s' with
    | ok a => rw [Outcome.bind_ok]; rfl
    | throws m => rw [hn] at this; cases this
    | ub w => rw [hn] at this; cases this

/-- C58: the flat index of a cell of the grid is within the array, and different cells have different
indices. -/
theorem C58_array_index {size : Fin 3 → ℤ} (hlt : size 0 * size 1 * size 2 < 2 ^ 31) {c : Cell}
    (hc : CellInGrid size c) :
    ∃ a, arrayIndex size c = .ok a ∧ 0 ≤ a ∧ a < size 0 * size 1 * size 2 ∧
      ∀ d, CellInGrid size d → arrayIndex size d = .ok a → d = c := by
  refine ⟨flat size c, arrayIndex_eq hc hlt, (flat_range hc).1, (flat_range hc).2, ?_⟩
  intro d hd h
  rw [arrayIndex_eq hd hlt, Outcome.ok.injEq] at h
  exact flat_inj hd hc h

/-- a cell index is characterised by the cube -/
theorem cellOf_iff {gs : ℝ} (hg : 0 < gs) {mn : Fin 3 → ℝ} {p : Vec3 ℝ} (h : ∀ i : Fin 3, mn i ≤ p.get i)
    (c : Cell) : cellOf gs mn p = c ↔ InCube gs mn c p := by
  unfold InCube
  rw [funext_iff]
  apply forall_congr'
  intro i
  unfold cellOf
  have h0 : 0 ≤ (p.get i - mn i) / gs := div_nonneg (by linarith [h i]) hg.le
  rw [truncZ_nonneg h0, Int.floor_eq_iff, le_div_iff₀ hg, div_lt_iff₀ hg]
  constructor
  · rintro ⟨a, b⟩; exact ⟨by linarith, by linarith⟩
  · rintro ⟨a, b⟩; exact ⟨by linarith, by linarith⟩

/-- C58: every map point belongs to exactly one cell, and that cell is inside the grid. -/
theorem C58_points_in_grid {gs : ℝ} (hg : 0 < gs) {pts : List (Vec3 ℝ)} {mn mx : Fin 3 → ℝ}
    (hb : IsBoundingBox pts mn mx) {p : Vec3 ℝ} (hp : p ∈ pts) :
    ∃! c, InCube gs mn c p ∧ CellInGrid (gridSize gs mn mx) c := by
  have hin : ∀ i : Fin 3, mn i ≤ p.get i ∧ p.get i ≤ mx i := fun i => ⟨hb.lo p hp i, hb.hi p hp i⟩
  refine ⟨cellOf gs mn p, ⟨(cellOf_iff hg (fun i => (hin i).1) _).1 rfl,
    cellOf_inGrid hg (fun i => rfl) hin⟩, ?_⟩
  rintro d ⟨hd, -⟩
  exact ((cellOf_iff hg (fun i => (hin i).1) d).2 hd).symm

theorem truncZ_abs_lt {x : ℝ} {m : ℤ} (h : |x| ≤ m) : |truncZ x| ≤ m := by
  rw [abs_le] at h ⊢
  unfold truncZ
  split_ifs with h0
  · have a := Int.floor_nonneg.2 h0
    have b : ⌊x⌋ ≤ m := by
      have : (⌊x⌋ : ℝ) ≤ m := (Int.floor_le x).trans h.2
      exact_mod_cast this
    constructor <;> omega
  · have a : ⌈x⌉ ≤ 0 := by rw [Int.ceil_le]; push_cast; linarith
    have b : -m ≤ ⌈x⌉ := by
      have : ((-m : ℤ) : ℝ) ≤ ⌈x⌉ := by push_cast; linarith [Int.le_ceil x]
      exact_mod_cast this
    constructor <;> omega

/-- C58: setting a ray is defined whenever the map is not empty, the number of cells fits `int`
(2^28 cells per axis leave room for the index sums), the ray has positive length and its extended end
is not absurdly far away. -/
theorem C58_setRay_defined {cfg : Cfg} (hg : 0 < cfg.gridSize) {S : Set Cloud} {s : St}
    (h : Reachable cfg S s) (hS : StampsDiffer S) {c : Cloud} (hc : c ∈ S) {mn mx : Fin 3 → ℝ}
    (hb : IsBoundingBox (c.pts.map Prod.fst) mn mx)
    (hcells : gridSize cfg.gridSize mn mx 0 * gridSize cfg.gridSize mn mx 1 *
      gridSize cfg.gridSize mn mx 2 < 2 ^ 31)
    (haxes : ∀ i, gridSize cfg.gridSize mn mx i ≤ 2 ^ 28) {b e : Vec3 ℝ}
    (hne : b ≠ e)
    (hend : ∀ i : Fin 3, |(rayPoint b e (len (e - b) + cfg.hitTolerance)).get i - mn i| ≤ 2 ^ 28 * cfg.gridSize) :
    (setRay cfg s (some c) b e).isOk = true := by
  have hI := reachable_inv hg h
  have hup : ∃ g, updatePointCloud cfg s.grid (some c) = .ok (some g) ∧
      GridOK cfg.gridSize g c.refs := by
    have hbuild : ∃ n, build cfg c = .ok n := by
      have hne : c.refs ≠ [] := by
        intro hnil
        obtain ⟨p, hp, -⟩ := hb.lo_att 0
        rw [← refs_pos, hnil] at hp
        cases hp
      obtain ⟨p, ps, hrefs⟩ := List.exists_cons_of_ne_nil hne
      have hbox := isBox p ps
      rw [← hrefs] at hbox
      obtain ⟨e1, e2⟩ := hbox.unique ((isBox_iff c mn mx).2 hb)
      have : (build cfg c).isOk = true := by
        apply build_isOk hg hrefs
        subst e1; subst e2
        exact hcells
      cases hbb : build cfg c with
      | ok n => exact ⟨n, rfl⟩
      | throws m => rw [hbb] at this; cases this
      | ub w => rw [hbb] at this; cases this
    obtain ⟨n, hn⟩ := hbuild
    have hup : ∃ g2, updatePointCloud cfg s.grid (some c) = .ok g2 := by
      unfold updatePointCloud
      cases s.grid with
      | none => simp only [hn, Outcome.bind_ok]; exact ⟨_, rfl⟩
      | some old =>
        simp only
        split_ifs
        · exact ⟨_, rfl⟩
        · simp only [hn, Outcome.bind_ok]; exact ⟨_, rfl⟩
    obtain ⟨g2, hg2⟩ := hup
    obtain ⟨-, h2⟩ := updatePointCloud_inv hg hI.grid (fun c' hc' => by cases hc'; exact hc) hg2
    obtain ⟨g', rfl, hok⟩ := h2 hS c rfl
    exact ⟨g', hg2, hok⟩
  obtain ⟨g, hup, hG⟩ := hup
  obtain ⟨e1, e2⟩ := hG.box.unique ((isBox_iff c mn mx).2 hb)
  unfold setRay
  rw [hup, Outcome.bind_ok]
  simp only
  split_ifs with hw
  · have hbox : ∀ i : Fin 3, g.minP i ≤ b.get i ∧ b.get i ≤ g.maxP i := fun i => by
      have := hw i; push Not at this; exact this
    have hinG := cellOf_inGrid hg hG.size_eq hbox
    have hsz : ∀ i, g.size i ≤ 2 ^ 28 := fun i => by
      rw [hG.size_eq i, e1, e2]; exact haxes i
    have hei : ∀ i : Fin 3, |cellOf cfg.gridSize g.minP (rayPoint b e (len (e - b) + cfg.hitTolerance)) i| ≤ 2 ^ 28 := by
      intro i
      unfold cellOf
      apply truncZ_abs_lt
      rw [e1, abs_div, abs_of_pos hg, div_le_iff₀ hg]
      exact_mod_cast hend i
    have hz : ¬ (e - b).dot (e - b) = 0 := by
      intro h0
      apply hne
      have hx : (e - b).x ^ 2 + (e - b).y ^ 2 + (e - b).z ^ 2 = 0 := by
        rw [← h0]; unfold Vec3.dot; ring
      have ex : (e - b).x = e.x - b.x := rfl
      have ey : (e - b).y = e.y - b.y := rfl
      have ez : (e - b).z = e.z - b.z := rfl
      rw [ex, ey, ez] at hx
      have q1 : e.x - b.x = 0 := by
        have := sq_nonneg (e.x - b.x); have := sq_nonneg (e.y - b.y); have := sq_nonneg (e.z - b.z)
        exact pow_eq_zero_iff (two_ne_zero) |>.1 (by linarith)
      have q2 : e.y - b.y = 0 := by
        have := sq_nonneg (e.x - b.x); have := sq_nonneg (e.y - b.y); have := sq_nonneg (e.z - b.z)
        exact pow_eq_zero_iff (two_ne_zero) |>.1 (by linarith)
      have q3 : e.z - b.z = 0 := by
        have := sq_nonneg (e.x - b.x); have := sq_nonneg (e.y - b.y); have := sq_nonneg (e.z - b.z)
        exact pow_eq_zero_iff (two_ne_zero) |>.1 (by linarith)
      exact Vec3.ext (by linarith) (by linarith) (by linarith)
    have : ∃ r, startRay cfg g b e = .ok r := by
      unfold startRay
      rw [if_neg hz]
      simp only
      rw [end_eq (len_pos hz)]
      have b0 := hinG 0; have b1 := hinG 1; have b2 := hinG 2
      have s0 := hsz 0; have s1 := hsz 1; have s2 := hsz 2
      have x0 := abs_le.1 (hei 0); have x1 := abs_le.1 (hei 1); have x2 := abs_le.1 (hei 2)
      rw [toIndex_of hg.ne' (fun i => ⟨by have := hinG i; omega, by have := hinG i; have := hsz i; omega⟩),
        Outcome.bind_ok,
        toIndex_of hg.ne' (fun i => ⟨by have := abs_le.1 (hei i); omega, by have := abs_le.1 (hei i); omega⟩),
        Outcome.bind_ok]
      generalize cellOf cfg.gridSize g.minP (rayPoint b e (len (e - b) + cfg.hitTolerance)) = ei at *
      generalize cellOf cfg.gridSize g.minP b = bi at *
      have y0 : |ei 0 - bi 0| ≤ 2 ^ 29 := abs_le.2 ⟨by omega, by omega⟩
      have y1 : |ei 1 - bi 1| ≤ 2 ^ 29 := abs_le.2 ⟨by omega, by omega⟩
      have y2 : |ei 2 - bi 2| ≤ 2 ^ 29 := abs_le.2 ⟨by omega, by omega⟩
      have z0 := abs_nonneg (ei 0 - bi 0)
      have z1 := abs_nonneg (ei 1 - bi 1)
      have z2 := abs_nonneg (ei 2 - bi 2)
      rw [i32_of (by omega) (by omega), Outcome.bind_ok, i32_of (by omega) (by omega), Outcome.bind_ok,
        i32_of (by omega) (by omega), Outcome.bind_ok, i32_of (by omega) (by omega), Outcome.bind_ok,
        i32_of (by omega) (by omega), Outcome.bind_ok, i32_of (by omega) (by omega), Outcome.bind_ok,
        i32_of (by omega) (by omega), Outcome.bind_ok, i32_of (by omega) (by omega), Outcome.bind_ok]
      exact ⟨_, rfl⟩
    obtain ⟨r, hr⟩ := this
    rw [hr]; rfl
  · rfl

/-- C58: with a grid size of 0 the first ray is undefined. -/
theorem C58_zero_grid {cfg : Cfg} (h0 : cfg.gridSize = 0) (c : Cloud) (hne : c.pts ≠ []) (b e : Vec3 ℝ) :
    setRay cfg St.fresh (some c) b e = .ub "NaN converted to int" := by
  have hb : build cfg c = .ub "NaN converted to int" := by
    unfold build
    cases hr : c.refs with
    | nil =>
      refine absurd ?_ hne
      have := congrArg List.length hr
      simp only [Cloud.refs, List.length_nil, List.length_map, List.length_zipIdx] at this
      exact List.length_eq_zero_iff.1 this
    | cons p ps => simp only [axisSize, if_pos h0]; rfl
  unfold setRay updatePointCloud St.fresh
  simp only [hb]
  rfl

/-- C58: with a negative grid size the first ray is undefined unless the map is smaller than the grid size in every
direction. -/
theorem C58_negative_grid {cfg : Cfg} (h0 : cfg.gridSize < 0) (c : Cloud) (b e : Vec3 ℝ)
    {u v : Vec3 ℝ × ℕ} (hu : u ∈ c.pts) (hv : v ∈ c.pts) (i : Fin 3)
    (hi : |cfg.gridSize| ≤ v.1.get i - u.1.get i) :
    (setRay cfg St.fresh (some c) b e).isOk = false := by
  have key : ∀ p ps, c.refs = p :: ps → truncZ ((maxAlong i p ps - minAlong i p ps) / cfg.gridSize) < 0 := by
    intro p ps hr
    have hmem : ∀ x ∈ c.pts, ∃ q ∈ p :: ps, q.pos = x.1 := by
      intro x hx
      obtain ⟨k, hk, rfl⟩ := List.getElem_of_mem hx
      refine ⟨⟨c.id, k, c.pts[k].1, c.pts[k].2⟩, ?_, rfl⟩
      rw [← hr, Cloud.refs, List.mem_map]
      exact ⟨(c.pts[k], k), by rw [List.mk_mem_zipIdx_iff_getElem?]; exact List.getElem?_eq_getElem hk, rfl⟩
    obtain ⟨qu, hqu, eu⟩ := hmem u hu
    obtain ⟨qv, hqv, ev⟩ := hmem v hv
    have h1 := (isBox p ps).lo qu hqu i
    have h2 := (isBox p ps).hi qv hqv i
    rw [eu] at h1
    rw [ev] at h2
    rw [abs_of_neg h0] at hi
    have hq : (maxAlong i p ps - minAlong i p ps) / cfg.gridSize ≤ -1 := by
      rw [div_le_iff_of_neg h0]; linarith
    unfold truncZ
    rw [if_neg (by linarith)]
    have : ⌈(maxAlong i p ps - minAlong i p ps) / cfg.gridSize⌉ ≤ -1 := by
      rw [Int.ceil_le]; push_cast; exact hq
    omega
  have hsz : ∀ {mn mx : ℝ} {k : ℤ}, axisSize cfg.gridSize mn mx = .ok k → ¬ truncZ ((mx - mn) / cfg.gridSize) < 0 := by
    intro mn mx k h hlt
    unfold axisSize at h
    rw [if_neg h0.ne, if_pos hlt] at h
    cases h
  have hb : ∀ g, build cfg c ≠ .ok g := by
    intro g h
    unfold build at h
    cases hr : c.refs with
    | nil => rw [hr] at h; cases h
    | cons p ps =>
      have hk := key p ps hr
      rw [hr] at h
      obtain ⟨s0, a0, h⟩ := bind_eq_ok h
      obtain ⟨s1, a1, h⟩ := bind_eq_ok h
      obtain ⟨s01, a01, h⟩ := bind_eq_ok h
      obtain ⟨s2, a2, h⟩ := bind_eq_ok h
      fin_cases i
      · exact hsz a0 hk
      · exact hsz a1 hk
      · exact hsz a2 hk
  cases hr : setRay cfg St.fresh (some c) b e with
  | ok s =>
    unfold setRay updatePointCloud St.fresh at hr
    obtain ⟨g, hg, -⟩ := bind_eq_ok hr
    obtain ⟨g', hg', -⟩ := bind_eq_ok hg
    exact absurd hg' (hb g')
  | throws m => rfl
  | ub m => rfl

/-- A map of two points one unit apart with the grid size -1/2. -/
example : let c : Cloud := ⟨0, 0, [(⟨0, 0, 0⟩, 0), (⟨1, 0, 0⟩, 0)]⟩
    ((⟨0, 0, 0⟩ : Vec3 ℝ), 0) ∈ c.pts ∧ ((⟨1, 0, 0⟩ : Vec3 ℝ), 0) ∈ c.pts ∧ (-1 / 2 : ℝ) < 0 ∧
    |(-1 / 2 : ℝ)| ≤ (⟨1, 0, 0⟩ : Vec3 ℝ).get 0 - (⟨0, 0, 0⟩ : Vec3 ℝ).get 0 := by
  refine ⟨by simp, by simp, by norm_num, ?_⟩
  norm_num [Vec3.get, abs_le]

/-- C58: a ray of length 0 from inside the map is undefined (NaN converted to `int`). -/
theorem C58_zero_length_undefined {cfg : Cfg} {s : St} {c : Cloud} {b : Vec3 ℝ} {g : Grid}
    (hup : updatePointCloud cfg s.grid (some c) = .ok (some g)) (hin : isPointWithinMap g b) :
    setRay cfg s (some c) b b = .ub "NaN converted to int" := by
  unfold setRay
  rw [hup, Outcome.bind_ok]
  simp only
  rw [if_neg (not_not.2 hin)]
  unfold startRay
  rw [if_pos]
  · rfl
  · change (b.x - b.x) * (b.x - b.x) + (b.y - b.y) * (b.y - b.y) + (b.z - b.z) * (b.z - b.z) = 0
    ring

/-! ## C59 – C61: the results of a ray -/

/-- What a reported result must say about cell `c`. -/
structure ReportOK (cfg : Cfg) (c : Cloud) (mn : Fin 3 → ℝ) (b e : Vec3 ℝ) (cell : Cell)
    (res : CastResult) : Prop where
  /-- the reported position is the centre of the cell -/
  pos : ∀ i : Fin 3, res.pos.get i = mn i + (cell i + 1 / 2) * cfg.gridSize
  /-- a collision is reported exactly when a point is -/
  collision : res.collision = true ↔ ∃ p, res.point = some p
  /-- the reported point is a point of the map, in this cell and close to the ray, and the first such -/
  sound : ∀ p, res.point = some p → ∃ l r : List MapPt, c.refs = l ++ p :: r ∧
    InCube cfg.gridSize mn cell p.pos ∧ CloseToRay cfg.rayAngleHalf cfg.minDistThrSq b e p.pos ∧
    ∀ q ∈ l, ¬ (InCube cfg.gridSize mn cell q.pos ∧ CloseToRay cfg.rayAngleHalf cfg.minDistThrSq b e q.pos)
  /-- a point of the cell close to the ray is not overlooked -/
  complete : ∀ p ∈ c.refs, InCube cfg.gridSize mn cell p.pos →
    CloseToRay cfg.rayAngleHalf cfg.minDistThrSq b e p.pos → res.collision = true

theorem lineDist {b e : Vec3 ℝ} (h : 0 < len (e - b)) (p : Vec3 ℝ) (s D : ℝ) :
    LineDist b e p s D ↔
      s = (p - b).dot (e - b).normalized ∧
      D = (p - b).dot (p - b) - ((p - b).dot (e - b).normalized) ^ 2 := by
  have hn := h.ne'
  have hsq : len (e - b) ^ 2 = (e.x - b.x) ^ 2 + (e.y - b.y) ^ 2 + (e.z - b.z) ^ 2 := by
    unfold len; rw [Real.sq_sqrt (by positivity)]; rfl
  have hdot : (p - b).dot (e - b).normalized =
      ((p.x - b.x) * (e.x - b.x) + (p.y - b.y) * (e.y - b.y) + (p.z - b.z) * (e.z - b.z)) / len (e - b) := by
    unfold Vec3.normalized; rw [norm_eq_len]
    change (p.x - b.x) * ((e.x - b.x) / len (e - b)) + (p.y - b.y) * ((e.y - b.y) / len (e - b)) +
      (p.z - b.z) * ((e.z - b.z) / len (e - b)) = _
    ring
  have hpp : (p - b).dot (p - b) = (p.x - b.x) ^ 2 + (p.y - b.y) ^ 2 + (p.z - b.z) ^ 2 := by
    change (p.x - b.x) * (p.x - b.x) + (p.y - b.y) * (p.y - b.y) + (p.z - b.z) * (p.z - b.z) = _
    ring
  have key : ∀ t, distSq p (rayPoint b e t) =
      (p - b).dot (p - b) - ((p - b).dot (e - b).normalized) ^ 2 + (t - (p - b).dot (e - b).normalized) ^ 2 := by
    intro t
    rw [hdot, hpp]
    unfold distSq rayPoint
    simp only
    generalize len (e - b) = l at *
    generalize e.x - b.x = u1 at *
    generalize e.y - b.y = u2 at *
    generalize e.z - b.z = u3 at *
    have : ((t * (u1 / l)) ^ 2 + (t * (u2 / l)) ^ 2 + (t * (u3 / l)) ^ 2) = t ^ 2 := by
      have h1 : (t * (u1 / l)) ^ 2 + (t * (u2 / l)) ^ 2 + (t * (u3 / l)) ^ 2 =
        t ^ 2 * ((u1 ^ 2 + u2 ^ 2 + u3 ^ 2) / l ^ 2) := by ring
      rw [h1, ← hsq, div_self (pow_ne_zero 2 hn), mul_one]
    linear_combination this
  unfold LineDist
  constructor
  · rintro ⟨h1, h2⟩
    have := h2 ((p - b).dot (e - b).normalized)
    rw [h1, key, key] at this
    have hs : s - (p - b).dot (e - b).normalized = 0 := by
      apply pow_eq_zero_iff two_ne_zero |>.1
      have := sq_nonneg (s - (p - b).dot (e - b).normalized)
      nlinarith
    refine ⟨by linarith, ?_⟩
    rw [h1, key, hs]; ring
  · rintro ⟨rfl, rfl⟩
    refine ⟨by rw [key]; ring, fun t => ?_⟩
    rw [key]; nlinarith [sq_nonneg (t - (p - b).dot (e - b).normalized)]

theorem nearRay_iff {cfg : Cfg} {b e : Vec3 ℝ} (h : 0 < len (e - b)) (p : Vec3 ℝ) :
    nearRay cfg b (e - b).normalized p ↔ CloseToRay cfg.rayAngleHalf cfg.minDistThrSq b e p := by
  unfold nearRay CloseToRay
  simp only
  rw [lt_max_iff, abs_mul_abs_self, mul_pow, sq_abs]
  constructor
  · intro hh
    refine ⟨_, _, (lineDist h p _ _).2 ⟨rfl, rfl⟩, ?_⟩
    rw [mul_pow, sq ((p - b).dot (e - b).normalized)] at *
    exact hh
  · rintro ⟨s, D, hl, hh⟩
    obtain ⟨rfl, rfl⟩ := (lineDist h p s D).1 hl
    rw [mul_pow, sq ((p - b).dot (e - b).normalized)] at *
    exact hh

theorem resultAt_ok {cfg : Cfg} (hg : 0 < cfg.gridSize) {g : Grid} {c : Cloud}
    (hG : GridOK cfg.gridSize g c.refs) {b e : Vec3 ℝ} (h : 0 < len (e - b)) {cell : Cell}
    (hcell : InGrid g.size cell) :
    ReportOK cfg c g.minP b e cell (resultAt cfg g b (e - b).normalized cell) := by
  have hcube : ∀ p ∈ c.refs, (flat g.size (cellOf cfg.gridSize g.minP p.pos) = flat g.size cell ↔
      InCube cfg.gridSize g.minP cell p.pos) := by
    intro p hp
    rw [← cellOf_iff hg (fun i => hG.box.lo p hp i)]
    constructor
    · intro hh
      exact flat_inj (cellOf_inGrid hg hG.size_eq fun i => ⟨hG.box.lo p hp i, hG.box.hi p hp i⟩) hcell hh
    · intro hh; rw [hh]
  unfold resultAt
  rw [hG.cells_eq]
  constructor
  · intro i
    fin_cases i <;> simp [fromIndex, Vec3.get] <;> ring
  · simp only; rw [Option.isSome_iff_exists]
  · intro p hp
    simp only at hp
    rw [List.find?_filter] at hp
    obtain ⟨h1, l, r, hlr, hno⟩ := List.find?_eq_some_iff_append.1 hp
    have hmem : ∀ q ∈ l, q ∈ c.refs := fun q hq => by rw [hlr]; simp [hq]
    have hpm : p ∈ c.refs := by rw [hlr]; simp
    simp only [decide_eq_true_eq] at h1
    refine ⟨l, r, hlr, (hcube p hpm).1 h1.1, (nearRay_iff h _).1 h1.2, ?_⟩
    rintro q hq ⟨hq1, hq2⟩
    have := hno q hq
    simp only [Bool.not_eq_true', decide_eq_false_iff_not] at this
    exact this ⟨by simpa using (hcube q (hmem q hq)).2 hq1, by simpa using (nearRay_iff h _).2 hq2⟩
  · intro p hp hc hn
    simp only
    rw [List.find?_isSome]
    refine ⟨p, ?_, by simpa using (nearRay_iff h _).2 hn⟩
    rw [List.mem_filter]
    exact ⟨hp, by simpa using (hcube p hp).2 hc⟩

/-- Everything about the results of one ray, for any history before it: see `C59_…`, `C60_…`, `C61_…`. -/
theorem ray_results {cfg : Cfg} (hg : 0 < cfg.gridSize) {S : Set Cloud} (hS : StampsDiffer S)
    {s0 s : St} (h0 : Reachable cfg S s0) {c : Cloud} (hc : c ∈ S) {b e : Vec3 ℝ}
    (hs : setRay cfg s0 (some c) b e = .ok s) {mn mx : Fin 3 → ℝ}
    (hb : IsBoundingBox (c.pts.map Prod.fst) mn mx) (hin : InsideBox mn mx b) :
    ∃ (g : Grid) (r : Ray), s = ⟨some g, some r⟩ ∧ g.minP = mn ∧ g.maxP = mx ∧
      GridOK cfg.gridSize g c.refs ∧ Start cfg g b e r ∧ ∀ n, ∃ s', nexts cfg n s =
        .ok ((cellPath g n r).map (fun cell => some (resultAt cfg g b (e - b).normalized cell)) ++
          List.replicate (n - (cellPath g n r).length) none, s') := by
  obtain ⟨-, -, g, r, rfl, -, hG, hcase⟩ := setRay_inv hg (reachable_inv hg h0)
    (fun c' hc' => by cases hc'; exact hc) hs
  have hG := hG hS c rfl
  obtain ⟨rfl, rfl⟩ := hG.box.unique ((isBox_iff c mn mx).2 hb)
  rcases hcase with ⟨hw, -⟩ | ⟨-, hst⟩
  · exfalso
    apply hw
    intro i
    have := hin i
    push Not; exact this
  · refine ⟨g, r, rfl, rfl, rfl, hG, hst, fun n => ?_⟩
    obtain ⟨s', hs'⟩ := nexts_eq hG n hst.dyn
    rw [hst.rayBegin, hst.dir] at hs'
    exact ⟨s', hs'⟩

/-- C59: `n` calls on a ray that starts inside the map yield results for a list of cells `path`, then
only `false`.  The cells start next to the cell of the ray's begin; each is a neighbour of the
preceding one along one axis, in the direction of the ray; there are fewer of them than the sum of
the index distances between the begin and the extended end; all are inside the grid. -/
theorem C59_path {cfg : Cfg} (hg : 0 < cfg.gridSize) (htol : 0 ≤ cfg.hitTolerance) {S : Set Cloud} (hS : StampsDiffer S)
    {s0 s : St} (h0 : Reachable cfg S s0) {c : Cloud} (hc : c ∈ S) {b e : Vec3 ℝ}
    (hs : setRay cfg s0 (some c) b e = .ok s) {mn mx : Fin 3 → ℝ}
    (hb : IsBoundingBox (c.pts.map Prod.fst) mn mx) (hin : InsideBox mn mx b) (n : ℕ) :
    ∃ (begin fin : Cell) (path : List Cell) (rs : List CastResult) (s' : St),
      nexts cfg n s = .ok (rs.map some ++ List.replicate (n - path.length) none, s') ∧
      rs.length = path.length ∧ path.length ≤ n ∧
      InCube cfg.gridSize mn begin b ∧
      (∀ i : Fin 3, fin i = truncZ (((rayPoint b e (len (e - b) + cfg.hitTolerance)).get i - mn i) / cfg.gridSize)) ∧
      List.IsChain (StepToward b e) (begin :: path) ∧
      (path.length : ℤ) ≤ max 0 (|fin 0 - begin 0| + |fin 1 - begin 1| + |fin 2 - begin 2| - 1) ∧
      (∀ cell ∈ path, CellInGrid (gridSize cfg.gridSize mn mx) cell) := by
  obtain ⟨g, r, rfl, rfl, rfl, hG, hst, hn⟩ := ray_results hg hS h0 hc hs hb hin
  obtain ⟨s', hs'⟩ := hn n
  obtain ⟨p1, p2, p3, p4⟩ := cellPath_props n hst.dyn
  have hsz : g.size = gridSize cfg.gridSize g.minP g.maxP := funext fun i => hG.size_eq i
  refine ⟨r.beginIdx, r.endIdx, cellPath g n r,
    (cellPath g n r).map (resultAt cfg g b (e - b).normalized), s', ?_, by simp, p1, ?_, ?_, ?_, ?_, ?_⟩
  · rw [hs', List.map_map]; rfl
  · rw [hst.beginIdx]
    exact (cellOf_iff hg (fun i => (hin i).1) _).1 rfl
  · intro i; rw [hst.endIdx]; rfl
  · rw [← hst.cur]
    refine p2.imp ?_
    rintro x y ⟨a, hne, hy⟩
    have hA := (hst.geom htol).axis a
    have hdir : r.dir.get a = (e.get a - b.get a) / len (e - b) := by
      rw [hst.dir]; unfold Vec3.normalized; rw [get_sdiv, norm_eq_len, get_sub]
    rcases lt_or_gt_of_ne hne with hlt | hgt
    · have hd := hA.d_neg hlt
      rw [hdir, div_neg_iff] at hd
      have := hst.len_pos
      refine ⟨a, Or.inr ⟨?_, ?_⟩⟩
      · rcases hd with hd | hd
        · linarith
        · linarith [hd.1]
      · rw [hy, if_pos (by omega)]; rfl
    · have hd := hA.d_pos hgt
      rw [hdir, div_pos_iff] at hd
      have := hst.len_pos
      refine ⟨a, Or.inl ⟨?_, ?_⟩⟩
      · rcases hd with hd | hd
        · linarith [hd.1]
        · linarith
      · rw [hy, if_neg (by omega)]
  · have hm : r.maxMov = |r.endIdx 0 - r.beginIdx 0| + |r.endIdx 1 - r.beginIdx 1| + |r.endIdx 2 - r.beginIdx 2| := by
      rw [hst.dyn.maxMov]; unfold Ray.dist; push_cast [Int.natCast_natAbs]; ring
    rw [← hm]
    rcases lt_or_ge r.pos r.maxMov with hlt | hge
    · have := p4 hlt
      rw [hst.pos] at this
      have := le_max_right 0 (r.maxMov - 1)
      omega
    · rw [cellPath_exhausted hge]; simp
  · rw [← hsz]; exact p3

/-- C60: for a ray starting inside the map and enough calls, every point of the extended ray that is
inside the bounding box of the map lies in the (closed) cell of the begin, in an examined cell or in
the cell of the extended end. -/
theorem C60_covers {cfg : Cfg} (hg : 0 < cfg.gridSize) (htol : 0 ≤ cfg.hitTolerance) {S : Set Cloud} (hS : StampsDiffer S)
    {s0 s : St} (h0 : Reachable cfg S s0) {c : Cloud} (hc : c ∈ S) {b e : Vec3 ℝ}
    (hs : setRay cfg s0 (some c) b e = .ok s) {mn mx : Fin 3 → ℝ}
    (hb : IsBoundingBox (c.pts.map Prod.fst) mn mx) (hin : InsideBox mn mx b) :
    ∃ (begin fin : Cell) (N : ℕ), InCube cfg.gridSize mn begin b ∧
      (InsideBox mn mx (rayPoint b e (len (e - b) + cfg.hitTolerance)) →
        InCube cfg.gridSize mn fin (rayPoint b e (len (e - b) + cfg.hitTolerance))) ∧
      ∀ n, N ≤ n → ∃ (path : List Cell) (rs : List CastResult) (s' : St),
        nexts cfg n s = .ok (rs.map some ++ List.replicate (n - path.length) none, s') ∧
        List.Forall₂ (ReportOK cfg c mn b e) path rs ∧
        (∀ cell ∈ path, CellInGrid (gridSize cfg.gridSize mn mx) cell) ∧
        ∀ x, OnRay cfg.hitTolerance b e x → InsideBox mn mx x →
          ∃ cell ∈ begin :: (path ++ [fin]), InClosedCell cfg.gridSize mn cell x := by
  obtain ⟨g, r, rfl, rfl, rfl, hG, hst, hn⟩ := ray_results hg hS h0 hc hs hb hin
  refine ⟨r.beginIdx, r.endIdx, (r.maxMov + 1).toNat, ?_, ?_, ?_⟩
  · rw [hst.beginIdx]
    exact (cellOf_iff hg (fun i => (hin i).1) _).1 rfl
  · intro hE
    rw [hst.endIdx]
    exact (cellOf_iff hg (fun i => (hE i).1) _).1 rfl
  · intro n hN
    obtain ⟨s', hs'⟩ := hn n
    obtain ⟨p1, p2, p3, p4⟩ := cellPath_props n hst.dyn
    refine ⟨cellPath g n r, (cellPath g n r).map (resultAt cfg g b (e - b).normalized), s', ?_, ?_, ?_, ?_⟩
    · rw [hs', List.map_map]; rfl
    · rw [List.forall₂_map_right_iff, List.forall₂_same]
      intro cell hcell
      exact resultAt_ok hg hG hst.len_pos (p3 cell hcell)
    · have hsz : g.size = gridSize cfg.gridSize g.minP g.maxP := funext fun i => hG.size_eq i
      rw [← hsz]; exact p3
    · rintro x ⟨t, ht0, ht1, rfl⟩ hbx
      have hat : ∀ i : Fin 3, r.at t i = (rayPoint b e t).get i := fun i => by
        rw [rayPoint_get, Ray.at, hst.rayBegin, hst.dir]
      have hmm : 0 ≤ r.maxMov := by rw [hst.dyn.maxMov]; positivity
      obtain ⟨cell, hcell, hx⟩ := cover (L := len (e - b) + cfg.hitTolerance) n hst.dyn
        (hst.geom htol) (hst.timed htol) (by rw [hst.pos]; omega) (by rw [hst.pos]; omega) (by omega)
        t ht0 ht1 (fun i => by rw [hat]; exact hbx i)
      rw [hst.cur] at hcell
      refine ⟨cell, hcell, fun i => ?_⟩
      have := hx i
      rw [hat] at this
      exact this

/-- C60: if the extended ray ends inside the map (not below its minimum), every examined cell is met
by the extended ray. -/
theorem C60_examined_cells_met {cfg : Cfg} (hg : 0 < cfg.gridSize) (htol : 0 ≤ cfg.hitTolerance) {S : Set Cloud} (hS : StampsDiffer S)
    {s0 s : St} (h0 : Reachable cfg S s0) {c : Cloud} (hc : c ∈ S) {b e : Vec3 ℝ}
    (hs : setRay cfg s0 (some c) b e = .ok s) {mn mx : Fin 3 → ℝ}
    (hb : IsBoundingBox (c.pts.map Prod.fst) mn mx) (hin : InsideBox mn mx b)
    (hend : ∀ i : Fin 3, mn i ≤ (rayPoint b e (len (e - b) + cfg.hitTolerance)).get i) (n : ℕ) :
    ∃ (path : List Cell) (rs : List CastResult) (s' : St),
      nexts cfg n s = .ok (rs.map some ++ List.replicate (n - path.length) none, s') ∧
      List.Forall₂ (ReportOK cfg c mn b e) path rs ∧
      ∀ cell ∈ path, ∃ x, OnRay cfg.hitTolerance b e x ∧ InClosedCell cfg.gridSize mn cell x := by
  obtain ⟨g, r, rfl, rfl, rfl, hG, hst, hn⟩ := ray_results hg hS h0 hc hs hb hin
  obtain ⟨s', hs'⟩ := hn n
  obtain ⟨p1, p2, p3, p4⟩ := cellPath_props n hst.dyn
  refine ⟨cellPath g n r, (cellPath g n r).map (resultAt cfg g b (e - b).normalized), s', ?_, ?_, ?_⟩
  · rw [hs', List.map_map]; rfl
  · rw [List.forall₂_map_right_iff, List.forall₂_same]
    intro cell hcell
    exact resultAt_ok hg hG hst.len_pos (p3 cell hcell)
  · intro cell hcell
    have hat : ∀ (t : ℝ) (i : Fin 3), r.at t i = (rayPoint b e t).get i := fun t i => by
      rw [rayPoint_get, Ray.at, hst.rayBegin, hst.dir]
    obtain ⟨t, h0, h1, h2⟩ := met n hst.dyn (hst.geom htol) (hst.timed htol)
      (fun i _ => by rw [hat]; exact hend i) cell hcell
    refine ⟨rayPoint b e t, ⟨t, h0, h1, rfl⟩, fun i => ?_⟩
    have := h2 i
    rw [hat] at this
    exact this

/-- C61: every result of a ray from inside the map reports exactly the first map point, in cloud
order, that lies in the examined cell and is close enough to the line of the ray, and reports no
collision exactly if there is none. -/
theorem C61_collisions {cfg : Cfg} (hg : 0 < cfg.gridSize) {S : Set Cloud} (hS : StampsDiffer S)
    {s0 s : St} (h0 : Reachable cfg S s0) {c : Cloud} (hc : c ∈ S) {b e : Vec3 ℝ}
    (hs : setRay cfg s0 (some c) b e = .ok s) {mn mx : Fin 3 → ℝ}
    (hb : IsBoundingBox (c.pts.map Prod.fst) mn mx) (hin : InsideBox mn mx b) (n : ℕ) :
    ∃ (path : List Cell) (rs : List CastResult) (s' : St),
      nexts cfg n s = .ok (rs.map some ++ List.replicate (n - path.length) none, s') ∧
      List.Forall₂ (ReportOK cfg c mn b e) path rs := by
  obtain ⟨g, r, rfl, rfl, rfl, hG, hst, hn⟩ := ray_results hg hS h0 hc hs hb hin
  obtain ⟨s', hs'⟩ := hn n
  obtain ⟨p1, p2, p3, p4⟩ := cellPath_props n hst.dyn
  refine ⟨cellPath g n r, (cellPath g n r).map (resultAt cfg g b (e - b).normalized), s', ?_, ?_⟩
  · rw [hs', List.map_map]; rfl
  · rw [List.forall₂_map_right_iff, List.forall₂_same]
    intro cell hcell
    exact resultAt_ok hg hG hst.len_pos (p3 cell hcell)

/-! ## C62 -/

/-- C62: if all maps ever used have different stamps, a point reported after `setRay` is a
point of the map given to that `setRay`.  For maps with equal stamps see
`C62_same_stamp_ignored`. -/
theorem C62_current_map {cfg : Cfg} (hg : 0 < cfg.gridSize) {S : Set Cloud} (hS : StampsDiffer S)
    {s0 s : St} (h0 : Reachable cfg S s0) {c : Cloud} (hc : c ∈ S) {b e : Vec3 ℝ}
    (hs : setRay cfg s0 (some c) b e = .ok s) (n : ℕ) {rs : List (Option CastResult)} {s' : St}
    (hn : nexts cfg n s = .ok (rs, s')) :
    ∀ res p, some res ∈ rs → res.point = some p → p ∈ c.refs ∧ p.cloud = c.id := by
  obtain ⟨-, -, g, r, rfl, -, hG, hcase⟩ := setRay_inv hg (reachable_inv hg h0)
    (fun c' hc' => by cases hc'; exact hc) hs
  have hG := hG hS c rfl
  intro res p hres hp
  have hmem : p ∈ c.refs := by
    rcases hcase with ⟨-, hz1, hz2⟩ | ⟨-, hst⟩
    · obtain ⟨s2, h2⟩ := nexts_exhausted cfg n g r (by omega)
      rw [hn] at h2
      cases h2
      simp at hres
    · obtain ⟨s2, h2⟩ := nexts_eq hG n hst.dyn
      rw [hn] at h2
      cases h2
      simp only [List.mem_append, List.mem_map, List.mem_replicate, reduceCtorEq, and_false, or_false,
        Option.some.injEq] at hres
      obtain ⟨cell, hcell, rfl⟩ := hres
      simp only [resultAt] at hp
      have := List.mem_of_find?_eq_some hp
      rw [hG.cells_eq] at this
      exact (List.mem_filter.1 this).1
  refine ⟨hmem, ?_⟩
  unfold Cloud.refs at hmem
  obtain ⟨x, -, rfl⟩ := List.mem_map.1 hmem
  rfl

/-- C62, equal stamps: when the new map `c'` carries the same stamp as the map `c` in use, the
caster behaves as if `c` were still the map, whatever `c'` contains. -/
theorem C62_same_stamp_ignored {cfg : Cfg} (hg : 0 < cfg.gridSize) {c c' : Cloud} (h : c'.stamp = c.stamp)
    {b e : Vec3 ℝ} {s : St} (hs : setRay cfg St.fresh (some c) b e = .ok s) (b' e' : Vec3 ℝ) :
    setRay cfg s (some c') b' e' = setRay cfg s (some c) b' e' := by
  obtain ⟨-, -, g, r, rfl, -, -, -⟩ := setRay_inv hg (S := {c})
    (reachable_inv hg Reachable.fresh) (fun c' hc' => by cases hc'; rfl) hs
  have hstamp : g.stamp = c.stamp := by
    have := reachable_inv hg (Reachable.setRay (S := {c}) Reachable.fresh
      (fun c' hc' => by cases hc'; rfl) hs)
    obtain ⟨c0, hc0, -, h2⟩ := this.grid g rfl
    cases hc0; exact h2
  unfold setRay updatePointCloud
  simp only [h, hstamp, if_true]

/-! ## C63 -/

/-- C63: the z size of the map grid has no influence on any result. -/
theorem C63_z_ignored (cfg : Cfg) (z : ℝ) :
    (∀ n s, nexts { cfg with mapGridZ := z } n s = nexts cfg n s) ∧
    (∀ s c b e, setRay { cfg with mapGridZ := z } s c b e = setRay cfg s c b e) := by
  constructor
  · intro n
    induction n with
    | zero => intro s; rfl
    | succ n ih =>
      intro s
      simp only [nexts]
      have : getNext { cfg with mapGridZ := z } s = getNext cfg s := rfl
      rw [this]
      congr 1
      funext a
      rw [ih]
  · intro s c b e; rfl

/-- C63: the threshold is the diagonal of a cell whose height equals its y size, so it is the diagonal of a map cell
exactly if the y and z sizes agree. -/
theorem C63_threshold (cfg : Cfg) :
    cfg.minDistThrSq = cfg.mapGridX ^ 2 + cfg.mapGridY ^ 2 + cfg.mapGridZ ^ 2 ↔
      |cfg.mapGridY| = |cfg.mapGridZ| := by
  unfold Cfg.minDistThrSq
  rw [← sq_eq_sq_iff_abs_eq_abs]
  constructor <;> intro h <;> linarith

/-! ## C64 -/

/-- C64: after setting a ray whose begin is outside the bounding box of the map, every call returns
false. -/
theorem C64_outside {cfg : Cfg} (hg : 0 < cfg.gridSize) {S : Set Cloud} (hS : StampsDiffer S)
    {s0 s : St} (h0 : Reachable cfg S s0) {c : Cloud} (hc : c ∈ S) {b e : Vec3 ℝ}
    (hs : setRay cfg s0 (some c) b e = .ok s) {mn mx : Fin 3 → ℝ}
    (hb : IsBoundingBox (c.pts.map Prod.fst) mn mx) (hout : ¬ InsideBox mn mx b) (n : ℕ) :
    ∃ s', nexts cfg n s = .ok (List.replicate n none, s') := by
  obtain ⟨-, -, g, r, rfl, -, hG, hcase⟩ := setRay_inv hg (reachable_inv hg h0)
    (fun c' hc' => by cases hc'; exact hc) hs
  have hG := hG hS c rfl
  obtain ⟨rfl, rfl⟩ := hG.box.unique ((isBox_iff c mn mx).2 hb)
  rcases hcase with ⟨-, hz1, hz2⟩ | ⟨hw, -⟩
  · exact nexts_exhausted cfg n g r (by omega)
  · exfalso; apply hout
    intro i; have := hw i; push Not at this; exact this


/-! ## A concrete ray: the hypotheses of C58 – C62 are met, and of equal stamps -/

namespace Example

/-- 1 m cells, map grid 0.1 m, no tolerance. -/
noncomputable def cfg : Cfg := ⟨1 / 10, 1 / 10, 1 / 10, 1, 0, 0⟩
/-- A wall point at x = 1.5 between two others. -/
noncomputable def map1 : Cloud := ⟨1, 7, [(⟨0, 0, 0⟩, 0), (⟨3 / 2, 0, 0⟩, 0), (⟨3, 0, 0⟩, 0)]⟩
/-- The next map, with the same stamp, in which the wall is gone. -/
noncomputable def map2 : Cloud := ⟨2, 7, [(⟨0, 0, 0⟩, 0), (⟨3, 0, 0⟩, 0)]⟩
def b : Vec3 ℝ := ⟨0, 0, 0⟩
def e : Vec3 ℝ := ⟨3, 0, 0⟩

theorem box1 : IsBoundingBox (map1.pts.map Prod.fst) ![0, 0, 0] ![3, 0, 0] := by
  constructor
  · intro p hp i
    simp only [map1, List.map_cons, List.map_nil, List.mem_cons, List.not_mem_nil, or_false] at hp
    rcases hp with rfl | rfl | rfl <;> fin_cases i <;> norm_num [Vec3.get]
  · intro p hp i
    simp only [map1, List.map_cons, List.map_nil, List.mem_cons, List.not_mem_nil, or_false] at hp
    rcases hp with rfl | rfl | rfl <;> fin_cases i <;> norm_num [Vec3.get]
  · intro i
    refine ⟨⟨0, 0, 0⟩, by simp [map1], ?_⟩
    fin_cases i <;> simp [Vec3.get]
  · intro i
    refine ⟨⟨3, 0, 0⟩, by simp [map1], ?_⟩
    fin_cases i <;> simp [Vec3.get]

theorem len_eb : len (e - b) = 3 := by
  unfold len e b
  change Real.sqrt ((3 - 0) ^ 2 + (0 - 0) ^ 2 + (0 - 0) ^ 2) = 3
  rw [show ((3 : ℝ) - 0) ^ 2 + (0 - 0) ^ 2 + (0 - 0) ^ 2 = 3 ^ 2 by norm_num]
  exact Real.sqrt_sq (by norm_num)

theorem rayPoint_eq (t : ℝ) : rayPoint b e t = ⟨t, 0, 0⟩ := by
  unfold rayPoint
  rw [len_eb]
  simp [e, b]

theorem inside_b : InsideBox ![0, 0, 0] ![3, 0, 0] b := by
  intro i; fin_cases i <;> norm_num [b, Vec3.get]

theorem stampsDiffer : StampsDiffer {map1} := by
  intro c hc c' hc' _
  rw [Set.mem_singleton_iff] at hc hc'
  rw [hc, hc']

/-- Setting the ray is defined. -/
theorem setRay_ok {s : St} (h : Reachable cfg {map1} s) : ∃ s', setRay cfg s (some map1) b e = .ok s' := by
  have : (setRay cfg s (some map1) b e).isOk = true := by
    refine C58_setRay_defined (by norm_num [cfg]) h stampsDiffer rfl box1 ?_ ?_ ?_ ?_
    · simp only [gridSize, cfg]; simp
    · intro i; fin_cases i <;> norm_num [gridSize, cfg]
    · intro h; have := congrArg Vec3.x h; norm_num [b, e] at this
    · intro i
      rw [rayPoint_eq, len_eb]
      fin_cases i <;> norm_num [cfg, Vec3.get]
  cases hh : setRay cfg s (some map1) b e with
  | ok a => exact ⟨a, rfl⟩
  | throws m => rw [hh] at this; cases this
  | ub w => rw [hh] at this; cases this

/-- The wall point is hit. -/
theorem hit {s0 s : St} (h0 : Reachable cfg {map1} s0) (hs : setRay cfg s0 (some map1) b e = .ok s) :
    ∃ n rs s', nexts cfg n s = .ok (rs, s') ∧ ∃ res p, some res ∈ rs ∧ res.point = some p ∧
      p.cloud = 1 ∧ p.pos = ⟨3 / 2, 0, 0⟩ := by
  have hg : (0 : ℝ) < cfg.gridSize := by norm_num [cfg]
  obtain ⟨bc, fc, N, hbc, hfc, hall⟩ := C60_covers (cfg := cfg) hg (by norm_num [cfg]) stampsDiffer h0 rfl hs box1 inside_b
  obtain ⟨path, rs, s', hn, hrep, hgridp, hcov⟩ := hall N le_rfl
  have hend := hfc (by
    rw [rayPoint_eq, len_eb]; intro i; fin_cases i <;> norm_num [cfg, Vec3.get])
  rw [rayPoint_eq, len_eb] at hend
  obtain ⟨cell, hcell, hin⟩ := hcov ⟨3 / 2, 0, 0⟩
    ⟨3 / 2, by norm_num, by rw [len_eb]; norm_num [cfg], by rw [rayPoint_eq]⟩
    (by intro i; fin_cases i <;> norm_num [Vec3.get])
  have hx := hin 0
  have hbx := hbc 0
  have hex := hend 0
  simp [Vec3.get, cfg, b] at hx hbx hex
  have hc1 : (cell 0 : ℝ) ≤ 3 / 2 ∧ (1 / 2 : ℝ) ≤ cell 0 := ⟨by linarith, by linarith⟩
  have hc0 : cell 0 = 1 := by
    have a : (cell 0 : ℝ) < 2 := by linarith
    have c : (0 : ℝ) < cell 0 := by linarith
    have a' : cell 0 < 2 := by exact_mod_cast a
    have c' : 0 < cell 0 := by exact_mod_cast c
    omega
  have hb0 : bc 0 = 0 := by
    have a : (-1 : ℝ) < bc 0 := by linarith [hbx.2]
    have a' : (-1 : ℤ) < bc 0 := by exact_mod_cast a
    have c' : bc 0 ≤ 0 := by exact_mod_cast hbx.1
    omega
  have hf0 : 2 < fc 0 := by
    have a : (2 : ℝ) < fc 0 := by linarith [hex.2]
    exact_mod_cast a
  have hmem : cell ∈ path := by
    simp only [List.mem_cons, List.mem_append, List.not_mem_nil, or_false] at hcell
    rcases hcell with h | h | h
    · subst h; omega
    · exact h
    · subst h; omega
  -- the result for this cell
  obtain ⟨k, hk, hget⟩ := List.getElem_of_mem hmem
  have hk2 : k < rs.length := by rw [← hrep.length_eq]; exact hk
  have hR := (List.forall₂_iff_get.1 hrep).2 k hk hk2
  simp only [List.get_eq_getElem] at hR
  rw [hget] at hR
  have key : ∀ p ∈ map1.refs, InCube cfg.gridSize ![0, 0, 0] cell p.pos → p.pos = ⟨3 / 2, 0, 0⟩ := by
    intro p hp hcube
    have h0 := hcube 0
    rw [hc0] at h0
    simp [Cloud.refs, map1] at hp
    rcases hp with rfl | rfl | rfl
    · exfalso; norm_num [Vec3.get, cfg] at h0
    · norm_num
    · exfalso; norm_num [Vec3.get, cfg] at h0
  have hgrid := hgridp cell hmem
  have h1 : cell 1 = 0 := by
    have a := hgrid 1
    simp [gridSize, cfg] at a
    omega
  have h2 : cell 2 = 0 := by
    have a := hgrid 2
    simp [gridSize, cfg] at a
    omega
  have hcoll : rs[k].collision = true := by
    refine hR.complete ⟨1, 1, ⟨3 / 2, 0, 0⟩, 0⟩ (by simp [Cloud.refs, map1]) ?_ ?_
    · intro i
      fin_cases i
      · change (![0, 0, 0] : Fin 3 → ℝ) 0 + cell 0 * cfg.gridSize ≤ 3 / 2 ∧ 3 / 2 < (![0, 0, 0] : Fin 3 → ℝ) 0 + (cell 0 + 1) * cfg.gridSize
        rw [hc0]; norm_num [cfg]
      · change (![0, 0, 0] : Fin 3 → ℝ) 1 + cell 1 * cfg.gridSize ≤ 0 ∧ 0 < (![0, 0, 0] : Fin 3 → ℝ) 1 + (cell 1 + 1) * cfg.gridSize
        rw [h1]; norm_num [cfg]
      · change (![0, 0, 0] : Fin 3 → ℝ) 2 + cell 2 * cfg.gridSize ≤ 0 ∧ 0 < (![0, 0, 0] : Fin 3 → ℝ) 2 + (cell 2 + 1) * cfg.gridSize
        rw [h2]; simp [cfg]
    · refine ⟨3 / 2, 0, ⟨?_, fun t => ?_⟩, Or.inr (by norm_num [cfg, Cfg.minDistThrSq])⟩
      · rw [rayPoint_eq]; norm_num [distSq]
      · rw [rayPoint_eq]; unfold distSq; positivity
  obtain ⟨p, hp⟩ := hR.collision.1 hcoll
  obtain ⟨l, r, hlr, hcube, -, -⟩ := hR.sound p hp
  have hpm : p ∈ map1.refs := by rw [hlr]; simp
  refine ⟨N, _, s', hn, rs[k], p, ?_, hp, ?_, key p hpm hcube⟩
  · simp
  · unfold Cloud.refs at hpm
    obtain ⟨x, -, rfl⟩ := List.mem_map.1 hpm
    rfl

end Example

/-- C62, equal stamps: a wall that is gone from the new map (same stamp) is still hit, through a pointer
into the old cloud object. -/
theorem C62_same_stamp_example :
    ∃ (cfg : Cfg) (c c' : Cloud) (b e : Vec3 ℝ) (s s' s'' : St) (n : ℕ) (rs : List (Option CastResult))
      (res : CastResult) (p : MapPt),
      setRay cfg St.fresh (some c) b e = .ok s ∧ setRay cfg s (some c') b e = .ok s' ∧
      nexts cfg n s' = .ok (rs, s'') ∧ some res ∈ rs ∧ res.point = some p ∧
      p.cloud = c.id ∧ c.id ≠ c'.id ∧ ∀ q ∈ c'.refs, q.pos ≠ p.pos := by
  obtain ⟨s, hs⟩ := Example.setRay_ok Reachable.fresh
  have hr : Reachable Example.cfg {Example.map1} s :=
    Reachable.setRay Reachable.fresh (fun c hc => by cases hc; rfl) hs
  obtain ⟨s', hs'⟩ := Example.setRay_ok hr
  obtain ⟨n, rs, s'', hn, res, p, hres, hp, hpc, hpp⟩ := Example.hit hr hs'
  refine ⟨Example.cfg, Example.map1, Example.map2, Example.b, Example.e, s, s', s'', n, rs, res, p, hs,
    ?_, hn, hres, hp, hpc, by simp [Example.map1, Example.map2], ?_⟩
  · rw [C62_same_stamp_ignored (by norm_num [Example.cfg]) (c := Example.map1) (c' := Example.map2) rfl hs]
    exact hs'
  · intro q hq
    rw [hpp]
    simp [Cloud.refs, Example.map2] at hq
    rcases hq with rfl | rfl
    · intro h; have := congrArg Vec3.x h; norm_num at this
    · intro h; have := congrArg Vec3.x h; norm_num at this

/-! ## C60: why the extended end must not be below the minimum of the map -/

namespace Example2

noncomputable def cfg : Cfg := ⟨1 / 10, 1 / 10, 1 / 10, 1, 0, 0⟩
/-- A flat map of 3 m by 1 m. -/
noncomputable def map1 : Cloud := ⟨1, 7, [(⟨0, 0, 0⟩, 0), (⟨3, 1, 0⟩, 0)]⟩
def b : Vec3 ℝ := ⟨0, 0, 0⟩
/-- 0.9 cells below the minimum of y: the index rounds toward zero, to 0 -/
noncomputable def e : Vec3 ℝ := ⟨3, -(9 / 10), 0⟩

theorem box1 : IsBoundingBox (map1.pts.map Prod.fst) ![0, 0, 0] ![3, 1, 0] := by
  constructor
  · intro p hp i
    simp only [map1, List.map_cons, List.map_nil, List.mem_cons, List.not_mem_nil, or_false] at hp
    rcases hp with rfl | rfl <;> fin_cases i <;> norm_num [Vec3.get]
  · intro p hp i
    simp only [map1, List.map_cons, List.map_nil, List.mem_cons, List.not_mem_nil, or_false] at hp
    rcases hp with rfl | rfl <;> fin_cases i <;> norm_num [Vec3.get]
  · intro i
    refine ⟨⟨0, 0, 0⟩, by simp [map1], ?_⟩
    fin_cases i <;> simp [Vec3.get]
  · intro i
    refine ⟨⟨3, 1, 0⟩, by simp [map1], ?_⟩
    fin_cases i <;> simp [Vec3.get]

theorem inside_b : InsideBox ![0, 0, 0] ![3, 1, 0] b := by
  intro i; fin_cases i <;> norm_num [b, Vec3.get]

theorem stampsDiffer : StampsDiffer {map1} := by
  intro c hc c' hc' _
  rw [Set.mem_singleton_iff] at hc hc'
  rw [hc, hc']

theorem len_ne : 0 < len (e - b) := by
  apply len_pos
  change ¬ ((3 - 0) * (3 - 0) + (-(9 / 10) - 0) * (-(9 / 10) - 0) + (0 - 0) * (0 - 0) = (0 : ℝ))
  norm_num

theorem end_pt : rayPoint b e (len (e - b) + cfg.hitTolerance) = e := by
  rw [← end_eq len_ne]
  apply Vec3.ext
  · change (3 : ℝ) + _ * 0 = 3; ring
  · change (-(9 / 10) : ℝ) + _ * 0 = -(9 / 10); ring
  · change (0 : ℝ) + _ * 0 = 0; ring

end Example2

/-- C60, limit: for a ray that ends below the minimum of the map, an examined cell need not be met by
the ray at all (the end index rounds toward zero). -/
theorem C60_needs_end_above_min :
    ∃ (cfg : Cfg) (c : Cloud) (b e : Vec3 ℝ) (mn mx : Fin 3 → ℝ) (s s' : St) (res : CastResult) (cell : Cell),
      0 < cfg.gridSize ∧ 0 ≤ cfg.hitTolerance ∧ IsBoundingBox (c.pts.map Prod.fst) mn mx ∧
      InsideBox mn mx b ∧ setRay cfg St.fresh (some c) b e = .ok s ∧
      nexts cfg 1 s = .ok ([some res], s') ∧
      (∀ i : Fin 3, res.pos.get i = mn i + (cell i + 1 / 2) * cfg.gridSize) ∧
      ¬ ∃ x, OnRay cfg.hitTolerance b e x ∧ InClosedCell cfg.gridSize mn cell x := by
  have hg : (0 : ℝ) < Example2.cfg.gridSize := by norm_num [Example2.cfg]
  have hok : ∃ s, setRay Example2.cfg St.fresh (some Example2.map1) Example2.b Example2.e = .ok s := by
    have : (setRay Example2.cfg St.fresh (some Example2.map1) Example2.b Example2.e).isOk = true := by
      refine C58_setRay_defined (S := {Example2.map1}) hg Reachable.fresh Example2.stampsDiffer rfl Example2.box1 ?_ ?_ ?_ ?_
      · simp only [gridSize, Example2.cfg]; simp
      · intro i; fin_cases i <;> norm_num [gridSize, Example2.cfg]
      · intro h; have := congrArg Vec3.x h; norm_num [Example2.b, Example2.e] at this
      · intro i
        rw [Example2.end_pt]
        fin_cases i
        · simp [Example2.cfg, Vec3.get, Example2.e]; norm_num
        · simp [Example2.cfg, Vec3.get, Example2.e]; norm_num
        · simp [Example2.cfg, Vec3.get, Example2.e]
    cases hh : setRay Example2.cfg St.fresh (some Example2.map1) Example2.b Example2.e with
    | ok a => exact ⟨a, rfl⟩
    | throws m => rw [hh] at this; cases this
    | ub w => rw [hh] at this; cases this
  obtain ⟨s, hs⟩ := hok
  obtain ⟨g, r, rfl, hmn, hmx, hG, hst, hn⟩ := ray_results hg Example2.stampsDiffer Reachable.fresh
    (c := Example2.map1) rfl hs Example2.box1 Example2.inside_b
  obtain ⟨s', hs'⟩ := hn 1
  have hb : r.beginIdx = ![0, 0, 0] := by
    rw [hst.beginIdx, hmn]
    funext i
    fin_cases i <;> simp [cellOf, Example2.b, Vec3.get, truncZ]
  have he : r.endIdx = ![3, 0, 0] := by
    rw [hst.endIdx, hmn, Example2.end_pt]
    funext i
    fin_cases i
    · simp [cellOf, Example2.e, Example2.cfg, Vec3.get, truncZ]
    · change truncZ ((-(9 / 10) - 0) / 1) = 0
      unfold truncZ
      rw [if_neg (by norm_num), Int.ceil_eq_iff]
      norm_num
    · simp [cellOf, Example2.e, Example2.cfg, Vec3.get, truncZ]
  have hsz : g.size 0 = 4 := by
    rw [hG.size_eq, hmn, hmx]; norm_num [Example2.cfg]
  have hax : ∀ (a : Fin 3) (ed : ℝ × ℝ), r.edge a = some ed → a = 0 := by
    intro a ed hed
    by_contra hne
    have : r.edge a = none := by
      rw [hst.dyn.none_iff, hb, he]
      fin_cases a
      · exact absurd rfl hne
      · rfl
      · rfl
    rw [this] at hed; cases hed
  have hpath : cellPath g 1 r = [![1, 0, 0]] := by
    rw [cellPath]
    rcases hadv : advance g r with ⟨o, r'⟩
    cases o with
    | false =>
      exfalso
      rcases hst.dyn.advance_false hadv with h | ⟨a, ed, -, hed, -, hout⟩
      · rw [hst.dyn.maxMov, hst.pos] at h
        simp [Ray.dist, hb, he] at h
      · have := hax a ed hed
        subst this
        rw [hst.dyn.step, hb, he, hsz] at hout
        simp at hout
    | true =>
      obtain ⟨-, a, ed, -, hed, -, -, hcur⟩ := hst.dyn.advance_true hadv
      have := hax a ed hed
      subst this
      simp only [cellPath]
      rw [hcur, hst.cur, hst.dyn.step, hb, he]
      congr 1
      funext i
      fin_cases i <;> simp [Function.update]
  have hp3 := (cellPath_props 1 hst.dyn).2.2.1 ![1, 0, 0] (by rw [hpath]; simp)
  have hrep := resultAt_ok hg hG hst.len_pos hp3
  rw [hpath] at hs'
  refine ⟨Example2.cfg, Example2.map1, Example2.b, Example2.e, ![0, 0, 0], ![3, 1, 0], _, s', _, ![1, 0, 0],
    hg, by norm_num [Example2.cfg], Example2.box1, Example2.inside_b, hs, hs', ?_, ?_⟩
  · rw [← hmn]; exact hrep.pos
  · rintro ⟨x, ⟨t, ht0, ht1, rfl⟩, hin⟩
    have hx := hin 0
    have hy := hin 1
    have hl := Example2.len_ne
    have ex : (rayPoint Example2.b Example2.e t).get 0 = t * (3 / len (Example2.e - Example2.b)) := by
      change (0 : ℝ) + t * ((3 - 0) / len (Example2.e - Example2.b)) = _
      ring
    have ey : (rayPoint Example2.b Example2.e t).get 1 = -(t * (3 / len (Example2.e - Example2.b))) * (3 / 10) := by
      change (0 : ℝ) + t * ((-(9 / 10) - 0) / len (Example2.e - Example2.b)) = _
      ring
    simp only [Fin.val_zero, Fin.val_one] at hx hy
    rw [ex] at hx
    rw [ey] at hy
    simp [Example2.cfg] at hx hy
    linarith [hx.1, hy.1]

end DDA
end Mcl3dl
