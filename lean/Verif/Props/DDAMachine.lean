import Verif.Proofs.DDAMachine
import Verif.Props.RoundedGeom

set_option linter.unusedSectionVars false

/-! # C175: the grid caster stays in its arrays whatever the rounding -/

namespace Mcl3dl
namespace DDA

variable {F : Type} {M : Machine F}

/-- C175: whatever has been done with the caster before, after a first `setRay` every further sequence of calls of
`getNextCastResult` is defined, no matter along which axes the rounded `t_max_` send the ray and where its computed end
is. -/
theorem C175_calls_defined (hM : M.Monotone) {s : MSt F} (h : MReach M s) (hr : s.ray ≠ none) (axes : List (Fin 3)) :
    (s.nexts axes).isOk = true := by
  induction axes generalizing s with
  | nil => rfl
  | cons i is ih =>
    have hs := h.good hM
    obtain ⟨r, er⟩ := Option.ne_none_iff_exists'.1 hr
    cases eg : s.grid with
    | none => exact absurd (hs.both eg) hr
    | some g =>
      obtain ⟨res, e⟩ := hs.getNext eg er i
      have := ih (.next h e) (by simp)
      unfold MSt.nexts
      rw [e, Outcome.bind_ok]
      revert this
      cases MSt.nexts is ⟨some g, some (r.advance g.size i).2⟩ <;> simp [Outcome.isOk]

/-- With a consistent grid a ray can be prepared. -/
theorem startRay_isOk (hM : M.Monotone) {g : MGrid F} (hg : g.Good M) (hs : ∀ i, g.size i ≤ 2 ^ 28) {b : Fin 3 → F}
    (hb : M.isPointWithinMap g b) {ei : Cell} (he : ∀ i, |ei i| ≤ 2 ^ 28) : ∃ r, M.startRay g b ei = .ok r := by
  have hin := hg.inGrid hM (fun i hl => hb i (Or.inl hl)) (fun i hl => hb i (Or.inr hl))
  have ti := hg.toIndex hM (fun i hl => hb i (Or.inl hl)) (fun i hl => hb i (Or.inr hl))
  have key : ∀ i, |ei i - M.cellsOf g.minP b i| ≤ 2 ^ 29 := by
    intro i
    have a := hin i
    have b' := hs i
    have c' := abs_le.1 (he i)
    rw [abs_le]; constructor <;> omega
  unfold Machine.startRay
  have k0 := abs_le.1 (key 0); have k1 := abs_le.1 (key 1); have k2 := abs_le.1 (key 2)
  have q0 := key 0; have q1 := key 1; have q2 := key 2
  have n0 := abs_nonneg (ei 0 - M.cellsOf g.minP b 0)
  have n1 := abs_nonneg (ei 1 - M.cellsOf g.minP b 1)
  have n2 := abs_nonneg (ei 2 - M.cellsOf g.minP b 2)
  rw [ti, Outcome.bind_ok, i32_of (by omega) (by omega), Outcome.bind_ok, i32_of (by omega) (by omega), Outcome.bind_ok,
    i32_of (by omega) (by omega), Outcome.bind_ok, i32_of (by omega) (by omega), Outcome.bind_ok,
    i32_of (by omega) (by omega), Outcome.bind_ok, i32_of (by omega) (by omega), Outcome.bind_ok,
    i32_of (by omega) (by omega), Outcome.bind_ok, i32_of (by omega) (by omega), Outcome.bind_ok]
  exact ⟨_, rfl⟩

theorem setRay_isOk (hM : M.Monotone) {s : MSt F} {cloud : Option (MCloud F)} {g : MGrid F}
    (hu : M.updatePointCloud s.grid cloud = .ok (some g)) (hg : g.Good M) (hs : ∀ i, g.size i ≤ 2 ^ 28) (b : Fin 3 → F)
    (ei : Cell) (he : ∀ i, |ei i| ≤ 2 ^ 28) : ∃ s', M.setRay s cloud b ei = .ok s' ∧ s'.ray ≠ none := by
  unfold Machine.setRay
  rw [hu, Outcome.bind_ok]
  simp only
  by_cases hb : M.isPointWithinMap g b
  · rw [if_neg (not_not.2 hb)]
    obtain ⟨r, e⟩ := startRay_isOk hM hg hs hb he
    rw [e]
    exact ⟨_, rfl, by simp⟩
  · rw [if_pos hb]
    exact ⟨_, rfl, by simp⟩

/-- C175: `setRay` with a new map is defined, for every beginning of the ray, if the map has fewer than 2^31 cells, at
most 2^28 along each axis, and the cell computed for the end of the ray is not farther away than 2^28 cells from the
corner. -/
theorem C175_setRay_defined (hM : M.Monotone) {s : MSt F} (c : MCloud F) (hc : c.Bounded M)
    (hsame : ∀ g, s.grid = some g → g.stamp ≠ c.stamp)
    (hs : ∀ i, M.cell (M.sub (c.maxP i) (c.minP i)) < 2 ^ 28)
    (ht : (M.cell (M.sub (c.maxP 0) (c.minP 0)) + 1) * (M.cell (M.sub (c.maxP 1) (c.minP 1)) + 1) *
      (M.cell (M.sub (c.maxP 2) (c.minP 2)) + 1) < 2 ^ 31) (b : Fin 3 → F) (ei : Cell) (he : ∀ i, |ei i| ≤ 2 ^ 28) :
    ∃ s', M.setRay s (some c) b ei = .ok s' ∧ s'.ray ≠ none := by
  obtain ⟨g, e, hg, mn, mx, sz, -⟩ := M.build_good hM hc ht
  have hu : M.updatePointCloud s.grid (some c) = .ok (some g) := by
    unfold Machine.updatePointCloud
    cases eg : s.grid with
    | none => simp only; rw [e]; rfl
    | some old => simp only; rw [if_neg (fun hh => hsame old eg hh.symm), e]; rfl
  refine setRay_isOk hM hu hg (fun i => ?_) b ei he
  rw [hg.size i, mn, mx]
  have := hs i
  omega

/-- C175: `setRay` with the map the caster already has, or with none, is defined likewise. -/
theorem C175_setRay_again (hM : M.Monotone) {s : MSt F} (h : MReach M s) {g : MGrid F} (hg : s.grid = some g)
    (cloud : Option (MCloud F)) (hsame : ∀ c, cloud = some c → c.stamp = g.stamp) (hs : ∀ i, g.size i ≤ 2 ^ 28)
    (b : Fin 3 → F) (ei : Cell) (he : ∀ i, |ei i| ≤ 2 ^ 28) :
    ∃ s', M.setRay s cloud b ei = .ok s' ∧ s'.ray ≠ none := by
  refine setRay_isOk hM (g := g) ?_ ((h.good hM).grid g hg) hs b ei he
  unfold Machine.updatePointCloud
  rw [hg]
  cases cloud with
  | none => rfl
  | some c => simp only; rw [if_pos (hsame c rfl)]

/-- C175: every point of the map is stored in the cell computed for it, which is one of the grid, and found there; a cell
holds no other points. -/
theorem C175_points_kept (hM : M.Monotone) (c : MCloud F) (hc : c.Bounded M) {g : MGrid F} (h : M.build c = .ok g) :
    (∀ (k : ℕ) (hk : k < c.pts.length), ∃ d l, M.toIndex g.minP (c.pts[k]) = .ok d ∧ CellInGrid g.size d ∧
      g.lookUp d = .ok l ∧ k ∈ l) ∧
    (∀ d l, CellInGrid g.size d → g.lookUp d = .ok l → ∀ k ∈ l, ∃ hk : k < c.pts.length,
      M.toIndex g.minP (c.pts[k]) = .ok d) := by
  obtain ⟨g', e, hg, mn, mx, sz, cc, tt⟩ := M.build_good hM hc (M.build_small h)
  rw [h] at e; cases e
  have within : ∀ k (hk : k < c.pts.length), InGrid g.size (M.cellsOf g.minP c.pts[k]) ∧
      M.toIndex g.minP c.pts[k] = .ok (M.cellsOf g.minP c.pts[k]) := by
    intro k hk
    have l1 : ∀ i, ¬ M.lt (c.pts[k] i) (g.minP i) := fun i => mn ▸ hc.lo _ (List.getElem_mem hk) i
    have l2 : ∀ i, ¬ M.lt (g.maxP i) (c.pts[k] i) := fun i => mx ▸ hc.hi _ (List.getElem_mem hk) i
    exact ⟨hg.inGrid hM l1 l2, hg.toIndex hM l1 l2⟩
  constructor
  · intro k hk
    obtain ⟨hin, ti⟩ := within k hk
    have hm : (c.pts[k], k) ∈ c.pts.zipIdx := by
      rw [List.mk_mem_zipIdx_iff_getElem?]; simp [hk]
    have he : g.exist (flat g.size (M.cellsOf g.minP c.pts[k])) = true := by
      rw [tt, ← sz, mn]; exact ⟨_, hm, rfl⟩
    refine ⟨_, _, ti, hin, hg.lookUp hin, ?_⟩
    rw [if_neg (by simp [he]), cc, ← sz, mn]
    exact ⟨_, hm, rfl, rfl⟩
  · intro d l hd hl k hk
    rw [hg.lookUp hd] at hl
    cases hl
    split_ifs at hk with hex
    · cases hk
    · rw [cc] at hk
      obtain ⟨p, hp, rfl, hf⟩ := hk
      obtain ⟨q, j⟩ := p
      rw [List.mk_mem_zipIdx_iff_getElem?, List.getElem?_eq_some_iff] at hp
      obtain ⟨hj, ej⟩ := hp
      obtain ⟨hin, ti⟩ := within j hj
      refine ⟨hj, ?_⟩
      rw [ti]
      congr 1
      refine flat_inj hin hd ?_
      rw [← sz, ← mn] at hf
      simp only at hf
      rw [ej, hf]

/-- C175: what is asked of the arithmetic holds for every monotone rounding of the `float` difference and the `double`
quotient, hence for IEEE-754 in every rounding mode, and for exact numbers. -/
theorem C175_rounding {fl dl : ℝ → ℝ} (hf : IsRounding fl) (hd : IsRounding dl) {gs : ℝ} (hg : 0 < gs) :
    (roundedMachine fl dl gs).Monotone where
  lt_irrefl := fun a => lt_irrefl a
  le_trans := fun a b c h1 h2 => not_lt.2 (le_trans (not_lt.1 h1) (not_lt.1 h2))
  sub_mono := fun a b c h => not_lt.2 (hf.mono (by linarith [not_lt.1 h]))
  cell_mono := fun a b h => truncZ_mono (hd.mono (div_le_div_of_nonneg_right (not_lt.1 h) hg.le))
  cell_self := fun a => by
    show truncZ (dl (fl (a - a) / gs)) = 0
    rw [sub_self, hf.zero, zero_div, hd.zero]
    simp [truncZ]

/-- C175: but a beginning that is not a number passes the check that it is within the map, since no comparison holds of
it, and is then converted to a cell number, which is undefined. -/
theorem C175_nan (s : MSt F) {g : MGrid F} (hg : s.grid = some g) (b : Fin 3 → F) (ei : Cell)
    (hb : ∀ i x, ¬ M.lt (b i) x ∧ ¬ M.lt x (b i)) (hn : ∃ i, ¬ M.cell (M.sub (b i) (g.minP i)) < 2 ^ 31) :
    (M.setRay s none b ei).isUb = true := by
  have hw : M.isPointWithinMap g b := fun i => by
    rintro (h | h)
    · exact (hb i _).1 h
    · exact (hb i _).2 h
  have ht : (M.toIndex g.minP b).isUb = true := by
    obtain ⟨i, hi⟩ := hn
    have ub : ∀ x : ℤ, ¬ x < 2 ^ 31 → i32 x = .ub "value does not fit int" := fun x hx => by
      unfold i32; rw [if_neg (fun hh => hx hh.2)]
    have either : ∀ x : ℤ, (∃ y, i32 x = .ok y) ∨ (i32 x).isUb = true := fun x => by
      unfold i32; split_ifs
      · exact Or.inl ⟨_, rfl⟩
      · exact Or.inr rfl
    have bindub : ∀ {α β : Type} (x : Outcome α) (f : α → Outcome β), x.isUb = true → (x.bind f).isUb = true := by
      intro α β x f h
      cases x with
      | ok a => cases h
      | throws m => cases h
      | ub w => rfl
    unfold Machine.toIndex
    rcases either (M.cell (M.sub (b 0) (g.minP 0))) with ⟨y0, e0⟩ | u0
    · rw [e0, Outcome.bind_ok]
      rcases either (M.cell (M.sub (b 1) (g.minP 1))) with ⟨y1, e1⟩ | u1
      · rw [e1, Outcome.bind_ok]
        rcases either (M.cell (M.sub (b 2) (g.minP 2))) with ⟨y2, e2⟩ | u2
        · exfalso
          fin_cases i
          · exact hi (i32_ok e0).2.2
          · exact hi (i32_ok e1).2.2
          · exact hi (i32_ok e2).2.2
        · exact bindub _ _ u2
      · exact bindub _ _ u1
    · exact bindub _ _ u0
  unfold Machine.setRay Machine.updatePointCloud
  rw [hg, Outcome.bind_ok]
  simp only
  rw [if_neg (not_not.2 hw)]
  unfold Machine.startRay
  revert ht
  cases M.toIndex g.minP b <;> simp [Outcome.isUb]

/-! ## The caster over exact numbers is a run of this one -/

theorem exact_toIndex {gs : ℝ} {mn : Fin 3 → ℝ} {p : Vec3 ℝ} {c : Cell} (h : toIndex gs mn p = .ok c) :
    (exactMachine gs).toIndex mn (fun i => p.get i) = .ok c := by
  unfold toIndex axisIndex at h
  split_ifs at h with hg
  · cases h
  · exact h

theorem exact_setExists {gs : ℝ} {g g' : Grid} {p : MapPt} (h : setExists gs g p = .ok g') {r : Option Ray} :
    ∃ m', (exactMachine gs).setExists ⟨g.stamp, g.minP, g.maxP, g.size, g.total, g.exist, fun a => (g.cells a).map MapPt.idx⟩
      (fun i => p.pos.get i) p.idx = .ok m' ∧ (St.asMachine ⟨some g', r⟩).grid = some m' := by
  unfold setExists at h
  obtain ⟨c, hc, h⟩ := bind_eq_ok h
  obtain ⟨a, ha, h⟩ := bind_eq_ok h
  split_ifs at h with hr
  cases h
  unfold Machine.setExists
  simp only
  rw [exact_toIndex hc, Outcome.bind_ok, ha, Outcome.bind_ok, if_pos hr]
  refine ⟨_, rfl, ?_⟩
  simp only [St.asMachine, Option.map_some, Option.some.injEq, MGrid.mk.injEq, true_and]
  funext x
  by_cases e : x = a
  · subst e; simp
  · simp [Function.update_of_ne e]

theorem exact_setAll {gs : ℝ} (ps : List MapPt) {g g' : Grid} (h : setAll gs g ps = .ok g') {r : Option Ray} :
    ∃ m', (exactMachine gs).setAll ⟨g.stamp, g.minP, g.maxP, g.size, g.total, g.exist, fun a => (g.cells a).map MapPt.idx⟩
      (ps.map fun p => (fun i => p.pos.get i, p.idx)) = .ok m' ∧ (St.asMachine ⟨some g', r⟩).grid = some m' := by
  induction ps generalizing g with
  | nil => cases h; exact ⟨_, rfl, rfl⟩
  | cons p ps ih =>
    unfold setAll at h
    obtain ⟨g1, h1, h⟩ := bind_eq_ok h
    obtain ⟨m1, e1, f1⟩ := exact_setExists (r := none) h1
    obtain ⟨m', e', f'⟩ := ih h
    refine ⟨m', ?_, f'⟩
    rw [List.map_cons]
    unfold Machine.setAll
    rw [e1, Outcome.bind_ok]
    simp only [St.asMachine, Option.map_some, Option.some.injEq] at f1
    rw [← f1]; exact e'

theorem Cloud.refs_points (c : Cloud) :
    c.refs.map (fun p => ((fun i => p.pos.get i : Fin 3 → ℝ), p.idx)) = c.asMachine.pts.zipIdx := by
  unfold Cloud.refs Cloud.asMachine
  rw [List.map_map, List.zipIdx_map]
  rfl

theorem exact_build {cfg : Cfg} {c : Cloud} {g : Grid} (h : build cfg c = .ok g) {r : Option Ray} :
    ∃ m, (exactMachine cfg.gridSize).build c.asMachine = .ok m ∧ (St.asMachine ⟨some g, r⟩).grid = some m := by
  unfold build at h
  cases hc : c.refs with
  | nil => rw [hc] at h; cases h
  | cons p ps =>
    rw [hc] at h
    simp only at h
    obtain ⟨s0, h0, h⟩ := bind_eq_ok h
    obtain ⟨s1, h1, h⟩ := bind_eq_ok h
    obtain ⟨s01, h01, h⟩ := bind_eq_ok h
    obtain ⟨s2, h2, h⟩ := bind_eq_ok h
    obtain ⟨t, ht, h⟩ := bind_eq_ok h
    have emn : c.asMachine.minP = fun i => minAlong i p ps := by
      funext i; simp only [Cloud.asMachine]; rw [hc]
    have emx : c.asMachine.maxP = fun i => maxAlong i p ps := by
      funext i; simp only [Cloud.asMachine]; rw [hc]
    have ax : ∀ {mn mx : ℝ} {s : ℤ}, axisSize cfg.gridSize mn mx = .ok s → (exactMachine cfg.gridSize).axisSize mn mx = .ok s := by
      intro mn mx s h
      unfold axisSize at h
      split_ifs at h with hz hn
      unfold Machine.axisSize
      show (if truncZ ((mx - mn) / cfg.gridSize) < 0 then _ else _) = _
      rw [if_neg hn]; exact h
    obtain ⟨m, e, f⟩ := exact_setAll (r := r) (p :: ps) h
    refine ⟨m, ?_, f⟩
    unfold Machine.build
    rw [emn, emx]
    simp only
    rw [ax h0, Outcome.bind_ok, ax h1, Outcome.bind_ok, h01, Outcome.bind_ok, ax h2, Outcome.bind_ok, ht, Outcome.bind_ok,
      ← Cloud.refs_points, hc]
    exact e

theorem exact_update {cfg : Cfg} {g g' : Option Grid} {cloud : Option Cloud} (h : updatePointCloud cfg g cloud = .ok g')
    (r : Option Ray) : (exactMachine cfg.gridSize).updatePointCloud (St.asMachine ⟨g, r⟩).grid (cloud.map Cloud.asMachine)
      = .ok (St.asMachine ⟨g', r⟩).grid := by
  have bld : ∀ {c}, ((build cfg c).bind fun n => Outcome.ok (some n)) = .ok g' →
      (((exactMachine cfg.gridSize).build c.asMachine).bind fun n => Outcome.ok (some n)) = .ok (St.asMachine ⟨g', r⟩).grid := by
    intro c h
    obtain ⟨n, hn, h⟩ := bind_eq_ok h
    cases h
    obtain ⟨m, e, f⟩ := exact_build (r := r) hn
    rw [e, f]; rfl
  unfold updatePointCloud at h
  cases cloud with
  | none => cases h; rfl
  | some c =>
    cases g with
    | none => exact bld h
    | some old =>
      simp only at h
      show (if c.stamp = old.stamp then _ else _) = _
      split_ifs at h with hs
      · rw [if_pos hs]; cases h; rfl
      · rw [if_neg hs]; exact bld h

/-- C175: the caster of C58–C64, which computes exactly, does what this one does over exact numbers, with some end cell … -/
theorem C175_exact_setRay (cfg : Cfg) (s s' : St) (cloud : Option Cloud) (b e : Vec3 ℝ)
    (h : setRay cfg s cloud b e = .ok s') :
    ∃ ei, (exactMachine cfg.gridSize).setRay s.asMachine (cloud.map Cloud.asMachine) (fun i => b.get i) ei = .ok s'.asMachine := by
  unfold setRay at h
  obtain ⟨g', hg', h⟩ := bind_eq_ok h
  have hu := exact_update hg' s.ray
  cases g' with
  | none => cases h
  | some g =>
    simp only at h
    have hw : (exactMachine cfg.gridSize).isPointWithinMap
        ⟨g.stamp, g.minP, g.maxP, g.size, g.total, g.exist, fun a => (g.cells a).map MapPt.idx⟩ (fun i => b.get i) ↔
        isPointWithinMap g b := Iff.rfl
    by_cases hb : isPointWithinMap g b
    · rw [if_neg (not_not.2 hb)] at h
      obtain ⟨r, hr, h⟩ := bind_eq_ok h
      cases h
      unfold startRay at hr
      split_ifs at hr with hz
      simp only at hr
      obtain ⟨bi, hbi, hr⟩ := bind_eq_ok hr
      obtain ⟨ei, hei, hr⟩ := bind_eq_ok hr
      obtain ⟨d0, h0, hr⟩ := bind_eq_ok hr
      obtain ⟨d1, h1, hr⟩ := bind_eq_ok hr
      obtain ⟨d2, h2, hr⟩ := bind_eq_ok hr
      obtain ⟨a0, g0, hr⟩ := bind_eq_ok hr
      obtain ⟨a1, g1, hr⟩ := bind_eq_ok hr
      obtain ⟨a01, g01, hr⟩ := bind_eq_ok hr
      obtain ⟨a2, g2, hr⟩ := bind_eq_ok hr
      obtain ⟨mm, gm, hr⟩ := bind_eq_ok hr
      cases hr
      refine ⟨ei, ?_⟩
      unfold Machine.setRay
      rw [show s.asMachine.grid = (St.asMachine ⟨s.grid, s.ray⟩).grid from rfl, hu, Outcome.bind_ok]
      simp only [St.asMachine, Option.map_some]
      rw [if_neg (not_not.2 (hw.2 hb))]
      unfold Machine.startRay
      simp only
      rw [exact_toIndex hbi, Outcome.bind_ok, h0, Outcome.bind_ok, h1, Outcome.bind_ok, h2, Outcome.bind_ok, g0, Outcome.bind_ok,
        g1, Outcome.bind_ok, g01, Outcome.bind_ok, g2, Outcome.bind_ok, gm, Outcome.bind_ok]
      rfl
    · rw [if_pos hb] at h
      cases h
      refine ⟨fun _ => 0, ?_⟩
      unfold Machine.setRay
      rw [show s.asMachine.grid = (St.asMachine ⟨s.grid, s.ray⟩).grid from rfl, hu, Outcome.bind_ok]
      simp only [St.asMachine, Option.map_some]
      rw [if_pos (fun hh => hb (hw.1 hh))]
      cases s.ray <;> rfl

/-- C175: … and some axis in each call; the result is a collision only with one of the points looked at. -/
theorem C175_exact_getNext (cfg : Cfg) (s s' : St) (res : Option CastResult) (h : getNext cfg s = .ok (res, s')) :
    ∃ i l, s.asMachine.getNext i = .ok (l, s'.asMachine) ∧ (l = none ↔ res = none) ∧
      (∀ c ks p, res = some c → l = some ks → c.point = some p → p.idx ∈ ks) := by
  unfold getNext at h
  cases hg : s.grid with
  | none => rw [hg] at h; cases h
  | some g =>
    cases hr : s.ray with
    | none => rw [hg, hr] at h; cases h
    | some r =>
      rw [hg, hr] at h
      simp only at h
      have sim : ∀ b r', advance g r = (b, r') → MRay.advance g.size ⟨r.cur, r.step, r.maxMov, r.pos⟩ (pickAxis r.tMax) =
          (b, ⟨r'.cur, r'.step, r'.maxMov, r'.pos⟩) := by
        intro b r' ha
        unfold advance incrementIndex at ha
        unfold MRay.advance
        simp only at ha ⊢
        by_cases h1 : r.maxMov ≤ r.pos + 1
        · rw [if_pos h1] at ha ⊢; cases ha; rfl
        · rw [if_neg h1] at ha ⊢
          split_ifs at ha ⊢ with h2
          · cases ha; rfl
          · cases ha; rfl
      refine ⟨pickAxis r.tMax, ?_⟩
      unfold MSt.getNext
      simp only [St.asMachine, hg, hr, Option.map_some]
      cases ha : advance g r with
      | mk b r' =>
        rw [ha] at h
        rw [sim b r' ha]
        cases b with
        | false => cases h; exact ⟨none, rfl, by simp, fun c ks p hc => by cases hc⟩
        | true =>
          simp only at h
          obtain ⟨hit, hh, h⟩ := bind_eq_ok h
          cases h
          unfold hasIntersection at hh
          obtain ⟨a, ea, hh⟩ := bind_eq_ok hh
          split_ifs at hh with h1 h2 h3
          · cases hh
            refine ⟨some [], ?_, by simp, fun c ks p hc _ hp => by cases hc; cases hp⟩
            unfold MGrid.lookUp
            simp only
            rw [ea, Outcome.bind_ok, if_pos h1, if_pos h2]; rfl
          · cases hh
            refine ⟨some ((g.cells a).map MapPt.idx), ?_, by simp, fun c ks p hc hk hp => ?_⟩
            · unfold MGrid.lookUp
              simp only
              rw [ea, Outcome.bind_ok, if_pos h1, if_neg h2, if_neg (by simpa using h3)]; rfl
            · cases hc; cases hk
              exact List.mem_map_of_mem (List.mem_of_find?_eq_some hp)

/-! ## Examples -/

/-- Cutting off after `p` binary digits is a rounding. -/
theorem cut_isRounding (p : ℕ) (hp : 0 < p) : IsRounding (RoundedGeom.cut p) where
  mono := by
    intro x y h
    unfold RoundedGeom.cut
    split_ifs with h1 h2 h2
    · exact PF.trunc_mono p hp h1 h
    · linarith
    · have := PF.trunc_nonneg p (x := -x) (by linarith)
      have := PF.trunc_nonneg p h2
      linarith
    · have := PF.trunc_mono p hp (x := -y) (y := -x) (by linarith) (by linarith)
      linarith
  zero := by unfold RoundedGeom.cut; rw [if_pos le_rfl, PF.trunc_zero]

theorem id_isRounding : IsRounding id := ⟨monotone_id, rfl⟩

/-- Two opposite corners of a room of 3 m by 2 m by 1 m. -/
noncomputable def roomM (stamp : ℕ) : MCloud ℝ :=
  ⟨stamp, [fun _ => 0, ![3, 2, 1]], fun _ => 0, ![3, 2, 1]⟩

theorem roomM_bounded (stamp : ℕ) (fl dl : ℝ → ℝ) (gs : ℝ) : (roomM stamp).Bounded (roundedMachine fl dl gs) where
  nonempty := by simp [roomM]
  lo := by
    intro p hp i
    simp only [roomM, List.mem_cons, List.not_mem_nil, or_false] at hp
    show ¬ p i < 0
    rcases hp with rfl | rfl
    · simp
    · fin_cases i <;> simp
  hi := by
    intro p hp i
    simp only [roomM, List.mem_cons, List.not_mem_nil, or_false] at hp
    show ¬ (![3, 2, 1] : Fin 3 → ℝ) i < p i
    rcases hp with rfl | rfl
    · fin_cases i <;> simp
    · simp

/-- Numbers with 24 digits, quotients with 53, cells of 1/2 m: the room can be used, for every ray, and the casting is
defined along whatever axes. -/
example (b : Fin 3 → ℝ) (ei : Cell) (he : ∀ i, |ei i| ≤ 2 ^ 28) (axes : List (Fin 3)) :
    ∃ s, (roundedMachine (RoundedGeom.cut 24) (RoundedGeom.cut 53) (1 / 2)).setRay MSt.fresh (some (roomM 5)) b ei = .ok s ∧
      (s.nexts axes).isOk = true := by
  have hM := C175_rounding (cut_isRounding 24 (by norm_num)) (cut_isRounding 53 (by norm_num)) (gs := 1 / 2) (by norm_num)
  have cutnat : ∀ p n : ℕ, n < 2 ^ p → RoundedGeom.cut p (n : ℝ) = n := fun p n h => by
    unfold RoundedGeom.cut; rw [if_pos (Nat.cast_nonneg n), PF.trunc_nat p n h]
  have c0 : (roundedMachine (RoundedGeom.cut 24) (RoundedGeom.cut 53) (1 / 2)).cell
      ((roundedMachine (RoundedGeom.cut 24) (RoundedGeom.cut 53) (1 / 2)).sub ((roomM 5).maxP 0) ((roomM 5).minP 0)) = 6 := by
    show truncZ (RoundedGeom.cut 53 (RoundedGeom.cut 24 (3 - 0) / (1 / 2))) = 6
    rw [show (3 - 0 : ℝ) = ((3 : ℕ) : ℝ) by norm_num, cutnat 24 3 (by norm_num),
      show ((3 : ℕ) : ℝ) / (1 / 2) = ((6 : ℕ) : ℝ) by norm_num, cutnat 53 6 (by norm_num)]
    simp [truncZ]
  have c1 : (roundedMachine (RoundedGeom.cut 24) (RoundedGeom.cut 53) (1 / 2)).cell
      ((roundedMachine (RoundedGeom.cut 24) (RoundedGeom.cut 53) (1 / 2)).sub ((roomM 5).maxP 1) ((roomM 5).minP 1)) = 4 := by
    show truncZ (RoundedGeom.cut 53 (RoundedGeom.cut 24 (2 - 0) / (1 / 2))) = 4
    rw [show (2 - 0 : ℝ) = ((2 : ℕ) : ℝ) by norm_num, cutnat 24 2 (by norm_num),
      show ((2 : ℕ) : ℝ) / (1 / 2) = ((4 : ℕ) : ℝ) by norm_num, cutnat 53 4 (by norm_num)]
    simp [truncZ]
  have c2 : (roundedMachine (RoundedGeom.cut 24) (RoundedGeom.cut 53) (1 / 2)).cell
      ((roundedMachine (RoundedGeom.cut 24) (RoundedGeom.cut 53) (1 / 2)).sub ((roomM 5).maxP 2) ((roomM 5).minP 2)) = 2 := by
    show truncZ (RoundedGeom.cut 53 (RoundedGeom.cut 24 (1 - 0) / (1 / 2))) = 2
    rw [show (1 - 0 : ℝ) = ((1 : ℕ) : ℝ) by norm_num, cutnat 24 1 (by norm_num),
      show ((1 : ℕ) : ℝ) / (1 / 2) = ((2 : ℕ) : ℝ) by norm_num, cutnat 53 2 (by norm_num)]
    simp [truncZ]
  obtain ⟨s, e, hr⟩ := C175_setRay_defined hM (s := MSt.fresh) (roomM 5) (roomM_bounded 5 _ _ _) (fun g hg => by cases hg)
    (by
      intro i
      fin_cases i
      · show _ < _; erw [c0]; norm_num
      · show _ < _; erw [c1]; norm_num
      · show _ < _; erw [c2]; norm_num)
    (by rw [c0, c1, c2]; norm_num) b ei he
  exact ⟨s, e, C175_calls_defined hM (.setRay .fresh (fun c hc => by cases hc; exact roomM_bounded 5 _ _ _) e) hr axes⟩

/-- A grid of `float`s with NaN (`none`): a conversion that is out of range. -/
noncomputable def nanMachine : Machine (Option ℝ) where
  sub := fun a b => a.bind fun x => b.map fun y => x - y
  cell := fun a => a.elim (2 ^ 31) truncZ
  lt := fun a b => ∃ x y, a = some x ∧ b = some y ∧ x < y

example (s : MSt (Option ℝ)) (g : MGrid (Option ℝ)) (hg : s.grid = some g) (ei : Cell) :
    (nanMachine.setRay s none (fun _ => none) ei).isUb = true := by
  refine C175_nan s hg _ ei (fun i x => ⟨?_, ?_⟩) ⟨0, ?_⟩
  · rintro ⟨a, b, h, -⟩; cases h
  · rintro ⟨a, b, -, h, -⟩; cases h
  · simp [nanMachine]

end DDA
end Mcl3dl
