import Verif.Model.DDA
import Mathlib.Tactic

set_option linter.unusedSectionVars false

/-! Grid part of the DDA caster: index arithmetic and the content of the cells. -/

namespace Mcl3dl
namespace DDA

theorem i32_ok {x y : ℤ} (h : i32 x = .ok y) : y = x ∧ -2 ^ 31 ≤ x ∧ x < 2 ^ 31 := by
  unfold i32 at h; split_ifs at h with hc
  cases h; exact ⟨rfl, hc⟩

theorem i32_of {x : ℤ} (h0 : -2 ^ 31 ≤ x) (h1 : x < 2 ^ 31) : i32 x = .ok x := by
  unfold i32; rw [if_pos ⟨h0, h1⟩]

theorem bind_eq_ok {α β : Type*} {x : Outcome α} {f : α → Outcome β} {b : β}
    (h : x.bind f = .ok b) : ∃ a, x = .ok a ∧ f a = .ok b := by
  cases x with
  | ok a => exact ⟨a, rfl, h⟩
  | throws m => cases h
  | ub w => cases h

/-- The flat index of a cell. -/
def flat (size : Fin 3 → ℤ) (c : Cell) : ℤ := c 0 + c 1 * size 0 + c 2 * (size 0 * size 1)

def InGrid (size : Fin 3 → ℤ) (c : Cell) : Prop := ∀ i, 0 ≤ c i ∧ c i < size i

theorem flat_bounds {size : Fin 3 → ℤ} {c : Cell} (h : InGrid size c) :
    0 ≤ c 1 * size 0 ∧ c 1 * size 0 ≤ (size 1 - 1) * size 0 ∧
    0 ≤ c 2 * (size 0 * size 1) ∧ c 2 * (size 0 * size 1) ≤ (size 2 - 1) * (size 0 * size 1) ∧
    0 < size 0 ∧ 0 < size 1 ∧ 0 < size 2 ∧ 0 < size 0 * size 1 := by
  have h0 := h 0; have h1 := h 1; have h2 := h 2
  have p0 : 0 < size 0 := by omega
  have p1 : 0 < size 1 := by omega
  have p2 : 0 < size 2 := by omega
  have p01 : 0 < size 0 * size 1 := mul_pos p0 p1
  refine ⟨by nlinarith, by nlinarith, by nlinarith, by nlinarith, p0, p1, p2, p01⟩

theorem flat_range {size : Fin 3 → ℤ} {c : Cell} (h : InGrid size c) :
    0 ≤ flat size c ∧ flat size c < size 0 * size 1 * size 2 := by
  obtain ⟨a, b, d, e, p0, p1, p2, p01⟩ := flat_bounds h
  have h0 := h 0
  refine ⟨by unfold flat; omega, ?_⟩
  have : (size 2 - 1) * (size 0 * size 1) = size 0 * size 1 * size 2 - size 0 * size 1 := by ring
  have : (size 1 - 1) * size 0 = size 0 * size 1 - size 0 := by ring
  unfold flat; omega

theorem arrayIndex_eq {size : Fin 3 → ℤ} {c : Cell} (h : InGrid size c)
    (ht : size 0 * size 1 * size 2 < 2 ^ 31) : arrayIndex size c = .ok (flat size c) := by
  obtain ⟨a, b, d, e, p0, p1, p2, p01⟩ := flat_bounds h
  have h0 := h 0
  have e1 : (size 2 - 1) * (size 0 * size 1) = size 0 * size 1 * size 2 - size 0 * size 1 := by ring
  have e2 : (size 1 - 1) * size 0 = size 0 * size 1 - size 0 := by ring
  have e3 : size 0 * size 1 ≤ size 0 * size 1 * size 2 := by nlinarith
  unfold arrayIndex
  rw [i32_of (by omega) (by omega), Outcome.bind_ok, i32_of (by omega) (by omega), Outcome.bind_ok,
    i32_of (by omega) (by omega), Outcome.bind_ok, i32_of (by omega) (by omega), Outcome.bind_ok,
    i32_of (by omega) (by omega)]
  rfl

theorem flat_inj {size : Fin 3 → ℤ} {c d : Cell} (hc : InGrid size c) (hd : InGrid size d)
    (h : flat size c = flat size d) : c = d := by
  obtain ⟨-, -, -, -, p0, p1, p2, p01⟩ := flat_bounds hc
  have c0 := hc 0; have c1 := hc 1; have c2 := hc 2
  have d0 := hd 0; have d1 := hd 1; have d2 := hd 2
  have key : ∀ e : Cell, InGrid size e →
      e 0 = flat size e % size 0 ∧ e 1 = flat size e / size 0 % size 1 ∧
      e 2 = flat size e / size 0 / size 1 := by
    intro e he
    have e0 := he 0; have e1 := he 1
    have f : flat size e = e 0 + size 0 * (e 1 + size 1 * e 2) := by unfold flat; ring
    have q : flat size e / size 0 = e 1 + size 1 * e 2 := by
      rw [f, Int.add_mul_ediv_left _ _ p0.ne', Int.ediv_eq_zero_of_lt e0.1 e0.2, zero_add]
    refine ⟨?_, ?_, ?_⟩
    · rw [f, Int.add_mul_emod_self_left, Int.emod_eq_of_lt e0.1 e0.2]
    · rw [q, Int.add_mul_emod_self_left, Int.emod_eq_of_lt e1.1 e1.2]
    · rw [q, Int.add_mul_ediv_left _ _ p1.ne', Int.ediv_eq_zero_of_lt e1.1 e1.2, zero_add]
  obtain ⟨x0, x1, x2⟩ := key c hc
  obtain ⟨y0, y1, y2⟩ := key d hd
  funext i
  fin_cases i
  · change c 0 = d 0; rw [x0, y0, h]
  · change c 1 = d 1; rw [x1, y1, h]
  · change c 2 = d 2; rw [x2, y2, h]

/-! ## toIndex -/

/-- The cell a point of the grid lies in. -/
noncomputable def cellOf (gs : ℝ) (mn : Fin 3 → ℝ) (p : Vec3 ℝ) : Cell :=
  fun i => truncZ ((p.get i - mn i) / gs)

theorem toIndex_ok {gs : ℝ} {mn : Fin 3 → ℝ} {p : Vec3 ℝ} {c : Cell}
    (h : toIndex gs mn p = .ok c) :
    c = cellOf gs mn p ∧ ∀ i, -2 ^ 31 ≤ c i ∧ c i < 2 ^ 31 := by
  unfold toIndex axisIndex at h
  by_cases hg : gs = 0
  · rw [if_pos hg] at h; cases h
  rw [if_neg hg, if_neg hg, if_neg hg] at h
  obtain ⟨a, ha, h⟩ := bind_eq_ok h
  obtain ⟨b, hb, h⟩ := bind_eq_ok h
  obtain ⟨d, hd, h⟩ := bind_eq_ok h
  obtain ⟨rfl, ha⟩ := i32_ok ha
  obtain ⟨rfl, hb⟩ := i32_ok hb
  obtain ⟨rfl, hd⟩ := i32_ok hd
  cases h
  refine ⟨?_, ?_⟩
  · funext i; fin_cases i <;> rfl
  · intro i; fin_cases i <;> assumption

theorem toIndex_of {gs : ℝ} (hg : gs ≠ 0) {mn : Fin 3 → ℝ} {p : Vec3 ℝ}
    (h : ∀ i, -2 ^ 31 ≤ cellOf gs mn p i ∧ cellOf gs mn p i < 2 ^ 31) :
    toIndex gs mn p = .ok (cellOf gs mn p) := by
  unfold toIndex axisIndex
  rw [if_neg hg, if_neg hg, if_neg hg]
  have h0 := h 0; have h1 := h 1; have h2 := h 2
  unfold cellOf at h0 h1 h2
  rw [show ((0 : Fin 3) : ℕ) = 0 from rfl] at h0
  rw [show ((1 : Fin 3) : ℕ) = 1 from rfl] at h1
  rw [show ((2 : Fin 3) : ℕ) = 2 from rfl] at h2
  rw [i32_of h0.1 h0.2, Outcome.bind_ok, i32_of h1.1 h1.2, Outcome.bind_ok, i32_of h2.1 h2.2,
    Outcome.bind_ok]
  congr 1
  funext i; fin_cases i <;> rfl

theorem truncZ_nonneg {x : ℝ} (h : 0 ≤ x) : truncZ x = ⌊x⌋ := by unfold truncZ; rw [if_pos h]

theorem axisSize_extent {gs mn mx : ℝ} (hg : 0 < gs) (h : 0 ≤ (mx - mn) / gs) :
    axisSize gs mn mx = i32 (⌊(mx - mn) / gs⌋ + 1) := by
  unfold axisSize
  rw [if_neg hg.ne', truncZ_nonneg h, if_neg (not_lt.2 (Int.floor_nonneg.2 h))]

theorem truncZ_mono {x y : ℝ} (h : x ≤ y) : truncZ x ≤ truncZ y := by
  unfold truncZ
  split_ifs with hx hy hy
  · exact Int.floor_le_floor h
  · linarith
  · have a : ⌈x⌉ ≤ 0 := by rw [Int.ceil_le]; push_cast; linarith
    have b : 0 ≤ ⌊y⌋ := Int.floor_nonneg.2 hy
    omega
  · exact Int.ceil_le_ceil h

/-- A point within the bounding box lies in a cell of the grid. -/
theorem cellOf_inGrid {gs : ℝ} (hg : 0 < gs) {mn mx : Fin 3 → ℝ} {size : Fin 3 → ℤ}
    (hs : ∀ i, size i = ⌊(mx i - mn i) / gs⌋ + 1) {p : Vec3 ℝ}
    (h : ∀ i : Fin 3, mn i ≤ p.get i ∧ p.get i ≤ mx i) : InGrid size (cellOf gs mn p) := by
  intro i
  have h0 : 0 ≤ (p.get i - mn i) / gs := div_nonneg (by linarith [(h i).1]) hg.le
  unfold cellOf
  rw [truncZ_nonneg h0, hs]
  refine ⟨Int.floor_nonneg.2 h0, ?_⟩
  have : ⌊(p.get i - mn i) / gs⌋ ≤ ⌊(mx i - mn i) / gs⌋ := by
    apply Int.floor_le_floor
    gcongr
    exact (h i).2
  omega

/-! ## Bounding box -/

theorem foldl_min (i : Fin 3) (ps : List MapPt) (a : ℝ) :
    (ps.foldl (fun a q => min a (q.pos.get i)) a ≤ a ∧
      ∀ q ∈ ps, ps.foldl (fun a q => min a (q.pos.get i)) a ≤ q.pos.get i) ∧
    (ps.foldl (fun a q => min a (q.pos.get i)) a = a ∨
      ∃ q ∈ ps, ps.foldl (fun a q => min a (q.pos.get i)) a = q.pos.get i) := by
  induction ps generalizing a with
  | nil => simp
  | cons p ps ih =>
    obtain ⟨⟨h1, h2⟩, h3⟩ := ih (min a (p.pos.get i))
    simp only [List.foldl_cons]
    refine ⟨⟨h1.trans (min_le_left _ _), ?_⟩, ?_⟩
    · intro q hq
      rcases List.mem_cons.1 hq with rfl | hq
      · exact h1.trans (min_le_right _ _)
      · exact h2 q hq
    · rcases h3 with h3 | ⟨q, hq, h3⟩
      · rcases le_total a (p.pos.get i) with h | h
        · left; rw [h3, min_eq_left h]
        · right; exact ⟨p, by simp, by rw [h3, min_eq_right h]⟩
      · right; exact ⟨q, by simp [hq], h3⟩

theorem foldl_max (i : Fin 3) (ps : List MapPt) (a : ℝ) :
    (a ≤ ps.foldl (fun a q => max a (q.pos.get i)) a ∧
      ∀ q ∈ ps, q.pos.get i ≤ ps.foldl (fun a q => max a (q.pos.get i)) a) ∧
    (ps.foldl (fun a q => max a (q.pos.get i)) a = a ∨
      ∃ q ∈ ps, ps.foldl (fun a q => max a (q.pos.get i)) a = q.pos.get i) := by
  induction ps generalizing a with
  | nil => simp
  | cons p ps ih =>
    obtain ⟨⟨h1, h2⟩, h3⟩ := ih (max a (p.pos.get i))
    simp only [List.foldl_cons]
    refine ⟨⟨(le_max_left _ _).trans h1, ?_⟩, ?_⟩
    · intro q hq
      rcases List.mem_cons.1 hq with rfl | hq
      · exact (le_max_right _ _).trans h1
      · exact h2 q hq
    · rcases h3 with h3 | ⟨q, hq, h3⟩
      · rcases le_total a (p.pos.get i) with h | h
        · right; exact ⟨p, by simp, by rw [h3, max_eq_right h]⟩
        · left; rw [h3, max_eq_left h]
      · right; exact ⟨q, by simp [hq], h3⟩

/-- The bounding box of a list of points. -/
structure IsBox (ps : List MapPt) (mn mx : Fin 3 → ℝ) : Prop where
  lo : ∀ p ∈ ps, ∀ i : Fin 3, mn i ≤ p.pos.get i
  hi : ∀ p ∈ ps, ∀ i : Fin 3, p.pos.get i ≤ mx i
  lo_att : ∀ i : Fin 3, ∃ p ∈ ps, p.pos.get i = mn i
  hi_att : ∀ i : Fin 3, ∃ p ∈ ps, p.pos.get i = mx i

theorem isBox (p : MapPt) (ps : List MapPt) :
    IsBox (p :: ps) (fun i => minAlong i p ps) (fun i => maxAlong i p ps) where
  lo q hq i := by
    obtain ⟨⟨h1, h2⟩, -⟩ := foldl_min i ps (p.pos.get i)
    rcases List.mem_cons.1 hq with rfl | hq
    · exact h1
    · exact h2 q hq
  hi q hq i := by
    obtain ⟨⟨h1, h2⟩, -⟩ := foldl_max i ps (p.pos.get i)
    rcases List.mem_cons.1 hq with rfl | hq
    · exact h1
    · exact h2 q hq
  lo_att i := by
    obtain ⟨-, h | ⟨q, hq, h⟩⟩ := foldl_min i ps (p.pos.get i)
    · exact ⟨p, by simp, h.symm⟩
    · exact ⟨q, by simp [hq], h.symm⟩
  hi_att i := by
    obtain ⟨-, h | ⟨q, hq, h⟩⟩ := foldl_max i ps (p.pos.get i)
    · exact ⟨p, by simp, h.symm⟩
    · exact ⟨q, by simp [hq], h.symm⟩

/-! ## Filling the grid -/

/-- What `updatePointCloud` establishes for the points `ps`. -/
structure GridOK (gs : ℝ) (g : Grid) (ps : List MapPt) : Prop where
  size_eq : ∀ i, g.size i = ⌊(g.maxP i - g.minP i) / gs⌋ + 1
  total_eq : g.total = g.size 0 * g.size 1 * g.size 2
  total_lt : g.total < 2 ^ 31
  box : IsBox ps g.minP g.maxP
  cells_eq : ∀ a, g.cells a = ps.filter fun p => flat g.size (cellOf gs g.minP p.pos) = a
  exist_eq : ∀ a, g.exist a = true ↔ g.cells a ≠ []

theorem setExists_eq {gs : ℝ} (hg : 0 < gs) {g : Grid} {p : MapPt}
    (hs : ∀ i, g.size i = ⌊(g.maxP i - g.minP i) / gs⌋ + 1)
    (ht : g.total = g.size 0 * g.size 1 * g.size 2) (htl : g.total < 2 ^ 31)
    (hp : ∀ i : Fin 3, g.minP i ≤ p.pos.get i ∧ p.pos.get i ≤ g.maxP i) :
    setExists gs g p =
      .ok { g with
        exist := Function.update g.exist (flat g.size (cellOf gs g.minP p.pos)) true
        cells := Function.update g.cells (flat g.size (cellOf gs g.minP p.pos))
          (g.cells (flat g.size (cellOf gs g.minP p.pos)) ++ [p]) } := by
  have hin := cellOf_inGrid hg hs hp
  obtain ⟨-, -, -, -, p0, p1, p2, p01⟩ := flat_bounds hin
  have hle : ∀ i, g.size i < 2 ^ 31 := by
    have e3 : g.size 0 * g.size 1 ≤ g.size 0 * g.size 1 * g.size 2 := by nlinarith
    have e0 : g.size 0 ≤ g.size 0 * g.size 1 := by nlinarith
    have e1 : g.size 1 ≤ g.size 0 * g.size 1 := by nlinarith
    have e2 : g.size 2 ≤ g.size 0 * g.size 1 * g.size 2 := by nlinarith
    intro i
    fin_cases i
    · change g.size 0 < _; omega
    · change g.size 1 < _; omega
    · change g.size 2 < _; omega
  unfold setExists
  rw [toIndex_of hg.ne' (fun i => ⟨by have := hin i; omega, by have := hin i; have := hle i; omega⟩),
    Outcome.bind_ok, arrayIndex_eq hin (ht ▸ htl), Outcome.bind_ok, if_pos]
  exact ⟨(flat_range hin).1, ht ▸ (flat_range hin).2⟩

theorem setAll_eq {gs : ℝ} (hg : 0 < gs) (ps : List MapPt) (g : Grid)
    (hs : ∀ i, g.size i = ⌊(g.maxP i - g.minP i) / gs⌋ + 1)
    (ht : g.total = g.size 0 * g.size 1 * g.size 2) (htl : g.total < 2 ^ 31)
    (hp : ∀ p ∈ ps, ∀ i : Fin 3, g.minP i ≤ p.pos.get i ∧ p.pos.get i ≤ g.maxP i)
    (he : ∀ a, g.exist a = true ↔ g.cells a ≠ []) :
    ∃ g', setAll gs g ps = .ok g' ∧ g'.stamp = g.stamp ∧ g'.minP = g.minP ∧ g'.maxP = g.maxP ∧
      g'.size = g.size ∧ g'.total = g.total ∧
      (∀ a, g'.cells a = g.cells a ++ ps.filter fun p => flat g.size (cellOf gs g.minP p.pos) = a) ∧
      ∀ a, g'.exist a = true ↔ g'.cells a ≠ [] := by
  induction ps generalizing g with
  | nil => exact ⟨g, rfl, rfl, rfl, rfl, rfl, rfl, by simp, he⟩
  | cons p ps ih =>
    rw [setAll, setExists_eq hg hs ht htl (hp p (by simp)), Outcome.bind_ok]
    obtain ⟨g', h0, h1, h2, h3, h4, h5, h6, h7⟩ := ih
      { g with
        exist := Function.update g.exist (flat g.size (cellOf gs g.minP p.pos)) true
        cells := Function.update g.cells (flat g.size (cellOf gs g.minP p.pos))
          (g.cells (flat g.size (cellOf gs g.minP p.pos)) ++ [p]) } hs ht htl
      (fun q hq => hp q (by simp [hq])) (by
        intro a
        by_cases ha : a = flat g.size (cellOf gs g.minP p.pos)
        · subst ha; simp
        · simp only [Function.update_of_ne ha]; exact he a)
    refine ⟨g', h0, h1, h2, h3, h4, h5, ?_, h7⟩
    intro a
    rw [h6 a]
    by_cases ha : flat g.size (cellOf gs g.minP p.pos) = a
    · subst ha
      simp
    · rw [List.filter_cons_of_neg (by simpa using ha)]
      simp only [Function.update_of_ne (Ne.symm ha)]

/-- The grid before the points are stored (proof device). -/
noncomputable def emptyGrid (cfg : Cfg) (c : Cloud) (p : MapPt) (ps : List MapPt) : Grid :=
  { stamp := c.stamp, minP := fun i => minAlong i p ps, maxP := fun i => maxAlong i p ps
    size := ![⌊(maxAlong 0 p ps - minAlong 0 p ps) / cfg.gridSize⌋ + 1,
      ⌊(maxAlong 1 p ps - minAlong 1 p ps) / cfg.gridSize⌋ + 1,
      ⌊(maxAlong 2 p ps - minAlong 2 p ps) / cfg.gridSize⌋ + 1]
    total := (⌊(maxAlong 0 p ps - minAlong 0 p ps) / cfg.gridSize⌋ + 1) *
      (⌊(maxAlong 1 p ps - minAlong 1 p ps) / cfg.gridSize⌋ + 1) *
      (⌊(maxAlong 2 p ps - minAlong 2 p ps) / cfg.gridSize⌋ + 1)
    exist := fun _ => false, cells := fun _ => [] }

theorem extent_nonneg {cfg : Cfg} (hg : 0 < cfg.gridSize) (p : MapPt) (ps : List MapPt) (i : Fin 3) :
    0 ≤ (maxAlong i p ps - minAlong i p ps) / cfg.gridSize :=
  div_nonneg (by linarith [(isBox p ps).lo p (by simp) i, (isBox p ps).hi p (by simp) i]) hg.le

theorem setAll_empty {cfg : Cfg} (hg : 0 < cfg.gridSize) (c : Cloud) (p : MapPt) (ps : List MapPt)
    (hlt : (emptyGrid cfg c p ps).total < 2 ^ 31) :
    ∃ g, setAll cfg.gridSize (emptyGrid cfg c p ps) (p :: ps) = .ok g ∧
      GridOK cfg.gridSize g (p :: ps) ∧ g.stamp = c.stamp := by
  have hb := isBox p ps
  obtain ⟨g', h0, h1, h2, h3, h4, h5, h6, h7⟩ := setAll_eq hg (p :: ps) (emptyGrid cfg c p ps)
    (by intro i; fin_cases i <;> rfl) rfl hlt
    (fun q hq i => ⟨hb.lo q hq i, hb.hi q hq i⟩) (by simp [emptyGrid])
  refine ⟨g', h0, ⟨?_, ?_, ?_, ?_, ?_, h7⟩, h1⟩
  · rw [h2, h3, h4]; intro i; fin_cases i <;> rfl
  · rw [h5, h4]; rfl
  · rw [h5]; exact hlt
  · rw [h2, h3]; exact hb
  · intro a; rw [h6 a, h4, h2]; rfl

theorem build_ok {cfg : Cfg} (hg : 0 < cfg.gridSize) {c : Cloud} {g : Grid} (h : build cfg c = .ok g) :
    GridOK cfg.gridSize g c.refs ∧ g.stamp = c.stamp ∧ c.refs ≠ [] := by
  unfold build at h
  generalize c.refs = rs at h ⊢
  cases rs with
  | nil => cases h
  | cons p ps =>
    have hnn := extent_nonneg hg p ps
    simp only [axisSize_extent hg (hnn 0), axisSize_extent hg (hnn 1), axisSize_extent hg (hnn 2)] at h
    obtain ⟨s0, a0, h⟩ := bind_eq_ok h
    obtain ⟨s1, a1, h⟩ := bind_eq_ok h
    obtain ⟨s01, a01, h⟩ := bind_eq_ok h
    obtain ⟨s2, a2, h⟩ := bind_eq_ok h
    obtain ⟨tot, at', h⟩ := bind_eq_ok h
    obtain ⟨rfl, -⟩ := i32_ok a0
    obtain ⟨rfl, -⟩ := i32_ok a1
    obtain ⟨rfl, -⟩ := i32_ok a01
    obtain ⟨rfl, -⟩ := i32_ok a2
    obtain ⟨rfl, -, hlt⟩ := i32_ok at'
    obtain ⟨g', h0, hok, hst⟩ := setAll_empty hg c p ps hlt
    have h' : setAll cfg.gridSize (emptyGrid cfg c p ps) (p :: ps) = .ok g := h
    rw [h0] at h'
    cases h'
    exact ⟨hok, hst, by simp⟩

/-- Building succeeds when the number of cells fits `int`. -/
theorem build_isOk {cfg : Cfg} (hg : 0 < cfg.gridSize) {c : Cloud} {p : MapPt} {ps : List MapPt}
    (hr : c.refs = p :: ps) (hlt : (emptyGrid cfg c p ps).total < 2 ^ 31) :
    (build cfg c).isOk = true := by
  unfold build
  rw [hr]
  have hnn := extent_nonneg hg p ps
  simp only [axisSize_extent hg (hnn 0), axisSize_extent hg (hnn 1), axisSize_extent hg (hnn 2)]
  have hpos : ∀ i : Fin 3, 1 ≤ ⌊(maxAlong i p ps - minAlong i p ps) / cfg.gridSize⌋ + 1 := fun i => by
    have := Int.floor_nonneg.2 (hnn i); omega
  obtain ⟨g', h0, -⟩ := setAll_empty hg c p ps hlt
  have hlt' := hlt
  simp only [emptyGrid] at hlt' h0
  have q0 := hpos 0
  have q1 := hpos 1
  have q2 := hpos 2
  generalize ⌊(maxAlong 0 p ps - minAlong 0 p ps) / cfg.gridSize⌋ + 1 = x at *
  generalize ⌊(maxAlong 1 p ps - minAlong 1 p ps) / cfg.gridSize⌋ + 1 = y at *
  generalize ⌊(maxAlong 2 p ps - minAlong 2 p ps) / cfg.gridSize⌋ + 1 = z at *
  have e01 : 1 ≤ x * y := by nlinarith
  have e3 : x * y ≤ x * y * z := by nlinarith
  have e0 : x ≤ x * y := by nlinarith
  have e1 : y ≤ x * y := by nlinarith
  have e2 : z ≤ x * y * z := by nlinarith
  rw [i32_of (by omega) (by omega), Outcome.bind_ok, i32_of (by omega) (by omega), Outcome.bind_ok,
    i32_of (by omega) (by omega), Outcome.bind_ok, i32_of (by omega) (by omega), Outcome.bind_ok,
    i32_of (by omega) (by omega), Outcome.bind_ok, h0]
  rfl

end DDA
end Mcl3dl
