import Verif.Spec.DDAMachine
import Verif.Proofs.DDAGrid

set_option linter.unusedSectionVars false

/-! Invariant of the grid caster over machine numbers. -/

namespace Mcl3dl
namespace DDA

variable {F : Type} {M : Machine F}

/-- The grid is consistent: the sizes come from the corners, the array has all cells, marked cells have points. -/
structure MGrid.Good (M : Machine F) (g : MGrid F) : Prop where
  size : ∀ i, g.size i = M.cell (M.sub (g.maxP i) (g.minP i)) + 1
  pos : ∀ i, 0 < g.size i
  total : g.total = g.size 0 * g.size 1 * g.size 2
  small : g.total < 2 ^ 31
  sizes : ∀ i, g.size i < 2 ^ 31
  full : ∀ a, g.exist a = true → g.cells a ≠ []

/-- A point in the box has its cell in the grid. -/
theorem Machine.Monotone.cell_range (hM : M.Monotone) {mn mx x : F} (h1 : ¬ M.lt x mn) (h2 : ¬ M.lt mx x) :
    0 ≤ M.cell (M.sub x mn) ∧ M.cell (M.sub x mn) < M.cell (M.sub mx mn) + 1 := by
  have a := hM.cell_mono _ _ (hM.sub_mono mn x mn h1)
  rw [hM.cell_self] at a
  have b := hM.cell_mono _ _ (hM.sub_mono x mx mn h2)
  exact ⟨a, by omega⟩

/-- The number of the cell of a point, before the range check. -/
def Machine.cellsOf (M : Machine F) (mn p : Fin 3 → F) : Cell := fun i => M.cell (M.sub (p i) (mn i))

theorem Machine.toIndex_ok {mn p : Fin 3 → F} {c : Cell} (h : M.toIndex mn p = .ok c) : c = M.cellsOf mn p := by
  unfold Machine.toIndex at h
  obtain ⟨a, ha, h⟩ := bind_eq_ok h
  obtain ⟨b, hb, h⟩ := bind_eq_ok h
  obtain ⟨d, hd, h⟩ := bind_eq_ok h
  cases h
  rw [(i32_ok ha).1, (i32_ok hb).1, (i32_ok hd).1]
  funext i; fin_cases i <;> rfl

theorem Machine.toIndex_of {mn p : Fin 3 → F}
    (h : ∀ i, -2 ^ 31 ≤ M.cell (M.sub (p i) (mn i)) ∧ M.cell (M.sub (p i) (mn i)) < 2 ^ 31) :
    M.toIndex mn p = .ok (M.cellsOf mn p) := by
  unfold Machine.toIndex
  rw [i32_of (h 0).1 (h 0).2, Outcome.bind_ok, i32_of (h 1).1 (h 1).2, Outcome.bind_ok, i32_of (h 2).1 (h 2).2,
    Outcome.bind_ok]
  congr 1
  funext i; fin_cases i <;> rfl

theorem MGrid.Good.inGrid (hM : M.Monotone) {g : MGrid F} (hg : g.Good M) {p : Fin 3 → F}
    (h1 : ∀ i, ¬ M.lt (p i) (g.minP i)) (h2 : ∀ i, ¬ M.lt (g.maxP i) (p i)) : InGrid g.size (M.cellsOf g.minP p) := by
  intro i
  rw [hg.size i]
  exact hM.cell_range (h1 i) (h2 i)

theorem MGrid.Good.toIndex (hM : M.Monotone) {g : MGrid F} (hg : g.Good M) {p : Fin 3 → F}
    (h1 : ∀ i, ¬ M.lt (p i) (g.minP i)) (h2 : ∀ i, ¬ M.lt (g.maxP i) (p i)) :
    M.toIndex g.minP p = .ok (M.cellsOf g.minP p) := by
  refine M.toIndex_of fun i => ?_
  have a := hg.inGrid hM h1 h2 i
  have b := hg.sizes i
  unfold Machine.cellsOf at a
  constructor <;> omega

theorem MGrid.Good.setExists (hM : M.Monotone) {g : MGrid F} (hg : g.Good M) {p : Fin 3 → F} (k : ℕ)
    (h1 : ∀ i, ¬ M.lt (p i) (g.minP i)) (h2 : ∀ i, ¬ M.lt (g.maxP i) (p i)) :
    ∃ g', M.setExists g p k = .ok g' ∧ g'.Good M ∧ g'.minP = g.minP ∧ g'.maxP = g.maxP ∧ g'.size = g.size ∧
      g'.cells = Function.update g.cells (flat g.size (M.cellsOf g.minP p)) (g.cells (flat g.size (M.cellsOf g.minP p)) ++ [k]) ∧
      g'.exist = Function.update g.exist (flat g.size (M.cellsOf g.minP p)) true := by
  have hin := hg.inGrid hM h1 h2
  have hr := flat_range hin
  have ht := hg.total; have hs := hg.small
  unfold Machine.setExists
  rw [hg.toIndex hM h1 h2, Outcome.bind_ok, arrayIndex_eq hin (by omega), Outcome.bind_ok, if_pos ⟨hr.1, by omega⟩]
  refine ⟨_, rfl, ⟨hg.size, hg.pos, hg.total, hg.small, hg.sizes, ?_⟩, rfl, rfl, rfl, rfl, rfl⟩
  intro a ha
  by_cases e : a = flat g.size (M.cellsOf g.minP p)
  · subst e; simp
  · simp only [Function.update_of_ne e] at ha ⊢; exact hg.full a ha

theorem MGrid.Good.setAll (hM : M.Monotone) (ps : List ((Fin 3 → F) × ℕ)) {g : MGrid F} (hg : g.Good M)
    (h1 : ∀ p ∈ ps, ∀ i, ¬ M.lt (p.1 i) (g.minP i)) (h2 : ∀ p ∈ ps, ∀ i, ¬ M.lt (g.maxP i) (p.1 i)) :
    ∃ g', M.setAll g ps = .ok g' ∧ g'.Good M ∧ g'.minP = g.minP ∧ g'.maxP = g.maxP ∧ g'.size = g.size ∧
      (∀ a k, k ∈ g'.cells a ↔ k ∈ g.cells a ∨ ∃ p ∈ ps, p.2 = k ∧ flat g.size (M.cellsOf g.minP p.1) = a) ∧
      (∀ a, g'.exist a = true ↔ g.exist a = true ∨ ∃ p ∈ ps, flat g.size (M.cellsOf g.minP p.1) = a) := by
  induction ps generalizing g with
  | nil => exact ⟨g, rfl, hg, rfl, rfl, rfl, by simp, by simp⟩
  | cons p ps ih =>
    obtain ⟨g1, e1, hg1, m1, x1, s1, c1, t1⟩ := hg.setExists hM p.2 (h1 p List.mem_cons_self) (h2 p List.mem_cons_self)
    obtain ⟨g', e', hg', m', x', s', c', t'⟩ := ih hg1 (fun q hq => m1 ▸ h1 q (List.mem_cons_of_mem _ hq))
      (fun q hq => x1 ▸ h2 q (List.mem_cons_of_mem _ hq))
    refine ⟨g', ?_, hg', m'.trans m1, x'.trans x1, s'.trans s1, fun a k => ?_, fun a => ?_⟩
    · unfold Machine.setAll; rw [e1, Outcome.bind_ok, e']
    · rw [c', c1, m1, s1]
      by_cases e : a = flat g.size (M.cellsOf g.minP p.1)
      · subst e
        simp only [Function.update_self, List.mem_append, List.mem_cons, List.not_mem_nil, or_false, exists_eq_or_imp]
        constructor
        · rintro ((h | h) | h)
          · exact Or.inl h
          · exact Or.inr (Or.inl ⟨h.symm, trivial⟩)
          · exact Or.inr (Or.inr h)
        · rintro (h | ⟨h, -⟩ | h)
          · exact Or.inl (Or.inl h)
          · exact Or.inl (Or.inr h.symm)
          · exact Or.inr h
      · rw [Function.update_of_ne e]
        simp only [List.mem_cons, exists_eq_or_imp]
        constructor
        · rintro (h | h)
          · exact Or.inl h
          · exact Or.inr (Or.inr h)
        · rintro (h | ⟨-, h⟩ | h)
          · exact Or.inl h
          · exact absurd h.symm e
          · exact Or.inr h
    · rw [t', t1, m1, s1]
      by_cases e : a = flat g.size (M.cellsOf g.minP p.1)
      · subst e
        simp
      · rw [Function.update_of_ne e]
        simp only [List.mem_cons, exists_eq_or_imp]
        constructor
        · rintro (h | h)
          · exact Or.inl h
          · exact Or.inr (Or.inr h)
        · rintro (h | h | h)
          · exact Or.inl h
          · exact absurd h.symm e
          · exact Or.inr h

/-- The number of cells along an axis. -/
def Machine.extent (M : Machine F) (c : MCloud F) (i : Fin 3) : ℤ := M.cell (M.sub (c.maxP i) (c.minP i)) + 1

theorem MCloud.Bounded.extent_pos (hM : M.Monotone) {c : MCloud F} (hc : c.Bounded M) (i : Fin 3) : 0 < M.extent c i := by
  obtain ⟨p, hp⟩ := List.exists_mem_of_ne_nil _ hc.nonempty
  have := hM.cell_range (hc.lo p hp i) (hc.hi p hp i)
  unfold Machine.extent; omega

/-- The empty grid for a cloud. -/
def Machine.blank (M : Machine F) (c : MCloud F) : MGrid F :=
  { stamp := c.stamp, minP := c.minP, maxP := c.maxP, size := ![M.extent c 0, M.extent c 1, M.extent c 2]
    total := M.extent c 0 * M.extent c 1 * M.extent c 2, exist := fun _ => false, cells := fun _ => [] }

theorem Machine.build_eq (hM : M.Monotone) {c : MCloud F} (hc : c.Bounded M)
    (h : M.extent c 0 * M.extent c 1 * M.extent c 2 < 2 ^ 31) :
    (M.blank c).Good M ∧ M.build c = M.setAll (M.blank c) c.pts.zipIdx := by
  have p0 := hc.extent_pos hM 0
  have p1 := hc.extent_pos hM 1
  have p2 := hc.extent_pos hM 2
  have p01 : 0 < M.extent c 0 * M.extent c 1 := mul_pos p0 p1
  have l01 : M.extent c 0 * M.extent c 1 ≤ M.extent c 0 * M.extent c 1 * M.extent c 2 := by nlinarith
  have l2 : M.extent c 2 ≤ M.extent c 0 * M.extent c 1 * M.extent c 2 := by nlinarith
  have l0 : M.extent c 0 ≤ M.extent c 0 * M.extent c 1 := by nlinarith
  have l1 : M.extent c 1 ≤ M.extent c 0 * M.extent c 1 := by nlinarith
  have ax : ∀ i, M.extent c i < 2 ^ 31 → M.axisSize (c.minP i) (c.maxP i) = .ok (M.extent c i) := by
    intro i hi
    have := hc.extent_pos hM i
    unfold Machine.axisSize
    unfold Machine.extent at this hi ⊢
    rw [if_neg (by omega), i32_of (by omega) (by omega)]
  constructor
  · constructor
    · intro i; fin_cases i <;> rfl
    · intro i; fin_cases i <;> assumption
    · rfl
    · exact h
    · intro i
      fin_cases i
      · show M.extent c 0 < _; omega
      · show M.extent c 1 < _; omega
      · show M.extent c 2 < _; omega
    · intro a ha; cases ha
  · unfold Machine.build
    rw [ax 0 (by omega), Outcome.bind_ok, ax 1 (by omega), Outcome.bind_ok, i32_of (by omega) (by omega), Outcome.bind_ok,
      ax 2 (by omega), Outcome.bind_ok, i32_of (by omega) (by omega), Outcome.bind_ok]
    rfl

theorem Machine.build_small {c : MCloud F} {g : MGrid F} (h : M.build c = .ok g) :
    M.extent c 0 * M.extent c 1 * M.extent c 2 < 2 ^ 31 := by
  have ax : ∀ {i s}, M.axisSize (c.minP i) (c.maxP i) = .ok s → s = M.extent c i := by
    intro i s h
    unfold Machine.axisSize at h
    split_ifs at h
    exact (i32_ok h).1
  unfold Machine.build at h
  obtain ⟨s0, h0, h⟩ := bind_eq_ok h
  obtain ⟨s1, h1, h⟩ := bind_eq_ok h
  obtain ⟨s01, h01, h⟩ := bind_eq_ok h
  obtain ⟨s2, h2, h⟩ := bind_eq_ok h
  obtain ⟨t, ht, h⟩ := bind_eq_ok h
  have a := i32_ok ht
  rw [(i32_ok h01).1, ax h0, ax h1, ax h2] at a
  exact a.2.2

theorem Machine.build_good (hM : M.Monotone) {c : MCloud F} (hc : c.Bounded M)
    (h : M.extent c 0 * M.extent c 1 * M.extent c 2 < 2 ^ 31) :
    ∃ g, M.build c = .ok g ∧ g.Good M ∧ g.minP = c.minP ∧ g.maxP = c.maxP ∧ g.size = (M.blank c).size ∧
      (∀ a k, k ∈ g.cells a ↔ ∃ p ∈ c.pts.zipIdx, p.2 = k ∧ flat (M.blank c).size (M.cellsOf c.minP p.1) = a) ∧
      (∀ a, g.exist a = true ↔ ∃ p ∈ c.pts.zipIdx, flat (M.blank c).size (M.cellsOf c.minP p.1) = a) := by
  obtain ⟨hb, e⟩ := M.build_eq hM hc h
  have mem : ∀ p ∈ c.pts.zipIdx, p.1 ∈ c.pts := fun p hp => by
    obtain ⟨a, b⟩ := p
    exact List.fst_mem_of_mem_zipIdx hp
  obtain ⟨g, e', hg, m, x, s, cc, tt⟩ := hb.setAll hM c.pts.zipIdx (fun p hp i => hc.lo p.1 (mem p hp) i)
    (fun p hp i => hc.hi p.1 (mem p hp) i)
  refine ⟨g, e.trans e', hg, m, x, s, fun a k => ?_, fun a => ?_⟩
  · rw [cc]; simp [Machine.blank]
  · rw [tt]; simp [Machine.blank]

/-- A ray that can still advance is in the grid. -/
def MRay.Good (size : Fin 3 → ℤ) (r : MRay) : Prop := r.pos < r.maxMov → InGrid size r.cur

/-- The invariant. -/
structure MSt.Good (M : Machine F) (s : MSt F) : Prop where
  grid : ∀ g, s.grid = some g → g.Good M
  ray : ∀ g r, s.grid = some g → s.ray = some r → r.Good g.size
  both : s.grid = none → s.ray = none

theorem MRay.Good.advance {size : Fin 3 → ℤ} {r : MRay} (h : r.Good size) (i : Fin 3) :
    (r.advance size i).2.Good size ∧ ((r.advance size i).1 = true → InGrid size (r.advance size i).2.cur) := by
  unfold MRay.advance
  simp only
  by_cases h1 : r.maxMov ≤ r.pos + 1
  · rw [if_pos h1]
    refine ⟨fun hc => ?_, by simp⟩
    simp only at hc; omega
  · rw [if_neg h1]
    have hin := h (by omega)
    split_ifs with h2
    · exact ⟨fun hc => absurd hc (lt_irrefl _), by simp⟩
    · push _root_.Not at h2
      have : InGrid size (Function.update r.cur i (r.cur i + r.step i)) := by
        intro j
        by_cases e : j = i
        · subst e; exact h2
        · rw [Function.update_of_ne e]; exact hin j
      exact ⟨fun _ => this, fun _ => this⟩

theorem MGrid.Good.lookUp {g : MGrid F} (hg : g.Good M) {c : Cell} (h : InGrid g.size c) :
    g.lookUp c = .ok (if g.exist (flat g.size c) = false then [] else g.cells (flat g.size c)) := by
  have hr := flat_range h
  have ht := hg.total; have hs := hg.small
  unfold MGrid.lookUp
  rw [arrayIndex_eq h (by omega), Outcome.bind_ok, if_pos ⟨hr.1, by omega⟩]
  by_cases e : g.exist (flat g.size c) = false
  · rw [if_pos e, if_pos e]
  · rw [if_neg e, if_neg e, if_neg (hg.full _ (by simpa using e))]

theorem Machine.startRay_good (hM : M.Monotone) {g : MGrid F} (hg : g.Good M) {b : Fin 3 → F} {ei : Cell} {r : MRay}
    (hb : M.isPointWithinMap g b) (h : M.startRay g b ei = .ok r) : InGrid g.size r.cur := by
  unfold Machine.startRay at h
  obtain ⟨bi, hbi, h⟩ := bind_eq_ok h
  obtain ⟨_, -, h⟩ := bind_eq_ok h
  obtain ⟨_, -, h⟩ := bind_eq_ok h
  obtain ⟨_, -, h⟩ := bind_eq_ok h
  obtain ⟨_, -, h⟩ := bind_eq_ok h
  obtain ⟨_, -, h⟩ := bind_eq_ok h
  obtain ⟨_, -, h⟩ := bind_eq_ok h
  obtain ⟨_, -, h⟩ := bind_eq_ok h
  obtain ⟨_, -, h⟩ := bind_eq_ok h
  cases h
  rw [M.toIndex_ok hbi]
  exact hg.inGrid hM (fun i hl => hb i (Or.inl hl)) (fun i hl => hb i (Or.inr hl))

theorem Machine.update_good (hM : M.Monotone) {g g' : Option (MGrid F)} {cloud : Option (MCloud F)}
    (hc : ∀ c, cloud = some c → c.Bounded M) (hg : ∀ x, g = some x → x.Good M)
    (h : M.updatePointCloud g cloud = .ok g') : ∀ x, g' = some x → x.Good M := by
  have bld : ∀ {c}, cloud = some c → ((M.build c).bind fun n => Outcome.ok (some n)) = .ok g' →
      ∀ x, g' = some x → x.Good M := by
    intro c e h
    obtain ⟨n, hn, h⟩ := bind_eq_ok h
    cases h
    obtain ⟨n', hn', hg', -⟩ := M.build_good hM (hc c e) (M.build_small hn)
    rw [hn] at hn'; cases hn'
    intro x hx; cases hx; exact hg'
  unfold Machine.updatePointCloud at h
  cases cloud with
  | none => cases h; exact hg
  | some c =>
    cases g with
    | none => exact bld rfl h
    | some old =>
      simp only at h
      split_ifs at h with hs
      · cases h; exact hg
      · exact bld rfl h

theorem MReach.good (hM : M.Monotone) {s : MSt F} (h : MReach M s) : s.Good M := by
  induction h with
  | fresh => exact ⟨fun g h => by simp [MSt.fresh] at h, fun g r h => by simp [MSt.fresh] at h, fun _ => rfl⟩
  | setRay hr hc h ih =>
    unfold Machine.setRay at h
    obtain ⟨g', hg', h⟩ := bind_eq_ok h
    have good := M.update_good hM hc ih.grid hg'
    cases g' with
    | none => cases h
    | some g =>
      simp only at h
      split_ifs at h with hb
      · obtain ⟨r, hr', h⟩ := bind_eq_ok h
        cases h
        refine ⟨good, fun x r' hx hr'' => ?_, fun e => by cases e⟩
        cases hx; cases hr''
        exact fun _ => M.startRay_good hM (good g rfl) hb hr'
      · cases h
        refine ⟨good, fun x r' hx hr'' => ?_, fun e => by cases e⟩
        cases hx; cases hr''
        exact fun hlt => absurd hlt (lt_irrefl _)
  | @next s0 s1 res i hr h ih =>
    unfold MSt.getNext at h
    cases hg : s0.grid with
    | none => rw [hg] at h; cases h
    | some g =>
      cases hry : s0.ray with
      | none => rw [hg, hry] at h; cases h
      | some r =>
        rw [hg, hry] at h
        simp only at h
        have key := (ih.ray g r hg hry).advance i
        have fin : ∀ r', r' = (r.advance g.size i).2 → s1 = ⟨some g, some r'⟩ → s1.Good M := by
          rintro r' e rfl
          refine ⟨fun x hx => by cases hx; exact ih.grid g hg, fun x r'' hx hr'' => ?_, fun e => by cases e⟩
          cases hx; cases hr''; rw [e]; exact key.1
        cases ha : r.advance g.size i with
        | mk b r' =>
          rw [ha] at h
          cases b with
          | false => cases h; exact fin r' (by rw [ha]) rfl
          | true =>
            obtain ⟨l, -, h⟩ := bind_eq_ok h
            cases h
            exact fin r' (by rw [ha]) rfl

theorem MSt.Good.getNext {s : MSt F} (hs : s.Good M) {g : MGrid F} {r : MRay} (hg : s.grid = some g) (hr : s.ray = some r)
    (i : Fin 3) : ∃ res, s.getNext i = .ok (res, ⟨some g, some (r.advance g.size i).2⟩) := by
  have key := (hs.ray g r hg hr).advance i
  unfold MSt.getNext
  rw [hg, hr]
  simp only
  cases ha : r.advance g.size i with
  | mk b r' =>
    rw [ha] at key
    cases b with
    | false => exact ⟨_, rfl⟩
    | true =>
      simp only
      rw [(hs.grid g hg).lookUp (key.2 rfl)]
      exact ⟨_, rfl⟩

end DDA
end Mcl3dl
