import Verif.Proofs.DDAAxis

/-! The DDA ray: the path of cells it visits and what it covers. -/

namespace Mcl3dl
namespace DDA

theorem pickAxis_min (t : Fin 3 → WithTop ℝ) (j : Fin 3) : t (pickAxis t) ≤ t j := by
  unfold pickAxis
  split_ifs with h1 h2 h2
  · fin_cases j
    · exact le_rfl
    · exact h1.le
    · exact h2.le
  · fin_cases j
    · exact not_lt.1 h2
    · exact (not_lt.1 h2).trans h1.le
    · exact le_rfl
  · fin_cases j
    · exact not_lt.1 h1
    · exact le_rfl
    · exact h2.le
  · fin_cases j
    · exact (not_lt.1 h2).trans (not_lt.1 h1)
    · exact not_lt.1 h2
    · exact le_rfl

/-- Number of index steps between begin and end along axis `i`. -/
def Ray.dist (r : Ray) (i : Fin 3) : ℕ := (r.endIdx i - r.beginIdx i).natAbs

/-- Fields that stay constant while a ray is cast. -/
structure Ray.Same (r r' : Ray) : Prop where
  beginIdx : r'.beginIdx = r.beginIdx
  endIdx : r'.endIdx = r.endIdx
  rayBegin : r'.rayBegin = r.rayBegin
  dir : r'.dir = r.dir
  maxMov : r'.maxMov = r.maxMov
  edge : r'.edge = r.edge
  step : r'.step = r.step

theorem Ray.Same.refl (r : Ray) : Ray.Same r r := ⟨rfl, rfl, rfl, rfl, rfl, rfl, rfl⟩

theorem Ray.Same.trans {a b c : Ray} (h : Ray.Same a b) (k : Ray.Same b c) : Ray.Same a c :=
  ⟨k.1.trans h.1, k.2.trans h.2, k.3.trans h.3, k.4.trans h.4, k.5.trans h.5, k.6.trans h.6,
    k.7.trans h.7⟩

/-- State of a running ray that has moved `k i` cells along each axis. -/
structure Dyn (g : Grid) (r : Ray) (k : Fin 3 → ℕ) : Prop where
  cur : ∀ i, r.cur i = r.beginIdx i + r.step i * k i
  step : ∀ i, r.step i = if r.endIdx i - r.beginIdx i < 0 then -1 else 1
  tMax : ∀ i, r.tMax i = tAt (r.edge i) (k i)
  none_iff : ∀ i, r.edge i = none ↔ r.endIdx i = r.beginIdx i
  none_k : ∀ i, r.edge i = none → k i = 0
  pos : r.pos = ((k 0 + k 1 + k 2 : ℕ) : ℤ)
  maxMov : r.maxMov = ((r.dist 0 + r.dist 1 + r.dist 2 : ℕ) : ℤ)
  inGrid : InGrid g.size r.cur

theorem advance_same (g : Grid) (r : Ray) : Ray.Same r (advance g r).2 := by
  unfold advance
  simp only
  split_ifs
  · exact ⟨rfl, rfl, rfl, rfl, rfl, rfl, rfl⟩
  · unfold incrementIndex
    simp only
    split_ifs <;> exact ⟨rfl, rfl, rfl, rfl, rfl, rfl, rfl⟩

/-- Once exhausted, a ray stays exhausted. -/
theorem advance_exhausted {g : Grid} {r : Ray} (h : r.maxMov ≤ r.pos) :
    advance g r = (false, { r with pos := r.pos + 1 }) := by
  unfold advance; simp only
  rw [if_pos (by omega)]

theorem advance_false {g : Grid} {r r' : Ray} (h : advance g r = (false, r')) :
    r'.maxMov ≤ r'.pos := by
  unfold advance at h; simp only at h
  split_ifs at h with hc
  · cases h; exact hc
  · unfold incrementIndex at h
    simp only at h
    split_ifs at h with hc2
    · cases h; exact le_rfl
    · cases h

theorem Dyn.exists_edge {g : Grid} {r : Ray} {k : Fin 3 → ℕ} (D : Dyn g r k) (h : 0 < r.maxMov) :
    ∃ e, r.edge (pickAxis r.tMax) = some e ∧ r.tMax (pickAxis r.tMax) = (tau e (k (pickAxis r.tMax)) : WithTop ℝ) := by
  have : ∃ i, r.endIdx i ≠ r.beginIdx i := by
    by_contra hc
    push Not at hc
    have hz : ∀ i, r.dist i = 0 := fun i => by unfold Ray.dist; rw [hc i]; simp
    rw [D.maxMov, hz, hz, hz] at h
    simp at h
  obtain ⟨i, hi⟩ := this
  have hne : r.edge i ≠ none := fun h => hi ((D.none_iff i).1 h)
  obtain ⟨e, he⟩ := Option.ne_none_iff_exists'.1 hne
  have hmin := pickAxis_min r.tMax i
  rw [D.tMax i, he, tAt_some] at hmin
  cases hp : r.edge (pickAxis r.tMax) with
  | none =>
    rw [D.tMax, hp] at hmin
    simp [tAt] at hmin
  | some e' => exact ⟨e', rfl, by rw [D.tMax, hp, tAt_some]⟩

/-- One successful advance: a single step along the axis with the earliest crossing. -/
theorem Dyn.advance_true {g : Grid} {r r' : Ray} {k : Fin 3 → ℕ} (D : Dyn g r k)
    (h : advance g r = (true, r')) :
    r.pos + 1 < r.maxMov ∧ ∃ a e, a = pickAxis r.tMax ∧ r.edge a = some e ∧
      r.tMax a = (tau e (k a) : WithTop ℝ) ∧
      Dyn g r' (Function.update k a (k a + 1)) ∧ r'.cur = Function.update r.cur a (r.cur a + r.step a) := by
  have hsame := advance_same g r
  rw [h] at hsame
  unfold advance at h; simp only at h
  split_ifs at h with hc
  · cases h
  refine ⟨not_le.1 hc, ?_⟩
  have hpos : 0 ≤ r.pos := by rw [D.pos]; positivity
  obtain ⟨e, he, ht⟩ := D.exists_edge (by omega)
  refine ⟨pickAxis r.tMax, e, rfl, he, ht, ?_⟩
  unfold incrementIndex at h
  simp only at h
  generalize pickAxis r.tMax = a at *
  split_ifs at h with hc2
  · cases h
  simp only [Prod.mk.injEq, true_and] at h
  subst h
  simp only [Function.update_self, not_or, not_lt, not_le] at hc2
  refine ⟨⟨?_, D.step, ?_, D.none_iff, ?_, ?_, ?_, ?_⟩, rfl⟩
  · intro i
    by_cases hi : i = a
    · subst hi
      simp only [Function.update_self]
      rw [D.cur i]; push_cast; ring
    · simp only [Function.update_of_ne hi]; exact D.cur i
  · intro i
    by_cases hi : i = a
    · subst hi
      simp only [Function.update_self]
      have habs : |r.cur i + r.step i - r.beginIdx i| = (((k i + 1 : ℕ) : ℤ)) := by
        rw [D.cur i, D.step i]
        split_ifs
        · rw [show r.beginIdx i + -1 * (k i : ℤ) + -1 - r.beginIdx i = -((k i + 1 : ℕ) : ℤ) by push_cast; ring,
            abs_neg, abs_of_nonneg (by positivity)]
        · rw [show r.beginIdx i + 1 * (k i : ℤ) + 1 - r.beginIdx i = ((k i + 1 : ℕ) : ℤ) by push_cast; ring,
            abs_of_nonneg (by positivity)]
      rw [he, tAt_some]
      unfold tAt tau
      rw [habs]
      simp
    · simp only [Function.update_of_ne hi]; exact D.tMax i
  · intro i hi
    by_cases hia : i = a
    · subst hia; rw [he] at hi; cases hi
    · rw [Function.update_of_ne hia]; exact D.none_k i hi
  · rw [show (r.pos + 1 : ℤ) = ((k 0 + k 1 + k 2 + 1 : ℕ) : ℤ) by rw [D.pos]; push_cast; ring]
    fin_cases a <;> simp [Function.update] <;> omega
  · exact D.maxMov
  · intro i
    by_cases hi : i = a
    · subst hi
      simp only [Function.update_self]
      exact hc2
    · simp only [Function.update_of_ne hi]; exact D.inGrid i

/-- How an advance of a running ray can fail. -/
theorem Dyn.advance_false {g : Grid} {r r' : Ray} {k : Fin 3 → ℕ} (D : Dyn g r k)
    (h : advance g r = (false, r')) :
    r.maxMov ≤ r.pos + 1 ∨ ∃ a e, a = pickAxis r.tMax ∧ r.edge a = some e ∧
      r.tMax a = (tau e (k a) : WithTop ℝ) ∧
      (r.beginIdx a + r.step a * (k a + 1 : ℕ) < 0 ∨ g.size a ≤ r.beginIdx a + r.step a * (k a + 1 : ℕ)) := by
  unfold advance at h; simp only at h
  split_ifs at h with hc
  · left; exact hc
  · right
    have hpos : 0 ≤ r.pos := by rw [D.pos]; positivity
    obtain ⟨e, he, ht⟩ := D.exists_edge (by omega)
    refine ⟨pickAxis r.tMax, e, rfl, he, ht, ?_⟩
    unfold incrementIndex at h
    simp only at h
    generalize pickAxis r.tMax = a at *
    split_ifs at h with hc2
    swap
    · cases h
    simp only [Function.update_self] at hc2
    rw [D.cur a] at hc2
    have : r.beginIdx a + r.step a * (k a : ℤ) + r.step a = r.beginIdx a + r.step a * (k a + 1 : ℕ) := by
      push_cast; ring
    rwa [this] at hc2

/-- The cells visited in at most `n` calls (proof device). -/
noncomputable def cellPath (g : Grid) : ℕ → Ray → List Cell
  | 0, _ => []
  | n + 1, r =>
    match advance g r with
    | (true, r') => r'.cur :: cellPath g n r'
    | (false, _) => []

theorem cellPath_exhausted {g : Grid} {r : Ray} (h : r.maxMov ≤ r.pos) (n : ℕ) : cellPath g n r = [] := by
  cases n with
  | zero => rfl
  | succ n => rw [cellPath, advance_exhausted h]

/-! ## Structure of the path -/

/-- `d` is one step from `c` along one axis, in the direction of `r.step`, along an axis in which
begin and end differ. -/
def Step (bi ei : Cell) (c d : Cell) : Prop :=
  ∃ a, ei a ≠ bi a ∧ d = Function.update c a (c a + (if ei a - bi a < 0 then -1 else 1))

theorem cellPath_props {g : Grid} (n : ℕ) : ∀ {r : Ray} {k : Fin 3 → ℕ}, Dyn g r k →
    (cellPath g n r).length ≤ n ∧
    (List.IsChain (Step r.beginIdx r.endIdx) (r.cur :: cellPath g n r)) ∧
    (∀ c ∈ cellPath g n r, InGrid g.size c) ∧
    (r.pos + 1 ≤ r.maxMov → r.pos + (cellPath g n r).length + 1 ≤ r.maxMov) := by
  induction n with
  | zero => intro r k D; simp [cellPath]
  | succ n ih =>
    intro r k D
    rw [cellPath]
    rcases hadv : advance g r with ⟨b, r'⟩
    cases b with
    | false => simp
    | true =>
      obtain ⟨hlt, a, e, ha, he, ht, D', hcur⟩ := D.advance_true hadv
      obtain ⟨h1, h2, h3, h4⟩ := ih D'
      have hsame := advance_same g r
      rw [hadv] at hsame
      have hpos : r'.pos = r.pos + 1 := by
        have := hadv
        unfold advance at this; simp only at this
        split_ifs at this
        · cases this
        unfold incrementIndex at this; simp only at this
        split_ifs at this
        · cases this
        cases this; rfl
      simp only at hsame
      rw [hsame.1, hsame.2] at h2
      simp only [List.length_cons]
      refine ⟨by omega, ?_, ?_, ?_⟩
      · refine List.IsChain.cons_cons ⟨a, ?_, ?_⟩ h2
        · intro hh; rw [(D.none_iff a).2 hh] at he; cases he
        · rw [hcur, D.step a]
      · intro c hc
        rcases List.mem_cons.1 hc with rfl | hc
        · exact D'.inGrid
        · exact h3 c hc
      · intro _
        have := h4 (by rw [hpos, hsame.maxMov]; omega)
        rw [hpos, hsame.maxMov] at this
        push_cast; omega

/-! ## Coverage -/

/-- The geometry of a ray with respect to its grid. -/
structure Geom (gs : ℝ) (g : Grid) (r : Ray) (L : ℝ) : Prop where
  axis : ∀ i : Fin 3, Axis gs (g.minP i) (g.maxP i) (r.rayBegin.get i) (r.dir.get i) L (r.beginIdx i)
    (r.endIdx i) (g.size i)
  edge : ∀ i : Fin 3, r.edge i = edgeOf gs (g.minP i) (r.rayBegin.get i) (r.dir.get i) (r.beginIdx i) (r.endIdx i)

theorem Geom.same {gs : ℝ} {g : Grid} {r r' : Ray} {L : ℝ} (G : Geom gs g r L) (h : Ray.Same r r') :
    Geom gs g r' L := by
  constructor
  · rw [h.rayBegin, h.dir, h.beginIdx, h.endIdx]; exact G.axis
  · rw [h.rayBegin, h.dir, h.beginIdx, h.endIdx, h.edge]; exact G.edge

/-- Coordinate `i` of the ray at parameter `t`. -/
def Ray.at (r : Ray) (t : ℝ) (i : Fin 3) : ℝ := r.rayBegin.get i + t * r.dir.get i

/-- The ray is in the closed cell `c` at parameter `t`. -/
def InCell (gs : ℝ) (g : Grid) (c : Cell) (r : Ray) (t : ℝ) : Prop :=
  ∀ i, InC gs (g.minP i) (c i) (r.at t i)

/-- The ray is in the bounding box of the map at parameter `t`. -/
def InBox (g : Grid) (r : Ray) (t : ℝ) : Prop := ∀ i, g.minP i ≤ r.at t i ∧ r.at t i ≤ g.maxP i

theorem Ray.at_same {r r' : Ray} (h : Ray.Same r r') (t : ℝ) (i : Fin 3) : r'.at t i = r.at t i := by
  unfold Ray.at; rw [h.rayBegin, h.dir]

theorem Geom.crossing {gs : ℝ} {g : Grid} {r : Ray} {L : ℝ} {k : Fin 3 → ℕ} (G : Geom gs g r L) (D : Dyn g r k)
    {i : Fin 3} {e : ℝ × ℝ} (he : r.edge i = some e) :
    Crossing gs (g.minP i) (g.maxP i) (r.rayBegin.get i) (r.dir.get i) L (r.beginIdx i) (r.endIdx i)
      (g.size i) (r.step i) e := by
  have hne : r.endIdx i ≠ r.beginIdx i := fun h => by rw [(D.none_iff i).2 h] at he; cases he
  obtain ⟨e', h1, h2⟩ := (G.axis i).crossing hne
  rw [← G.edge i, he] at h1
  cases h1
  rw [D.step i]; exact h2

/-- `T` is the time at which the current cell was entered. -/
structure Timed (r : Ray) (k : Fin 3 → ℕ) (T : ℝ) : Prop where
  nonneg : 0 ≤ T
  before : ∀ i e, r.edge i = some e → T ≤ tau e (k i)
  after : ∀ i e, r.edge i = some e → ∀ j, k i = j + 1 → tau e j ≤ T

theorem tau_mono {e : ℝ × ℝ} (h : 0 < e.2) {m n : ℕ} (hmn : m ≤ n) : tau e m ≤ tau e n := by
  unfold tau
  have : (m : ℝ) ≤ n := by exact_mod_cast hmn
  nlinarith

theorem tau_lt {e : ℝ × ℝ} (h : 0 < e.2) {m n : ℕ} (hmn : tau e m < tau e n) : m < n := by
  by_contra hc
  exact absurd (tau_mono h (not_lt.1 hc)) (not_le.2 hmn)

theorem Timed.step {gs : ℝ} {g : Grid} {r r' : Ray} {L T : ℝ} {k : Fin 3 → ℕ} (G : Geom gs g r L)
    (D : Dyn g r k) (hT : Timed r k T) {a : Fin 3} {e : ℝ × ℝ} (ha : a = pickAxis r.tMax)
    (he : r.edge a = some e) (ht : r.tMax a = (tau e (k a) : WithTop ℝ)) (hsame : Ray.Same r r') :
    Timed r' (Function.update k a (k a + 1)) (tau e (k a)) ∧ T ≤ tau e (k a) := by
  have hmin : ∀ i e', r.edge i = some e' → tau e (k a) ≤ tau e' (k i) := by
    intro i e' he'
    have := pickAxis_min r.tMax i
    rw [← ha, ht, D.tMax i, he', tAt_some] at this
    exact_mod_cast this
  have hTa := hT.before a e he
  refine ⟨⟨hT.nonneg.trans hTa, ?_, ?_⟩, hTa⟩
  · intro i e' he'
    rw [hsame.edge] at he'
    by_cases hi : i = a
    · subst hi
      rw [he] at he'; cases he'
      rw [Function.update_self]
      exact tau_mono (G.crossing D he).delta (by omega)
    · rw [Function.update_of_ne hi]; exact hmin i e' he'
  · intro i e' he' j hj
    rw [hsame.edge] at he'
    by_cases hi : i = a
    · subst hi
      rw [he] at he'; cases he'
      rw [Function.update_self] at hj
      have : k i = j := by omega
      rw [this]
    · rw [Function.update_of_ne hi] at hj
      exact (hT.after i e' he' j hj).trans hTa

/-- Until the next crossing the ray is in the current cell. -/
theorem Timed.inCell {gs : ℝ} {g : Grid} {r : Ray} {L T t : ℝ} {k : Fin 3 → ℕ} (G : Geom gs g r L)
    (D : Dyn g r k) (hT : Timed r k T) (h0 : T ≤ t) (hL : t ≤ L)
    (hlo : ∀ i, r.edge i = none → g.minP i ≤ r.at t i)
    (h1 : ∀ i e, r.edge i = some e → t ≤ tau e (k i)) : InCell gs g r.cur r t := by
  intro i
  cases he : r.edge i with
  | none =>
    have hk := D.none_k i he
    rw [D.cur i, hk]
    have := (G.axis i).still ((D.none_iff i).1 he) (hT.nonneg.trans h0) hL (hlo i he)
    simpa [Ray.at] using this
  | some e =>
    rw [D.cur i]
    exact (G.crossing D he).inCell (k i) t (hT.nonneg.trans h0)
      (fun j hj => (hT.after i e he j hj).trans h0) (h1 i e he)

theorem cover {gs : ℝ} {g : Grid} {L : ℝ} (n : ℕ) : ∀ {r : Ray} {k : Fin 3 → ℕ} {T : ℝ}, Dyn g r k →
    Geom gs g r L → Timed r k T → (r.pos < r.maxMov ∨ r.maxMov = 0) → r.maxMov ≤ r.pos + n → 1 ≤ n →
    ∀ t, T ≤ t → t ≤ L → InBox g r t →
    ∃ c ∈ r.cur :: (cellPath g n r ++ [r.endIdx]), InCell gs g c r t := by
  induction n with
  | zero => intro r k T _ _ _ _ _ h; omega
  | succ n ih =>
    intro r k T D G hT hpm hn _ t h0 hL hbox
    have cur_of : (∀ i e, r.edge i = some e → t ≤ tau e (k i)) →
        ∃ c ∈ r.cur :: (cellPath g (n+1) r ++ [r.endIdx]), InCell gs g c r t := fun h =>
      ⟨r.cur, by simp, hT.inCell G D h0 hL (fun i _ => (hbox i).1) h⟩
    have min_all : ∀ {a : Fin 3} {e : ℝ × ℝ}, a = pickAxis r.tMax →
        r.tMax a = (tau e (k a) : WithTop ℝ) → ∀ i e', r.edge i = some e' → tau e (k a) ≤ tau e' (k i) := by
      intro a e ha ht i e' he'
      have := pickAxis_min r.tMax i
      rw [← ha, ht, D.tMax i, he', tAt_some] at this
      exact_mod_cast this
    rcases hadv : advance g r with ⟨b, r'⟩
    cases b with
    | true =>
      obtain ⟨hlt, a, e, ha, he, ht, D', hcur⟩ := D.advance_true hadv
      have hsame : Ray.Same r r' := by have := advance_same g r; rwa [hadv] at this
      obtain ⟨hT', hTa⟩ := hT.step G D ha he ht hsame
      rcases le_or_gt t (tau e (k a)) with hle | hgt
      · exact cur_of fun i e' he' => hle.trans (min_all ha ht i e' he')
      · have hpos : r'.pos = r.pos + 1 := by
          rw [D'.pos, D.pos, show ((k 0 + k 1 + k 2 : ℕ) : ℤ) + 1 = ((k 0 + k 1 + k 2 + 1 : ℕ) : ℤ) by push_cast; ring]
          congr 1
          fin_cases a <;> simp [Function.update] <;> omega
        obtain ⟨c, hc, hin⟩ := ih D' (G.same hsame) hT' (Or.inl (by rw [hpos, hsame.maxMov]; omega))
          (by rw [hpos, hsame.maxMov]; push_cast at hn; omega) (by push_cast at hn; omega) t hgt.le hL
          (fun i => by rw [Ray.at_same hsame]; exact hbox i)
        refine ⟨c, ?_, fun i => by rw [← Ray.at_same hsame]; exact hin i⟩
        rw [cellPath, hadv]
        rw [hsame.endIdx] at hc
        simp only [List.mem_cons, List.mem_append, List.not_mem_nil, or_false] at hc ⊢
        tauto
    | false =>
      rcases D.advance_false hadv with hfin | ⟨a, e, ha, he, ht, hout⟩
      · -- the last allowed step
        by_cases hz : r.maxMov = 0
        · apply cur_of
          intro i e he
          exfalso
          have : r.dist i = 0 := by
            have := D.maxMov
            rw [hz] at this
            fin_cases i
            · change r.dist 0 = 0; omega
            · change r.dist 1 = 0; omega
            · change r.dist 2 = 0; omega
          unfold Ray.dist at this
          rw [(D.none_iff i).2 (by omega)] at he
          cases he
        · have hlt : r.pos < r.maxMov := by omega
          have hpos0 : 0 ≤ r.pos := by rw [D.pos]; positivity
          obtain ⟨e, he, ht⟩ := D.exists_edge (by omega)
          generalize ha : pickAxis r.tMax = a at he ht
          have hmin := min_all ha.symm ht
          rcases le_or_gt t (tau e (k a)) with hle | hgt
          · exact cur_of fun i e' he' => hle.trans (hmin i e' he')
          · refine ⟨r.endIdx, by simp, ?_⟩
            have hTt : T < t := (hT.before a e he).trans_lt hgt
            have habs : ∀ i, (r.dist i : ℤ) = |r.endIdx i - r.beginIdx i| := fun i => by
              unfold Ray.dist; rw [Int.natCast_natAbs]
            have hstay : ∀ i e', r.edge i = some e' → t ≤ tau e' (r.dist i) := fun i e' he' =>
              (G.crossing D he').stay _ t (habs i) hL (hbox i).1
            have hk : ∀ i, k i ≤ r.dist i := by
              intro i
              cases he' : r.edge i with
              | none => rw [D.none_k i he']; omega
              | some e' =>
                cases hki : k i with
                | zero => omega
                | succ j =>
                  have h1 := hT.after i e' he' j hki
                  have := tau_lt (G.crossing D he').delta ((h1.trans_lt hTt).trans_le (hstay i e' he'))
                  omega
            have hka : k a < r.dist a := tau_lt (G.crossing D he).delta (hgt.trans_le (hstay a e he))
            have hsum : k 0 + k 1 + k 2 + 1 = r.dist 0 + r.dist 1 + r.dist 2 := by
              have := D.pos; have := D.maxMov; omega
            have hothers : ∀ i, i ≠ a → k i = r.dist i := by
              have h0 := hk 0; have h1 := hk 1; have h2 := hk 2
              intro i hi
              fin_cases a <;> fin_cases i <;> simp at hi hka ⊢ <;> omega
            have hkaa : k a + 1 = r.dist a := by
              have h0 := hk 0; have h1 := hk 1; have h2 := hk 2
              fin_cases a <;> simp at hka ⊢ <;> omega
            intro i
            have hend : r.endIdx i = r.beginIdx i + r.step i * (r.dist i : ℕ) := by
              rw [D.step i, habs i]
              split_ifs with hs
              · rw [abs_of_neg hs]; ring
              · rw [abs_of_nonneg (by omega)]; ring
            rw [hend]
            have ht0 : 0 ≤ t := hT.nonneg.trans h0
            cases he' : r.edge i with
            | none =>
              have hb := (D.none_iff i).1 he'
              have : r.dist i = 0 := by unfold Ray.dist; rw [hb]; simp
              rw [this]
              simpa [Ray.at] using (G.axis i).still hb ht0 hL (hbox i).1
            | some e' =>
              refine (G.crossing D he').inCell (r.dist i) t ht0 ?_ (hstay i e' he')
              intro j hj
              by_cases hi : i = a
              · subst hi
                rw [he] at he'; cases he'
                have : j = k i := by omega
                rw [this]; exact hgt.le
              · exact (hT.after i e' he' j (by rw [hothers i hi]; exact hj)).trans hTt.le
      · -- leaving the grid
        have hmin := min_all ha ht
        rcases le_or_gt t (tau e (k a)) with hle | hgt
        · exact cur_of fun i e' he' => hle.trans (hmin i e' he')
        · exact absurd (hbox a) ((G.crossing D he).exit (k a) t hout hgt)

/-- Every visited cell is met by the ray. -/
theorem met {gs : ℝ} {g : Grid} {L : ℝ} (n : ℕ) : ∀ {r : Ray} {k : Fin 3 → ℕ} {T : ℝ}, Dyn g r k →
    Geom gs g r L → Timed r k T →
    (∀ i, r.edge i = none → g.minP i ≤ r.at L i) →
    ∀ c ∈ cellPath g n r, ∃ t, 0 ≤ t ∧ t ≤ L ∧ InCell gs g c r t := by
  induction n with
  | zero => intro r k T _ _ _ _ c hc; simp [cellPath] at hc
  | succ n ih =>
    intro r k T D G hT hlo c hc
    rw [cellPath] at hc
    rcases hadv : advance g r with ⟨b, r'⟩
    rw [hadv] at hc
    cases b with
    | false => simp at hc
    | true =>
      obtain ⟨hlt, a, e, ha, he, ht, D', hcur⟩ := D.advance_true hadv
      have hsame : Ray.Same r r' := by have := advance_same g r; rwa [hadv] at this
      obtain ⟨hT', hTa⟩ := hT.step G D ha he ht hsame
      have hlo' : ∀ i, r'.edge i = none → g.minP i ≤ r'.at L i := fun i hi => by
        rw [Ray.at_same hsame]; exact hlo i (by rw [← hsame.edge]; exact hi)
      simp only [List.mem_cons] at hc
      rcases hc with rfl | hc
      · have habs : ∀ i, (r.dist i : ℤ) = |r.endIdx i - r.beginIdx i| := fun i => by
          unfold Ray.dist; rw [Int.natCast_natAbs]
        -- some axis has not reached its end index
        have hex : ∃ i, k i < r.dist i := by
          by_contra hcon
          push Not at hcon
          have h0 := hcon 0; have h1 := hcon 1; have h2 := hcon 2
          have := D.pos; have := D.maxMov
          omega
        obtain ⟨i, hi⟩ := hex
        have hTL : tau e (k a) ≤ L := by
          cases hei : r.edge i with
          | none =>
            have hb := (D.none_iff i).1 hei
            have : r.dist i = 0 := by unfold Ray.dist; rw [hb]; simp
            omega
          | some e' =>
            have h1 := pickAxis_min r.tMax i
            rw [← ha, ht, D.tMax i, hei, tAt_some] at h1
            have h1' : tau e (k a) ≤ tau e' (k i) := by exact_mod_cast h1
            have h2 : tau e' (k i) ≤ tau e' (r.dist i - 1) :=
              tau_mono (G.crossing D hei).delta (by omega)
            have h3 := (G.crossing D hei).last (r.dist i - 1) (by rw [← habs i]; omega)
            linarith
        refine ⟨tau e (k a), hT'.nonneg, hTL, ?_⟩
        have := hT'.inCell (G.same hsame) D' le_rfl hTL ?_ (fun i e' he' => hT'.before i e' he')
        · intro i; rw [← Ray.at_same hsame]; exact this i
        · intro i hi
          have hA := (G.same hsame).axis i
          have hb := hA.hb0
          have hL := hlo' i hi
          unfold Ray.at at hL ⊢
          rcases le_total 0 (r'.dir.get i) with hd | hd
          · have := mul_nonneg hT'.nonneg hd; linarith
          · have := mul_le_mul_of_nonpos_right hTL hd; linarith
      · obtain ⟨t, h0, h1, h2⟩ := ih D' (G.same hsame) hT' hlo' c hc
        exact ⟨t, h0, h1, fun i => by rw [← Ray.at_same hsame]; exact h2 i⟩

end DDA
end Mcl3dl
