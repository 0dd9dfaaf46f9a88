import Verif.Proofs.DDARay
import Verif.Spec.DDA

/-! From the object history to the ray: invariants of reachable states, and a run of calls. -/

namespace Mcl3dl
namespace DDA

theorem refs_pos (c : Cloud) : c.refs.map MapPt.pos = c.pts.map Prod.fst := by
  unfold Cloud.refs
  rw [List.map_map]
  conv_rhs => rw [← List.zipIdx_map_fst 0 c.pts]
  rw [List.map_map]
  rfl

theorem isBox_iff (c : Cloud) (mn mx : Fin 3 → ℝ) :
    IsBox c.refs mn mx ↔ IsBoundingBox (c.pts.map Prod.fst) mn mx := by
  rw [← refs_pos]
  constructor
  · intro h
    exact ⟨by simpa using h.lo, by simpa using h.hi,
      by simpa using h.lo_att, by simpa using h.hi_att⟩
  · intro h
    exact ⟨by simpa using h.lo, by simpa using h.hi,
      by simpa using h.lo_att, by simpa using h.hi_att⟩

theorem IsBox.unique {ps : List MapPt} {mn mx mn' mx' : Fin 3 → ℝ} (h : IsBox ps mn mx)
    (h' : IsBox ps mn' mx') : mn = mn' ∧ mx = mx' := by
  constructor
  · funext i
    obtain ⟨p, hp, e⟩ := h.lo_att i
    obtain ⟨q, hq, f⟩ := h'.lo_att i
    apply le_antisymm
    · rw [← f]; exact h.lo q hq i
    · rw [← e]; exact h'.lo p hp i
  · funext i
    obtain ⟨p, hp, e⟩ := h.hi_att i
    obtain ⟨q, hq, f⟩ := h'.hi_att i
    apply le_antisymm
    · rw [← e]; exact h'.hi p hp i
    · rw [← f]; exact h.hi q hq i

/-- Stamps tell the clouds of `S` apart. -/
def StampsDiffer (S : Set Cloud) : Prop := ∀ c ∈ S, ∀ c' ∈ S, c.stamp = c'.stamp → c = c'

/-- Invariant of reachable states. -/
structure Inv (cfg : Cfg) (S : Set Cloud) (s : St) : Prop where
  grid : ∀ g, s.grid = some g → ∃ c ∈ S, GridOK cfg.gridSize g c.refs ∧ g.stamp = c.stamp
  ray : ∀ r, s.ray = some r → ∃ g, s.grid = some g ∧ (r.maxMov ≤ r.pos ∨ ∃ k, Dyn g r k)

/-- Every vector operation on a coordinate. -/
theorem get_sub (a b : Vec3 ℝ) (i : Fin 3) : (a - b).get i = a.get i - b.get i := by
  fin_cases i <;> rfl
theorem get_add (a b : Vec3 ℝ) (i : Fin 3) : (a + b).get i = a.get i + b.get i := by
  fin_cases i <;> rfl
theorem get_smul (a : Vec3 ℝ) (s : ℝ) (i : Fin 3) : (a.smul s).get i = a.get i * s := by
  fin_cases i <;> rfl
theorem get_sdiv (a : Vec3 ℝ) (s : ℝ) (i : Fin 3) : (a.sdiv s).get i = a.get i / s := by
  fin_cases i <;> rfl

theorem norm_eq_len (v : Vec3 ℝ) : v.norm = len v := by
  unfold Vec3.norm len Vec3.dot
  rw [Transc.sqrt_real]; congr 1; ring

theorem len_pos {v : Vec3 ℝ} (h : ¬ v.dot v = 0) : 0 < len v := by
  unfold len
  apply Real.sqrt_pos.2
  have : v.dot v = v.x ^ 2 + v.y ^ 2 + v.z ^ 2 := by unfold Vec3.dot; ring
  rw [this] at h
  exact lt_of_le_of_ne (by positivity) (Ne.symm h)

theorem rayPoint_get (b e : Vec3 ℝ) (t : ℝ) (i : Fin 3) :
    (rayPoint b e t).get i = b.get i + t * ((e - b).normalized).get i := by
  unfold Vec3.normalized
  rw [get_sdiv, norm_eq_len, get_sub]
  fin_cases i <;> rfl

/-- What `startRay` establishes. -/
structure Start (cfg : Cfg) (g : Grid) (b e : Vec3 ℝ) (r : Ray) : Prop where
  len_pos : 0 < len (e - b)
  rayBegin : r.rayBegin = b
  dir : r.dir = (e - b).normalized
  beginIdx : r.beginIdx = cellOf cfg.gridSize g.minP b
  endIdx : r.endIdx = cellOf cfg.gridSize g.minP (rayPoint b e (len (e - b) + cfg.hitTolerance))
  cur : r.cur = r.beginIdx
  pos : r.pos = 0
  dyn : Dyn g r fun _ => 0
  geom : 0 ≤ cfg.hitTolerance → Geom cfg.gridSize g r (len (e - b) + cfg.hitTolerance)
  timed : 0 ≤ cfg.hitTolerance → Timed r (fun _ => 0) 0

theorem end_eq {cfg : Cfg} {b e : Vec3 ℝ} (h : 0 < len (e - b)) :
    e + ((e - b).normalized).smul cfg.hitTolerance = rayPoint b e (len (e - b) + cfg.hitTolerance) := by
  have hn := h.ne'
  have hx : ∀ i : Fin 3, (e + ((e - b).normalized).smul cfg.hitTolerance).get i =
      (rayPoint b e (len (e - b) + cfg.hitTolerance)).get i := by
    intro i
    rw [rayPoint_get, get_add, get_smul]
    unfold Vec3.normalized
    rw [get_sdiv, norm_eq_len, get_sub]
    field_simp
    ring
  exact Vec3.ext (hx 0) (hx 1) (hx 2)

/-- The ray `startRay` produces when nothing overflows (proof device). -/
noncomputable def startedRay (cfg : Cfg) (g : Grid) (b e : Vec3 ℝ) : Ray where
  beginIdx := cellOf cfg.gridSize g.minP b
  endIdx := cellOf cfg.gridSize g.minP (rayPoint b e (len (e - b) + cfg.hitTolerance))
  rayBegin := b
  dir := (e - b).normalized
  maxMov :=
    |cellOf cfg.gridSize g.minP (rayPoint b e (len (e - b) + cfg.hitTolerance)) 0 - cellOf cfg.gridSize g.minP b 0| +
    |cellOf cfg.gridSize g.minP (rayPoint b e (len (e - b) + cfg.hitTolerance)) 1 - cellOf cfg.gridSize g.minP b 1| +
    |cellOf cfg.gridSize g.minP (rayPoint b e (len (e - b) + cfg.hitTolerance)) 2 - cellOf cfg.gridSize g.minP b 2|
  pos := 0
  tMax := fun i => tAt (edgeOf cfg.gridSize (g.minP i) (b.get i) ((e - b).normalized.get i)
    (cellOf cfg.gridSize g.minP b i)
    (cellOf cfg.gridSize g.minP (rayPoint b e (len (e - b) + cfg.hitTolerance)) i)) 0
  edge := fun i => edgeOf cfg.gridSize (g.minP i) (b.get i) ((e - b).normalized.get i)
    (cellOf cfg.gridSize g.minP b i)
    (cellOf cfg.gridSize g.minP (rayPoint b e (len (e - b) + cfg.hitTolerance)) i)
  cur := cellOf cfg.gridSize g.minP b
  step := fun i => if cellOf cfg.gridSize g.minP (rayPoint b e (len (e - b) + cfg.hitTolerance)) i -
    cellOf cfg.gridSize g.minP b i < 0 then -1 else 1

theorem startRay_ok {cfg : Cfg} (hg : 0 < cfg.gridSize) {g : Grid} {ps : List MapPt}
    (hG : GridOK cfg.gridSize g ps) {b e : Vec3 ℝ} {r : Ray} (hin : isPointWithinMap g b)
    (h : startRay cfg g b e = .ok r) : Start cfg g b e r := by
  unfold startRay at h
  split_ifs at h with hz
  simp only at h
  have hlen := len_pos hz
  rw [end_eq hlen] at h
  obtain ⟨bi, hbi, h⟩ := bind_eq_ok h
  obtain ⟨ei, hei, h⟩ := bind_eq_ok h
  obtain ⟨d0, hd0, h⟩ := bind_eq_ok h
  obtain ⟨d1, hd1, h⟩ := bind_eq_ok h
  obtain ⟨d2, hd2, h⟩ := bind_eq_ok h
  obtain ⟨a0, ha0, h⟩ := bind_eq_ok h
  obtain ⟨a1, ha1, h⟩ := bind_eq_ok h
  obtain ⟨a01, ha01, h⟩ := bind_eq_ok h
  obtain ⟨a2, ha2, h⟩ := bind_eq_ok h
  obtain ⟨mm, hmm, h⟩ := bind_eq_ok h
  obtain ⟨rfl, -⟩ := i32_ok hd0
  obtain ⟨rfl, -⟩ := i32_ok hd1
  obtain ⟨rfl, -⟩ := i32_ok hd2
  obtain ⟨rfl, -⟩ := i32_ok ha0
  obtain ⟨rfl, -⟩ := i32_ok ha1
  obtain ⟨rfl, -⟩ := i32_ok ha01
  obtain ⟨rfl, -⟩ := i32_ok ha2
  obtain ⟨rfl, -⟩ := i32_ok hmm
  obtain ⟨rfl, -⟩ := toIndex_ok hbi
  obtain ⟨rfl, -⟩ := toIndex_ok hei
  have hbox : ∀ i : Fin 3, g.minP i ≤ b.get i ∧ b.get i ≤ g.maxP i := fun i => by
    have := hin i; push Not at this; exact this
  have hinG := cellOf_inGrid hg hG.size_eq hbox
  have h' : Outcome.ok (startedRay cfg g b e) = Outcome.ok r := h
  clear h
  cases h'
  have dyn : Dyn g (startedRay cfg g b e) fun _ => 0 := by
    refine ⟨?_, ?_, ?_, ?_, ?_, ?_, ?_, hinG⟩
    · intro i; simp [startedRay]
    · intro i; rfl
    · intro i; simp [startedRay]
    · intro i
      simp only [startedRay, edgeOf]
      constructor
      · intro h; split_ifs at h with h'; omega
      · intro h; rw [if_pos (by omega)]
    · intro i _; rfl
    · simp [startedRay]
    · simp only [startedRay, Ray.dist]; push_cast [Int.natCast_natAbs]; ring
  have geom : 0 ≤ cfg.hitTolerance →
      Geom cfg.gridSize g (startedRay cfg g b e) (len (e - b) + cfg.hitTolerance) := by
    intro htol
    refine ⟨fun i => ⟨hg, (hbox i).1, (hbox i).2, by linarith, ?_, ?_, hG.size_eq i⟩, fun i => rfl⟩
    · simp only [startedRay, cellOf]
      rw [truncZ_nonneg (div_nonneg (by linarith [(hbox i).1]) hg.le)]
    · simp only [startedRay, cellOf]
      rw [rayPoint_get]
  refine ⟨hlen, rfl, rfl, rfl, rfl, rfl, rfl, dyn, geom, ?_⟩
  intro htol
  refine ⟨le_rfl, ?_, ?_⟩
  · intro i e' he'
    have := ((geom htol).crossing dyn he').init
    unfold tau; simpa using this
  · intro i e' he' j hj; omega

/-! ## Reachable states -/

theorem updatePointCloud_inv {cfg : Cfg} (hg : 0 < cfg.gridSize) {S : Set Cloud} {g : Option Grid}
    (hI : ∀ g', g = some g' → ∃ c ∈ S, GridOK cfg.gridSize g' c.refs ∧ g'.stamp = c.stamp)
    {cloud : Option Cloud} (hc : ∀ c, cloud = some c → c ∈ S) {g2 : Option Grid}
    (h : updatePointCloud cfg g cloud = .ok g2) :
    (∀ g', g2 = some g' → ∃ c ∈ S, GridOK cfg.gridSize g' c.refs ∧ g'.stamp = c.stamp) ∧
    (StampsDiffer S → ∀ c, cloud = some c → ∃ g', g2 = some g' ∧ GridOK cfg.gridSize g' c.refs) := by
  unfold updatePointCloud at h
  cases cloud with
  | none => simp only at h; cases h; exact ⟨hI, fun _ c hc => by cases hc⟩
  | some c =>
    have hcS := hc c rfl
    have newcase : ∀ {g2}, ((build cfg c).bind fun n => Outcome.ok (some n)) = .ok g2 →
        (∀ g', g2 = some g' → ∃ c ∈ S, GridOK cfg.gridSize g' c.refs ∧ g'.stamp = c.stamp) ∧
        (StampsDiffer S → ∀ c', some c = some c' → ∃ g', g2 = some g' ∧ GridOK cfg.gridSize g' c'.refs) := by
      intro g2 h
      obtain ⟨n, hn, h⟩ := bind_eq_ok h
      cases h
      obtain ⟨h1, h2, h3⟩ := build_ok hg hn
      refine ⟨fun g' hg' => ?_, fun _ c' hc' => ?_⟩
      · cases hg'; exact ⟨c, hcS, h1, h2⟩
      · cases hc'; exact ⟨n, rfl, h1⟩
    cases g with
    | none => exact newcase h
    | some old =>
      simp only at h
      split_ifs at h with hst
      · cases h
        refine ⟨hI, fun hS c' hc' => ?_⟩
        cases hc'
        obtain ⟨c0, hc0, hok, hs⟩ := hI old rfl
        have : c0 = c := hS c0 hc0 c hcS (by rw [← hs, ← hst])
        subst this
        exact ⟨old, rfl, hok⟩
      · exact newcase h

theorem hasIntersection_ok {cfg : Cfg} {g : Grid} {ps : List MapPt}
    (hG : GridOK cfg.gridSize g ps) {r : Ray} {c : Cell} (hc : InGrid g.size c) :
    ∃ o, hasIntersection cfg g r c = .ok o := by
  unfold hasIntersection
  have hlt : g.size 0 * g.size 1 * g.size 2 < 2 ^ 31 := by rw [← hG.total_eq]; exact hG.total_lt
  rw [arrayIndex_eq hc hlt, Outcome.bind_ok, if_pos ⟨(flat_range hc).1, by rw [hG.total_eq]; exact (flat_range hc).2⟩]
  split_ifs with h1 h2
  · exact ⟨_, rfl⟩
  · exfalso
    have := (hG.exist_eq (flat g.size c)).1 (by simpa using h1)
    exact this h2
  · exact ⟨_, rfl⟩

theorem getNext_ok {cfg : Cfg} {S : Set Cloud} {s : St} (hI : Inv cfg S s) {r : Ray}
    (hr : s.ray = some r) : ∃ o s', getNext cfg s = .ok (o, s') ∧ Inv cfg S s' := by
  obtain ⟨g, hgr, hrun⟩ := hI.ray r hr
  obtain ⟨c, hc, hG, hst⟩ := hI.grid g hgr
  unfold getNext
  rw [hgr, hr]
  simp only
  have inv' : ∀ r', (r'.maxMov ≤ r'.pos ∨ ∃ k, Dyn g r' k) → Inv cfg S ⟨some g, some r'⟩ := by
    intro r' h'
    refine ⟨fun g' hg' => ?_, fun r'' hr'' => ?_⟩
    · cases hg'; exact ⟨c, hc, hG, hst⟩
    · cases hr''; exact ⟨g, rfl, h'⟩
  rcases hadv : advance g r with ⟨b, r'⟩
  cases b with
  | false => exact ⟨none, _, rfl, inv' r' (Or.inl (advance_false hadv))⟩
  | true =>
    rcases hrun with hex | ⟨k, D⟩
    · rw [advance_exhausted hex] at hadv; cases hadv
    · obtain ⟨-, a, e, -, -, -, D', -⟩ := D.advance_true hadv
      obtain ⟨o, ho⟩ := hasIntersection_ok (cfg := cfg) hG (r := r') D'.inGrid
      simp only [ho, Outcome.bind_ok]
      exact ⟨_, _, rfl, inv' r' (Or.inr ⟨_, D'⟩)⟩

theorem setRay_inv {cfg : Cfg} (hg : 0 < cfg.gridSize) {S : Set Cloud} {s s' : St} (hI : Inv cfg S s)
    {cloud : Option Cloud} (hc : ∀ c, cloud = some c → c ∈ S) {b e : Vec3 ℝ}
    (h : setRay cfg s cloud b e = .ok s') :
    Inv cfg S s' ∧ s'.ray.isSome ∧
    ∃ g r, s' = ⟨some g, some r⟩ ∧
      (∃ c ∈ S, GridOK cfg.gridSize g c.refs) ∧
      (StampsDiffer S → ∀ c, cloud = some c → GridOK cfg.gridSize g c.refs) ∧
      ((¬ isPointWithinMap g b ∧ r.maxMov = 0 ∧ r.pos = 0) ∨
        (isPointWithinMap g b ∧ Start cfg g b e r)) := by
  unfold setRay at h
  obtain ⟨g2, hg2, h⟩ := bind_eq_ok h
  obtain ⟨hi1, hi2⟩ := updatePointCloud_inv hg hI.grid hc hg2
  cases g2 with
  | none => cases h
  | some g =>
    simp only at h
    have hs2 : StampsDiffer S → ∀ c, cloud = some c → GridOK cfg.gridSize g c.refs := fun hS c hc => by
      obtain ⟨g', hg', hok⟩ := hi2 hS c hc
      cases hg'; exact hok
    obtain ⟨c0, hc0, hG0, -⟩ := hi1 g rfl
    split_ifs at h with hw
    · obtain ⟨r, hr, h⟩ := bind_eq_ok h
      cases h
      have hS := startRay_ok hg hG0 hw hr
      refine ⟨⟨fun g' hg' => by cases hg'; exact hi1 g rfl, fun r' hr' => ?_⟩, rfl, g, r, rfl,
        ⟨c0, hc0, hG0⟩, hs2, Or.inr ⟨hw, hS⟩⟩
      cases hr'
      exact ⟨g, rfl, Or.inr ⟨_, hS.dyn⟩⟩
    · cases h
      refine ⟨⟨fun g' hg' => by cases hg'; exact hi1 g rfl, fun r' hr' => ?_⟩, rfl, g, _, rfl,
        ⟨c0, hc0, hG0⟩, hs2, Or.inl ⟨hw, rfl, rfl⟩⟩
      cases hr'
      exact ⟨g, rfl, Or.inl le_rfl⟩

theorem reachable_inv {cfg : Cfg} (hg : 0 < cfg.gridSize) {S : Set Cloud} {s : St}
    (h : Reachable cfg S s) : Inv cfg S s := by
  induction h with
  | fresh => exact ⟨fun g h => (by cases h), fun r h => (by cases h)⟩
  | setRay _ hc hs ih => exact (setRay_inv hg ih hc hs).1
  | @next s s' r _ hn ih =>
    cases hr : s.ray with
    | none =>
      unfold getNext at hn
      rw [hr] at hn
      cases hgr : s.grid <;> rw [hgr] at hn <;> cases hn
    | some r0 =>
      obtain ⟨o, s2, h2, hI⟩ := getNext_ok ih hr
      rw [hn] at h2; cases h2; exact hI

/-! ## A run of calls -/

/-- The result reported for a visited cell (proof device). -/
noncomputable def resultAt (cfg : Cfg) (g : Grid) (b dir : Vec3 ℝ) (c : Cell) : CastResult :=
  let hit := (g.cells (flat g.size c)).find? fun p => @decide (nearRay cfg b dir p.pos) (Classical.dec _)
  ⟨fromIndex cfg.gridSize g.minP c, hit.isSome, 1, hit⟩

theorem hasIntersection_eq {cfg : Cfg} {g : Grid} {ps : List MapPt}
    (hG : GridOK cfg.gridSize g ps) {r : Ray} {c : Cell} (hc : InGrid g.size c) :
    hasIntersection cfg g r c = .ok ((g.cells (flat g.size c)).find? fun p =>
      @decide (nearRay cfg r.rayBegin r.dir p.pos) (Classical.dec _)) := by
  unfold hasIntersection
  have hlt : g.size 0 * g.size 1 * g.size 2 < 2 ^ 31 := by rw [← hG.total_eq]; exact hG.total_lt
  rw [arrayIndex_eq hc hlt, Outcome.bind_ok, if_pos ⟨(flat_range hc).1, by rw [hG.total_eq]; exact (flat_range hc).2⟩]
  split_ifs with h1 h2
  · have : g.cells (flat g.size c) = [] := by
      by_contra hne
      rw [(hG.exist_eq _).2 hne] at h1; cases h1
    rw [this]; rfl
  · exfalso
    have := (hG.exist_eq (flat g.size c)).1 (by simpa using h1)
    exact this h2
  · rfl

theorem nexts_exhausted (cfg : Cfg) (n : ℕ) : ∀ (g : Grid) (r : Ray), r.maxMov ≤ r.pos →
    ∃ s', nexts cfg n ⟨some g, some r⟩ = .ok (List.replicate n none, s') := by
  induction n with
  | zero => intro g r _; exact ⟨_, rfl⟩
  | succ n ih =>
    intro g r h
    obtain ⟨s', hs'⟩ := ih g { r with pos := r.pos + 1 } (by simp only; omega)
    refine ⟨s', ?_⟩
    rw [nexts]
    simp only [getNext, advance_exhausted h, Outcome.bind_ok, hs']
    rfl

theorem nexts_eq {cfg : Cfg} {g : Grid} {ps : List MapPt} (hG : GridOK cfg.gridSize g ps) (n : ℕ) :
    ∀ {r : Ray} {k : Fin 3 → ℕ}, Dyn g r k →
    ∃ s', nexts cfg n ⟨some g, some r⟩ =
      .ok ((cellPath g n r).map (fun c => some (resultAt cfg g r.rayBegin r.dir c)) ++
        List.replicate (n - (cellPath g n r).length) none, s') := by
  induction n with
  | zero => intro r k _; exact ⟨_, rfl⟩
  | succ n ih =>
    intro r k D
    rw [nexts, cellPath]
    rcases hadv : advance g r with ⟨b, r'⟩
    cases b with
    | false =>
      obtain ⟨s', hs'⟩ := nexts_exhausted cfg n g r' (advance_false hadv)
      refine ⟨s', ?_⟩
      simp only [getNext, hadv, Outcome.bind_ok, hs']
      simp [List.replicate_succ]
    | true =>
      obtain ⟨-, a, e, -, -, -, D', -⟩ := D.advance_true hadv
      have hsame : Ray.Same r r' := by have := advance_same g r; rwa [hadv] at this
      obtain ⟨s', hs'⟩ := ih D'
      refine ⟨s', ?_⟩
      simp only [getNext, hadv, hasIntersection_eq hG D'.inGrid, Outcome.bind_ok, hs']
      rw [hsame.rayBegin, hsame.dir]
      simp [resultAt]

end DDA
end Mcl3dl
