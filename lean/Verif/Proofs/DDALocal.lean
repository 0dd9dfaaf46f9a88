import Verif.Spec.DDALocal
import Verif.Props.DDA
import Verif.Props.ScanOrder

/-! Casting rays in two maps side by side (for C183). -/

namespace Mcl3dl
namespace DDA

theorem box_of_refs {c : Cloud} {p : MapPt} {ps : List MapPt} (h : c.refs = p :: ps) :
    IsBoundingBox (c.pts.map Prod.fst) (fun i => minAlong i p ps) (fun i => maxAlong i p ps) := by
  rw [← isBox_iff, h]; exact isBox p ps

theorem refs_nil_of_box {c : Cloud} {mn mx : Fin 3 → ℝ} (h : IsBoundingBox (c.pts.map Prod.fst) mn mx) : c.refs ≠ [] := by
  rw [← isBox_iff] at h
  obtain ⟨p, hp, -⟩ := h.lo_att 0
  intro e
  rw [e] at hp; cases hp

theorem build_cases {cfg : Cfg} (hg : 0 < cfg.gridSize) {c : Cloud} (hr : c.refs ≠ []) :
    (∃ g, build cfg c = .ok g) ∨ build cfg c = .ub "value does not fit int" := by
  unfold build
  generalize hrs : c.refs = rs at hr ⊢
  cases rs with
  | nil => exact absurd rfl hr
  | cons p ps =>
    have hnn := extent_nonneg hg p ps
    simp only [axisSize_extent hg (hnn 0), axisSize_extent hg (hnn 1), axisSize_extent hg (hnn 2)]
    have hi : ∀ x, i32 x = .ok x ∧ x < 2 ^ 31 ∨ i32 x = .ub "value does not fit int" := by
      intro x
      unfold i32
      split_ifs with h
      · exact .inl ⟨rfl, h.2⟩
      · exact .inr rfl
    rcases hi (⌊(maxAlong 0 p ps - minAlong 0 p ps) / cfg.gridSize⌋ + 1) with ⟨h0, -⟩ | h0
    swap
    · right; rw [h0]; rfl
    rw [h0, Outcome.bind_ok]
    rcases hi (⌊(maxAlong 1 p ps - minAlong 1 p ps) / cfg.gridSize⌋ + 1) with ⟨h1, -⟩ | h1
    swap
    · right; rw [h1]; rfl
    rw [h1, Outcome.bind_ok]
    rcases hi ((⌊(maxAlong 0 p ps - minAlong 0 p ps) / cfg.gridSize⌋ + 1) *
      (⌊(maxAlong 1 p ps - minAlong 1 p ps) / cfg.gridSize⌋ + 1)) with ⟨h2, -⟩ | h2
    swap
    · right; rw [h2]; rfl
    rw [h2, Outcome.bind_ok]
    rcases hi (⌊(maxAlong 2 p ps - minAlong 2 p ps) / cfg.gridSize⌋ + 1) with ⟨h3, -⟩ | h3
    swap
    · right; rw [h3]; rfl
    rw [h3, Outcome.bind_ok]
    rcases hi ((⌊(maxAlong 0 p ps - minAlong 0 p ps) / cfg.gridSize⌋ + 1) *
      (⌊(maxAlong 1 p ps - minAlong 1 p ps) / cfg.gridSize⌋ + 1) *
      (⌊(maxAlong 2 p ps - minAlong 2 p ps) / cfg.gridSize⌋ + 1)) with ⟨h4, hlt⟩ | h4
    swap
    · right; rw [h4]; rfl
    rw [h4, Outcome.bind_ok]
    left
    obtain ⟨g, hgo, -⟩ := setAll_empty hg c p ps hlt
    exact ⟨g, hgo⟩

/-- Two grids over the same box. -/
structure Alike (g g' : Grid) : Prop where
  minP : g'.minP = g.minP
  maxP : g'.maxP = g.maxP
  size : g'.size = g.size
  total : g'.total = g.total

theorem build_alike {cfg : Cfg} (hg : 0 < cfg.gridSize) {c c' : Cloud} (hb : SameBox c c') {g : Grid}
    (h : build cfg c = .ok g) : ∃ g', build cfg c' = .ok g' ∧ Alike g g' := by
  obtain ⟨hG, -, hne⟩ := build_ok hg h
  have hbox := (isBox_iff _ _ _).1 hG.box
  have hbox' := (hb _ _).1 hbox
  have hne' := refs_nil_of_box hbox'
  cases hr' : c'.refs with
  | nil => exact absurd hr' hne'
  | cons p' ps' =>
    have hB := (isBox_iff _ _ _).2 hbox'
    rw [hr'] at hB
    obtain ⟨e1, e2⟩ := (isBox p' ps').unique hB
    have e1 : ∀ i, minAlong i p' ps' = g.minP i := fun i => congrFun e1 i
    have e2 : ∀ i, maxAlong i p' ps' = g.maxP i := fun i => congrFun e2 i
    have htot : (emptyGrid cfg c' p' ps').total = g.total := by
      rw [hG.total_eq, hG.size_eq, hG.size_eq, hG.size_eq]
      simp only [emptyGrid, e1, e2]
    have := build_isOk hg hr' (by rw [htot]; exact hG.total_lt)
    cases hx : build cfg c' with
    | ok g' =>
      obtain ⟨hG', -, -⟩ := build_ok hg hx
      obtain ⟨f1, f2⟩ := hG'.box.unique ((isBox_iff _ _ _).2 hbox')
      have f3 : g'.size = g.size := by funext i; rw [hG'.size_eq, hG.size_eq, f1, f2]
      exact ⟨g', rfl, f1, f2, f3, by rw [hG'.total_eq, hG.total_eq, f3]⟩
    | throws m => rw [hx] at this; cases this
    | ub m => rw [hx] at this; cases this

theorem SameBox.symm {c c' : Cloud} (h : SameBox c c') : SameBox c' c := fun mn mx => (h mn mx).symm

/-- Building from two maps with the same box: both grids alike, or the same failure. -/
theorem build_both {cfg : Cfg} (hg : 0 < cfg.gridSize) {c c' : Cloud} (hb : SameBox c c') :
    (∃ g g', build cfg c = .ok g ∧ build cfg c' = .ok g' ∧ Alike g g') ∨
    ∃ w, build cfg c = .ub w ∧ build cfg c' = .ub w := by
  by_cases hr : c.refs = []
  · have hr' : c'.refs = [] := by
      by_contra hne
      cases hrs : c'.refs with
      | nil => exact hne hrs
      | cons p ps => exact refs_nil_of_box ((hb _ _).2 (box_of_refs hrs)) hr
    right
    exact ⟨"negative value converted to size_t", by unfold build; rw [hr], by unfold build; rw [hr']⟩
  · rcases build_cases hg hr with ⟨g, h⟩ | h
    · obtain ⟨g', h', ha⟩ := build_alike hg hb h
      exact .inl ⟨g, g', h, h', ha⟩
    · right
      have hr' : c'.refs ≠ [] := by
        cases hrs : c.refs with
        | nil => exact absurd hrs hr
        | cons p ps => exact refs_nil_of_box ((hb _ _).1 (box_of_refs hrs))
      rcases build_cases hg hr' with ⟨g', h'⟩ | h'
      · obtain ⟨g, hgo, -⟩ := build_alike hg hb.symm h'
        rw [h] at hgo; cases hgo
      · exact ⟨_, h, h'⟩

theorem startRay_alike {cfg : Cfg} {g g' : Grid} (h : Alike g g') (b e : Vec3 ℝ) : startRay cfg g' b e = startRay cfg g b e := by
  unfold startRay
  rw [h.minP]

theorem advance_alike {g g' : Grid} (h : Alike g g') (r : Ray) : advance g' r = advance g r := by
  unfold advance incrementIndex
  rw [h.size]

/-- Two casters that are at the same place of the same ray in two maps. -/
structure Twin (cfg : Cfg) (c c' : Cloud) (b e : Vec3 ℝ) (g g' : Grid) (r : Ray) : Prop where
  alike : Alike g g'
  ok : GridOK cfg.gridSize g c.refs
  ok' : GridOK cfg.gridSize g' c'.refs
  ray : r.maxMov ≤ r.pos ∨ ((∃ k, Dyn g r k) ∧ r.rayBegin = b ∧ r.dir = (e - b).normalized ∧ 0 < len (e - b))

theorem setRay_twin {cfg : Cfg} (hg : 0 < cfg.gridSize) {c c' : Cloud} (hb : SameBox c c') (b e : Vec3 ℝ) :
    (∃ g g' r, setRay cfg St.fresh (some c) b e = .ok ⟨some g, some r⟩ ∧
      setRay cfg St.fresh (some c') b e = .ok ⟨some g', some r⟩ ∧ Twin cfg c c' b e g g' r) ∨
    ∃ w, setRay cfg St.fresh (some c) b e = .ub w ∧ setRay cfg St.fresh (some c') b e = .ub w := by
  unfold setRay updatePointCloud
  have e0 : St.fresh.grid = none := rfl
  rw [e0]
  simp only
  rcases build_both hg hb with ⟨g, g', h, h', ha⟩ | ⟨w, h, h'⟩
  swap
  · right; rw [h, h']; exact ⟨w, rfl, rfl⟩
  rw [h, h']
  simp only [Outcome.bind_ok]
  have hw' : isPointWithinMap g' b ↔ isPointWithinMap g b := by
    unfold isPointWithinMap; rw [ha.minP, ha.maxP]
  have hG := (build_ok hg h).1
  have hG' := (build_ok hg h').1
  by_cases hw : isPointWithinMap g b
  · rw [if_neg (not_not.2 hw), if_neg (not_not.2 (hw'.2 hw)), startRay_alike ha]
    cases hs : startRay cfg g b e with
    | ok r =>
      have hst := startRay_ok hg hG hw hs
      exact .inl ⟨g, g', r, rfl, rfl, ha, hG, hG', .inr ⟨⟨_, hst.dyn⟩, hst.rayBegin, hst.dir, hst.len_pos⟩⟩
    | ub w => exact .inr ⟨w, rfl, rfl⟩
    | throws m =>
      exfalso
      have hi : ∀ x m, i32 x ≠ .throws m := by
        intro x m; unfold i32; split_ifs <;> simp
      have hbind : ∀ {A B : Type} (o : Outcome A) (f : A → Outcome B) m, (∀ m, o ≠ .throws m) → (∀ a m, f a ≠ .throws m) →
          o.bind f ≠ .throws m := by
        intro A B o f m h1 h2
        cases o with
        | ok a => exact h2 a m
        | ub w => intro h; cases h
        | throws m' => exact absurd rfl (h1 m')
      have hax : ∀ a b c m, axisIndex a b c ≠ .throws m := by
        intro a b c m
        unfold axisIndex; split_ifs
        · simp
        · exact hi _ _
      have htoi : ∀ a b c m, toIndex a b c ≠ .throws m := by
        intro a b c m
        unfold toIndex
        exact hbind _ _ _ (hax _ _ _) fun _ _ => hbind _ _ _ (hax _ _ _) fun _ _ => hbind _ _ _ (hax _ _ _) fun _ _ => by simp
      unfold startRay at hs
      split_ifs at hs
      exact hbind _ _ _ (htoi _ _ _) (fun _ _ => hbind _ _ _ (htoi _ _ _) fun _ _ => hbind _ _ _ (hi _) fun _ _ =>
        hbind _ _ _ (hi _) fun _ _ => hbind _ _ _ (hi _) fun _ _ => hbind _ _ _ (hi _) fun _ _ => hbind _ _ _ (hi _) fun _ _ =>
        hbind _ _ _ (hi _) fun _ _ => hbind _ _ _ (hi _) fun _ _ => hbind _ _ _ (hi _) fun _ _ => by simp) hs
  · left
    rw [if_pos hw, if_pos (fun h => hw (hw'.1 h))]
    exact ⟨g, g', _, rfl, rfl, ha, hG, hG', .inl le_rfl⟩

/-- The first point of a list of pointers that has a property of its position. -/
theorem refs_find (c : Cloud) (f : Vec3 ℝ → Bool) :
    (c.refs.find? fun p => f p.pos).map (fun p => (p.pos, p.label)) = c.pts.find? fun q => f q.1 := by
  unfold Cloud.refs
  rw [List.find?_map, Option.map_map]
  have key : ∀ (l : List (Vec3 ℝ × ℕ)) (k : ℕ), ((l.zipIdx k).find? ((fun p : MapPt => f p.pos) ∘ fun e => ⟨c.id, e.2, e.1.1, e.1.2⟩)).map
      ((fun p : MapPt => (p.pos, p.label)) ∘ fun e : (Vec3 ℝ × ℕ) × ℕ => ⟨c.id, e.2, e.1.1, e.1.2⟩) = l.find? fun q => f q.1 := by
    intro l
    induction l with
    | nil => intro k; rfl
    | cons q l ih =>
      intro k
      rw [List.zipIdx_cons, List.find?_cons, List.find?_cons]
      simp only [Function.comp_apply]
      cases f q.1 with
      | true => rfl
      | false => exact ih (k + 1)
  exact key c.pts 0

/-- One call on both casters. -/
theorem next_twin {cfg : Cfg} {c c' : Cloud} {b e : Vec3 ℝ} (hsame : alongRay cfg c b e = alongRay cfg c' b e)
    {g g' : Grid} {r : Ray} (h : Twin cfg c c' b e g g' r) :
    (∃ r2, r2.maxMov ≤ r2.pos ∧ getNext cfg ⟨some g, some r⟩ = .ok (none, ⟨some g, some r2⟩) ∧
      getNext cfg ⟨some g', some r⟩ = .ok (none, ⟨some g', some r2⟩)) ∨
    ∃ x x' r2, CastResult.seen x = CastResult.seen x' ∧ (x.collision = true → x.point.isSome) ∧
      r2.maxMov - r2.pos < r.maxMov - r.pos ∧ r.pos < r.maxMov ∧
      getNext cfg ⟨some g, some r⟩ = .ok (some x, ⟨some g, some r2⟩) ∧
      getNext cfg ⟨some g', some r⟩ = .ok (some x', ⟨some g', some r2⟩) ∧ Twin cfg c c' b e g g' r2 := by
  classical
  have hadv' := advance_alike h.alike r
  rcases hadv : advance g r with ⟨ok, r'⟩
  rw [hadv] at hadv'
  cases ok with
  | false =>
    left
    refine ⟨r', advance_false hadv, ?_, ?_⟩
    · simp only [getNext, hadv]
    · simp only [getNext, hadv']
  | true =>
    right
    rcases h.ray with hex | ⟨⟨k, D⟩, hbeg, hdir, hlen⟩
    · rw [advance_exhausted hex] at hadv; cases hadv
    · obtain ⟨hlt, a, e1, -, -, -, D', -⟩ := D.advance_true hadv
      have hsm : Ray.Same r r' := by have := advance_same g r; rwa [hadv] at this
      have hin' : InGrid g'.size r'.cur := by rw [h.alike.size]; exact D'.inGrid
      have hpos : r'.pos = r.pos + 1 ∧ r.pos < r.maxMov := by
        have hx := hadv
        unfold advance at hx
        simp only at hx
        rw [if_neg (by omega)] at hx
        unfold incrementIndex at hx
        simp only at hx
        split_ifs at hx
        · simp at hx
        simp only [Prod.mk.injEq, true_and] at hx
        rw [← hx]
        exact ⟨rfl, by omega⟩
      have hfind : ∀ (g0 : Grid) (c0 : Cloud), GridOK cfg.gridSize g0 c0.refs →
          ((g0.cells (flat g0.size r'.cur)).find? fun p => decide (nearRay cfg r'.rayBegin r'.dir p.pos)).map
            (fun p => (p.pos, p.label)) =
          (alongRay cfg c0 b e).find? fun q => decide (flat g0.size (cellOf cfg.gridSize g0.minP q.1) = flat g0.size r'.cur) := by
        intro g0 c0 hG
        rw [hG.cells_eq, List.find?_filter]
        refine Eq.trans (refs_find c0 fun v => decide (decide (flat g0.size (cellOf cfg.gridSize g0.minP v) = flat g0.size r'.cur) = true ∧
            decide (nearRay cfg r'.rayBegin r'.dir v) = true)) ?_
        unfold alongRay
        rw [List.find?_filter]
        congr 1
        funext q
        rw [hsm.rayBegin, hsm.dir, hbeg, hdir]
        simp only [decide_eq_true_eq, nearRay_iff hlen, decide_eq_decide]
        exact and_comm
      refine ⟨⟨fromIndex cfg.gridSize g.minP r'.cur, _, 1, _⟩, ⟨fromIndex cfg.gridSize g'.minP r'.cur, _, 1, _⟩, r', ?_, ?_, ?_,
        hpos.2, by simp only [getNext, hadv, hasIntersection_eq h.ok D'.inGrid, Outcome.bind_ok]; rfl,
        by simp only [getNext, hadv', hasIntersection_eq h.ok' hin', Outcome.bind_ok]; rfl,
        h.alike, h.ok, h.ok', .inr ⟨⟨_, D'⟩, by rw [hsm.rayBegin]; exact hbeg, by rw [hsm.dir]; exact hdir, hlen⟩⟩
      · have heq := hfind g c h.ok
        have heq' := hfind g' c' h.ok'
        rw [← hsame, h.alike.size, h.alike.minP, ← heq] at heq'
        unfold CastResult.seen
        simp only [Prod.mk.injEq, true_and]
        rw [h.alike.minP, h.alike.size]
        refine ⟨rfl, ?_, heq'.symm⟩
        have := congrArg Option.isSome heq'
        simpa using this.symm
      · intro hx; exact hx
      · rw [hsm.maxMov, hpos.1]; omega

end DDA
end Mcl3dl
