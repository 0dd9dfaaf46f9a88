import Verif.Spec.Lidar
import Verif.Props.DDA
import Verif.Props.KDRay

set_option linter.unusedSectionVars false

/-! # C66, C67, C68: the beam model -/

namespace Mcl3dl
namespace Lidar

/-! ## C66 -/

theorem beamRound_end {C : Type} (b : Beam) (caster : Caster C) (scan : Vec3 ℝ) {c c' : C}
    (h : caster.next c = .ok (none, c')) : loopO (beamRound b caster scan) c = .ok (.long, c') := by
  rw [loopO_eq]; unfold beamRound; rw [h]; rfl

theorem beamRound_skip {C : Type} (b : Beam) (caster : Caster C) (scan : Vec3 ℝ) {c c' : C} {r : Cast}
    (h : caster.next c = .ok (some r, c')) (hp : r.collision = true → r.point.isSome)
    (ha : ¬ Accepted b.params.filterLabelMax r) :
    loopO (beamRound b caster scan) c = loopO (beamRound b caster scan) c' := by
  rw [loopO_eq]; unfold beamRound; rw [h]
  simp only [Outcome.bind_ok]
  cases hc : r.collision with
  | false => simp
  | true =>
    obtain ⟨⟨p, l⟩, hpt⟩ := Option.isSome_iff_exists.1 (hp hc)
    have hl : l > b.params.filterLabelMax := by
      by_contra hl
      apply ha
      refine ⟨hc, ?_⟩
      intro p' l' h'
      rw [hpt] at h'; cases h'; omega
    simp [hpt, hl]

theorem beamRound_decide {C : Type} (b : Beam) (caster : Caster C) (scan : Vec3 ℝ) {c c' : C} {r : Cast}
    (h : caster.next c = .ok (some r, c')) {p : Vec3 ℝ} {l : ℕ} (hp : r.point = some (p, l))
    (ha : Accepted b.params.filterLabelMax r) :
    (r.sinAngle ≤ b.sinTotalRef → loopO (beamRound b caster scan) c = .ok (.totalReflection, c')) ∧
    (b.sinTotalRef < r.sinAngle →
      ((scan.x - p.x) ^ 2 + (scan.y - p.y) ^ 2 + (scan.z - p.z) ^ 2 < b.hitRangeSq →
        loopO (beamRound b caster scan) c = .ok (.hit, c')) ∧
      (b.hitRangeSq ≤ (scan.x - p.x) ^ 2 + (scan.y - p.y) ^ 2 + (scan.z - p.z) ^ 2 →
        loopO (beamRound b caster scan) c = .ok (.short, c'))) := by
  have hl : ¬ (l > b.params.filterLabelMax) := by
    have := ha.2 p l hp; omega
  rw [loopO_eq]; unfold beamRound; rw [h]
  simp only [Outcome.bind_ok, ha.1, hp, Bool.not_true, Bool.false_eq_true, if_false, if_neg hl]
  refine ⟨fun hs => ?_, fun hs => ⟨fun hd => ?_, fun hd => ?_⟩⟩
  · rw [if_neg (not_lt.2 hs)]; rfl
  · rw [if_pos hs, if_pos hd]; rfl
  · rw [if_pos hs, if_neg (not_lt.2 hd)]; rfl

/-- C66: the status of a beam from its cast results `rs` (all results until the caster returns false):
LONG iff none is an accepted collision, otherwise the first accepted collision decides. -/
theorem C66_classification {C : Type} {b : Beam} {p : BeamParams} (hb : Beam.Reach p b)
    (hr : 0 ≤ p.hitRange) {caster : Caster C} {lidar scan : Vec3 ℝ} {c c1 c2 : C} {rs : List Cast}
    (hs : caster.setRay c lidar scan = .ok c1) (hc : Casts caster c1 rs c2)
    (hpt : ∀ r ∈ rs, r.collision = true → r.point.isSome) :
    ∃ st c3, getBeamStatus b caster lidar scan c = .ok (st, c3) ∧
      (st = .long ↔ ∀ r ∈ rs, ¬ Accepted p.filterLabelMax r) ∧
      ∀ pre r post q l, rs = pre ++ r :: post → (∀ x ∈ pre, ¬ Accepted p.filterLabelMax x) →
        Accepted p.filterLabelMax r → r.point = some (q, l) →
        (st = .totalReflection ↔ r.sinAngle ≤ Real.sin p.angTotalRef) ∧
        (st = .hit ↔ Real.sin p.angTotalRef < r.sinAngle ∧ dist scan q < p.hitRange) ∧
        (st = .short ↔ Real.sin p.angTotalRef < r.sinAngle ∧ p.hitRange ≤ dist scan q) := by
  have hbp : b.params = p ∧ b.sinTotalRef = Real.sin p.angTotalRef ∧ b.hitRangeSq = p.hitRange ^ 2 := by
    induction hb with
    | make => exact ⟨rfl, rfl, rfl⟩
    | set _ _ _ ih => exact ih
  obtain ⟨hb1, hb2, hb3⟩ := hbp
  unfold getBeamStatus
  rw [hs]
  simp only [Outcome.bind_ok]
  clear hs
  induction hc with
  | done h =>
    refine ⟨_, _, beamRound_end b caster scan h, by simp, ?_⟩
    intro pre r post q l he; simp at he
  | @more c c1 c' r rs h hc ih =>
    by_cases ha : Accepted b.params.filterLabelMax r
    · obtain ⟨⟨q, l⟩, hq⟩ := Option.isSome_iff_exists.1 (hpt r (by simp) ha.1)
      have key : ∀ st c3, loopO (beamRound b caster scan) c = .ok (st, c3) → st ≠ .long →
          (st = .totalReflection ↔ r.sinAngle ≤ Real.sin p.angTotalRef) ∧
          (st = .hit ↔ Real.sin p.angTotalRef < r.sinAngle ∧ dist scan q < p.hitRange) ∧
          (st = .short ↔ Real.sin p.angTotalRef < r.sinAngle ∧ p.hitRange ≤ dist scan q) →
          ∃ st c3, loopO (beamRound b caster scan) c = .ok (st, c3) ∧
          (st = .long ↔ ∀ r' ∈ r :: rs, ¬ Accepted p.filterLabelMax r') ∧
          ∀ pre r' post q l, r :: rs = pre ++ r' :: post → (∀ x ∈ pre, ¬ Accepted p.filterLabelMax x) →
            Accepted p.filterLabelMax r' → r'.point = some (q, l) →
            (st = .totalReflection ↔ r'.sinAngle ≤ Real.sin p.angTotalRef) ∧
            (st = .hit ↔ Real.sin p.angTotalRef < r'.sinAngle ∧ dist scan q < p.hitRange) ∧
            (st = .short ↔ Real.sin p.angTotalRef < r'.sinAngle ∧ p.hitRange ≤ dist scan q) := by
        intro st c3 h1 h2 h3
        refine ⟨st, c3, h1, ?_, ?_⟩
        · constructor
          · intro h; exact absurd h h2
          · intro h; exact absurd (hb1 ▸ ha) (h r (by simp))
        · intro pre r' post q' l' he hpre _ hq'
          cases pre with
          | nil =>
            simp only [List.nil_append, List.cons.injEq] at he
            rw [← he.1] at hq' ⊢
            rw [hq] at hq'; cases hq'
            exact h3
          | cons x pre =>
            simp only [List.cons_append, List.cons.injEq] at he
            exact absurd (hb1 ▸ ha) (hpre r (by rw [he.1]; simp))
      obtain ⟨k1, k2⟩ := beamRound_decide b caster scan h hq ha
      have hdist : dist scan q < p.hitRange ↔
          (scan.x - q.x) ^ 2 + (scan.y - q.y) ^ 2 + (scan.z - q.z) ^ 2 < b.hitRangeSq := by
        unfold dist; rw [hb3]; exact Real.sqrt_lt (by positivity) hr
      rcases le_or_gt r.sinAngle b.sinTotalRef with hsn | hsn
      · refine key _ _ (k1 hsn) (by simp) ?_
        rw [hb2] at hsn
        simp [hsn, not_lt.2 hsn]
      · rcases lt_or_ge ((scan.x - q.x) ^ 2 + (scan.y - q.y) ^ 2 + (scan.z - q.z) ^ 2) b.hitRangeSq with hd | hd
        · refine key _ _ ((k2 hsn).1 hd) (by simp) ?_
          have hd' := hdist.2 hd
          rw [hb2] at hsn
          simp [hsn, hd', not_le.2 hsn, not_le.2 hd']
        · refine key _ _ ((k2 hsn).2 hd) (by simp) ?_
          have hd' : p.hitRange ≤ dist scan q := by
            rw [← not_lt, hdist]; exact not_lt.2 hd
          rw [hb2] at hsn
          simp [hsn, hd', not_le.2 hsn, not_lt.2 hd']
    · rw [beamRound_skip b caster scan h (hpt r (by simp)) ha]
      obtain ⟨st, c3, h1, h2, h3⟩ := ih (fun r hr => hpt r (by simp [hr]))
      rw [hb1] at ha
      refine ⟨st, c3, h1, ?_, ?_⟩
      · rw [h2]; simp [ha]
      · intro pre r' post q l he hpre hacc hq
        cases pre with
        | nil =>
          simp only [List.nil_append, List.cons.injEq] at he
          rw [he.1] at ha
          exact absurd hacc ha
        | cons x pre =>
          simp only [List.cons_append, List.cons.injEq] at he
          exact h3 pre r' post q l he.2 (fun x hx => hpre x (by simp [hx])) hacc hq

/-- The caster state after a beam keeps every property that casting keeps. -/
theorem getBeamStatus_inv {C : Type} {b : Beam} {caster : Caster C} {I : C → Prop}
    (h1 : ∀ c c' l s, I c → caster.setRay c l s = .ok c' → I c')
    (h2 : ∀ c c' r, I c → caster.next c = .ok (r, c') → I c') {lidar scan : Vec3 ℝ} {c c' : C} {st : BeamStatus}
    (hc : I c) (h : getBeamStatus b caster lidar scan c = .ok (st, c')) : I c' := by
  unfold getBeamStatus at h
  obtain ⟨c1, hs, h⟩ := DDA.bind_eq_ok h
  have key := loopO_inv (step := beamRound b caster scan) (I := I) (Q := fun r : BeamStatus × C => I r.2)
    ?_ ?_ (h1 _ _ _ _ hc hs) h
  · exact key
  · intro s s' hI hr
    unfold beamRound at hr
    obtain ⟨⟨r, s2⟩, hn, hr⟩ := DDA.bind_eq_ok hr
    have hI' := h2 _ _ _ hI hn
    cases r with
    | none => cases hr
    | some r =>
      simp only at hr
      split at hr
      · cases hr; exact hI'
      · split at hr
        · cases hr
        · split_ifs at hr <;> cases hr ; exact hI'
  · intro s o hI hr
    unfold beamRound at hr
    obtain ⟨⟨r, s2⟩, hn, hr⟩ := DDA.bind_eq_ok hr
    have hI' := h2 _ _ _ hI hn
    cases r with
    | none => cases hr; exact hI'
    | some r =>
      simp only at hr
      split at hr
      · cases hr
      · split at hr
        · cases hr
        · split_ifs at hr <;> cases hr <;> exact hI'

/-- The view of a DDA result that the beam model uses. -/
def ofDDA (x : DDA.CastResult) : Cast := ⟨x.collision, x.sinAngle, x.point.map fun p => (p.pos, p.label)⟩

/-- All pointers of the grid are into the cloud `c`. -/
def AllInto (c : DDA.Cloud) (s : DDA.St) : Prop := ∀ g, s.grid = some g → ∀ a, ∀ p ∈ g.cells a, p.cloud = c.id

theorem AllInto.live {c : DDA.Cloud} {s : DDA.St} (h : AllInto c s) : ¬ DDA.readsReleased (some c) s := by
  rintro ⟨g, r, r', a, p, hg, -, -, -, hp, hne⟩
  exact hne (by rw [h g hg a p (List.mem_of_mem_head? hp)]; rfl)

theorem getNext_grid {cfg : DDA.Cfg} {s s' : DDA.St} {r : Option DDA.CastResult}
    (h : DDA.getNext cfg s = .ok (r, s')) : s'.grid = s.grid := by
  unfold DDA.getNext at h
  split at h
  · rename_i g r0 hg hr
    split at h
    · cases h; exact hg.symm
    · obtain ⟨o, -, h⟩ := DDA.bind_eq_ok h
      cases h; exact hg.symm
  · cases h

theorem ddaCaster_next {cfg : DDA.Cfg} {c : DDA.Cloud} {s : DDA.St} (hJ : AllInto c s) :
    (ddaCaster cfg (some c)).next s = (DDA.getNext cfg s).bind fun r => .ok (r.1.map ofDDA, r.2) := by
  unfold ddaCaster
  simp only
  rw [if_neg hJ.live]
  rfl

theorem casts_of_nexts {cfg : DDA.Cfg} {c : DDA.Cloud} {k : ℕ} (hk : 0 < k)
    (rs : List DDA.CastResult) : ∀ {n : ℕ} {s s' : DDA.St}, AllInto c s →
    DDA.nexts cfg n s = .ok (rs.map some ++ List.replicate k none, s') →
    ∃ s2, Casts (ddaCaster cfg (some c)) s (rs.map ofDDA) s2 := by
  induction rs with
  | nil =>
    intro n s s' hJ h
    cases n with
    | zero =>
      simp only [DDA.nexts, Outcome.ok.injEq, Prod.mk.injEq] at h
      have := congrArg List.length h.1
      simp at this; omega
    | succ n =>
      rw [DDA.nexts] at h
      obtain ⟨⟨r, s1⟩, h1, h⟩ := DDA.bind_eq_ok h
      obtain ⟨b, h2, h⟩ := DDA.bind_eq_ok h
      obtain ⟨k, rfl⟩ : ∃ k', k = k' + 1 := ⟨k - 1, by omega⟩
      simp only [Outcome.ok.injEq, Prod.mk.injEq, List.map_nil, List.nil_append, List.replicate_succ,
        List.cons.injEq] at h
      obtain ⟨⟨rfl, -⟩, -⟩ := h
      exact ⟨s1, Casts.done (by rw [ddaCaster_next hJ, h1]; rfl)⟩
  | cons r rs ih =>
    intro n s s' hJ h
    cases n with
    | zero =>
      simp only [DDA.nexts, Outcome.ok.injEq, Prod.mk.injEq] at h
      have := congrArg List.length h.1
      simp at this
    | succ n =>
      rw [DDA.nexts] at h
      obtain ⟨⟨r', s1⟩, h1, h⟩ := DDA.bind_eq_ok h
      obtain ⟨⟨l, s2⟩, h2, h⟩ := DDA.bind_eq_ok h
      simp only [Outcome.ok.injEq, Prod.mk.injEq, List.map_cons, List.cons_append, List.cons.injEq] at h
      obtain ⟨⟨rfl, rfl⟩, rfl⟩ := h
      obtain ⟨s3, h3⟩ := ih (fun g hg => hJ g (by rw [← getNext_grid h1]; exact hg)) h2
      exact ⟨s3, Casts.more (by rw [ddaCaster_next hJ, h1]; rfl) h3⟩

/-- A DDA ray yields finitely many results, each correct for some cell of the map. -/
theorem dda_casts {cfg : DDA.Cfg} (hg : 0 < cfg.gridSize) {S : Set DDA.Cloud} (hS : DDA.StampsDiffer S)
    {s0 s : DDA.St} (h0 : DDA.Reachable cfg S s0) {c : DDA.Cloud} (hc : c ∈ S) {b e : Vec3 ℝ}
    (hs : DDA.setRay cfg s0 (some c) b e = .ok s) :
    ∃ (rs : List DDA.CastResult) (s2 : DDA.St), Casts (ddaCaster cfg (some c)) s (rs.map ofDDA) s2 ∧
      ∀ r ∈ rs, r.sinAngle = 1 ∧ ∃ mn cell, DDA.ReportOK cfg c mn b e cell r := by
  obtain ⟨-, -, g, r, rfl, -, hG, hcase⟩ := DDA.setRay_inv hg (DDA.reachable_inv hg h0)
    (fun c' hc' => by cases hc'; exact hc) hs
  have hG := hG hS c rfl
  have hJ : AllInto c ⟨some g, some r⟩ := by
    intro g' hg' a p hp
    cases hg'
    rw [hG.cells_eq] at hp
    have := (List.mem_filter.1 hp).1
    unfold DDA.Cloud.refs at this
    obtain ⟨x, -, rfl⟩ := List.mem_map.1 this
    rfl
  rcases hcase with ⟨-, hz1, hz2⟩ | ⟨-, hst⟩
  · obtain ⟨s', hs'⟩ := DDA.nexts_exhausted cfg 1 g r (by omega)
    obtain ⟨s2, h2⟩ := casts_of_nexts (c := c) one_pos [] (n := 1) (k := 1) hJ (by simpa using hs')
    exact ⟨[], s2, h2, by simp⟩
  · obtain ⟨s', hs'⟩ := DDA.nexts_eq hG (r.maxMov.toNat + 1) hst.dyn
    rw [hst.rayBegin, hst.dir] at hs'
    obtain ⟨p1, p2, p3, p4⟩ := DDA.cellPath_props (r.maxMov.toNat + 1) hst.dyn
    have hlen : (DDA.cellPath g (r.maxMov.toNat + 1) r).length < r.maxMov.toNat + 1 := by
      rcases lt_or_ge r.pos r.maxMov with hlt | hge
      · have := p4 hlt
        have := hst.pos
        omega
      · rw [DDA.cellPath_exhausted hge]; simp
    obtain ⟨s2, h2⟩ := casts_of_nexts (c := c)
      (k := r.maxMov.toNat + 1 - (DDA.cellPath g (r.maxMov.toNat + 1) r).length) (by omega)
      ((DDA.cellPath g (r.maxMov.toNat + 1) r).map (DDA.resultAt cfg g b (e - b).normalized)) hJ
      (by rw [hs', List.map_map]; rfl)
    refine ⟨_, s2, h2, ?_⟩
    intro x hx
    obtain ⟨cell, hcell, rfl⟩ := List.mem_map.1 hx
    exact ⟨rfl, g.minP, cell, DDA.resultAt_ok hg hG hst.len_pos (p3 cell hcell)⟩

/-- The first element with a property. -/
theorem first_split {X : Type*} (P : X → Prop) (l : List X) (h : ∃ r ∈ l, P r) :
    ∃ pre r post, l = pre ++ r :: post ∧ (∀ x ∈ pre, ¬ P x) ∧ P r := by
  classical
  induction l with
  | nil => obtain ⟨r, hr, -⟩ := h; simp at hr
  | cons a l ih =>
    by_cases ha : P a
    · exact ⟨[], a, l, rfl, by simp, ha⟩
    · obtain ⟨r, hr, hacc⟩ := h
      have hrl : r ∈ l := by
        rcases List.mem_cons.1 hr with rfl | h
        · exact absurd hacc ha
        · exact h
      obtain ⟨pre, r', post, e1, e2, e3⟩ := ih ⟨r, hrl, hacc⟩
      refine ⟨a :: pre, r', post, by rw [e1]; rfl, ?_, e3⟩
      intro x hx
      rcases List.mem_cons.1 hx with rfl | h
      · exact ha
      · exact e2 x h

/-- C66 with the DDA caster, end to end: evaluating a beam against a map cloud ends, leaves the caster
usable, and HIT / SHORT say that a map point with an accepted label close to the beam is nearer /
not nearer to the measured point than the hit range; a total reflection needs a total-reflection sine
of at least 1. -/
theorem C66_dda {cfg : DDA.Cfg} (hg : 0 < cfg.gridSize) {S : Set DDA.Cloud} (hS : DDA.StampsDiffer S)
    {s0 s1 : DDA.St} (h0 : DDA.Reachable cfg S s0) {c : DDA.Cloud} (hc : c ∈ S) {b : Beam} {p : BeamParams}
    (hb : Beam.Reach p b) (hr : 0 ≤ p.hitRange) {lidar scan : Vec3 ℝ}
    (hs : DDA.setRay cfg s0 (some c) lidar scan = .ok s1) :
    ∃ st s2, getBeamStatus b (ddaCaster cfg (some c)) lidar scan s0 = .ok (st, s2) ∧ DDA.Reachable cfg S s2 ∧
      (st = .hit → ∃ q ∈ c.refs, q.label ≤ p.filterLabelMax ∧ dist scan q.pos < p.hitRange ∧
        DDA.CloseToRay cfg.rayAngleHalf cfg.minDistThrSq lidar scan q.pos) ∧
      (st = .short → ∃ q ∈ c.refs, q.label ≤ p.filterLabelMax ∧ p.hitRange ≤ dist scan q.pos ∧
        DDA.CloseToRay cfg.rayAngleHalf cfg.minDistThrSq lidar scan q.pos) ∧
      (st = .totalReflection → 1 ≤ Real.sin p.angTotalRef) := by
  obtain ⟨rs, s2, hcast, hrep⟩ := dda_casts hg hS h0 hc hs
  have hpt : ∀ r ∈ rs.map ofDDA, r.collision = true → r.point.isSome := by
    intro r hr' hcol
    obtain ⟨x, hx, rfl⟩ := List.mem_map.1 hr'
    obtain ⟨-, mn, cell, hR⟩ := hrep x hx
    obtain ⟨q, hq⟩ := hR.collision.1 hcol
    simp [ofDDA, hq]
  obtain ⟨st, c3, h1, h2, h3⟩ := C66_classification hb hr
    (caster := ddaCaster cfg (some c)) (c := s0) (lidar := lidar) (scan := scan) hs hcast hpt
  refine ⟨st, c3, h1, ?_, ?_⟩
  · refine getBeamStatus_inv (I := DDA.Reachable cfg S) ?_ ?_ h0 h1
    · intro c1 c1' l s hI h
      exact DDA.Reachable.setRay hI (fun c' hc' => by cases hc'; exact hc) h
    · intro c1 c1' r hI h
      simp only [ddaCaster] at h
      split_ifs at h
      obtain ⟨⟨o, s'⟩, hn, h⟩ := DDA.bind_eq_ok h
      cases h
      exact DDA.Reachable.next hI hn
  · have hmain : st ≠ .long → ∃ q ∈ c.refs, q.label ≤ p.filterLabelMax ∧
        DDA.CloseToRay cfg.rayAngleHalf cfg.minDistThrSq lidar scan q.pos ∧
        (st = .totalReflection ↔ (1 : ℝ) ≤ Real.sin p.angTotalRef) ∧
        (st = .hit ↔ Real.sin p.angTotalRef < 1 ∧ dist scan q.pos < p.hitRange) ∧
        (st = .short ↔ Real.sin p.angTotalRef < 1 ∧ p.hitRange ≤ dist scan q.pos) := by
      intro hl
      rw [Ne, h2] at hl
      push Not at hl
      obtain ⟨pre, r, post, e1, e2, e3⟩ := first_split (Accepted p.filterLabelMax) _ hl
      have hmem : r ∈ rs.map ofDDA := by rw [e1]; simp
      obtain ⟨x, hx, hxr⟩ := List.mem_map.1 hmem
      obtain ⟨hsin, mn, cell, hR⟩ := hrep x hx
      obtain ⟨q, hq⟩ := hR.collision.1 (by rw [← hxr] at e3; exact e3.1)
      have hrq : r.point = some (q.pos, q.label) := by rw [← hxr]; simp [ofDDA, hq]
      obtain ⟨l', r', href, -, hclose, -⟩ := hR.sound q hq
      have := h3 pre r post q.pos q.label e1 e2 e3 hrq
      have hs1 : r.sinAngle = 1 := by rw [← hxr]; exact hsin
      rw [hs1] at this
      exact ⟨q, by rw [href]; simp, e3.2 _ _ hrq, hclose, this⟩
    refine ⟨fun h => ?_, fun h => ?_, fun h => ?_⟩
    · obtain ⟨q, hq, hl, hcl, -, hh, -⟩ := hmain (by rw [h]; simp)
      exact ⟨q, hq, hl, (hh.1 h).2, hcl⟩
    · obtain ⟨q, hq, hl, hcl, -, -, hh⟩ := hmain (by rw [h]; simp)
      exact ⟨q, hq, hl, (hh.1 h).2, hcl⟩
    · obtain ⟨q, hq, hl, hcl, hh, -, -⟩ := hmain (by rw [h]; simp)
      exact hh.1 h

/-- The view of a kd-tree cast result that the beam model uses. -/
def ofKD (pts : List (Vec3 ℝ × ℕ)) (x : KDRay.CastResult) : Cast :=
  ⟨x.collision, x.sinAngle, x.point.bind fun i => pts[i]?⟩

theorem casts_of_nexts_kd {cfg : KDRay.Cfg} {search : Vec3 ℝ → ℝ → Outcome (List (ℕ × ℝ))}
    {pts : List (Vec3 ℝ × ℕ)} {k : ℕ} (hk : 0 < k)
    (rs : List KDRay.CastResult) : ∀ {n : ℕ} {s s' : KDRay.St},
    KDRay.nexts cfg search pts.length n s = .ok (rs.map some ++ List.replicate k none, s') →
    ∃ s2, Casts (kdCaster cfg search pts) (some s) (rs.map (ofKD pts)) (some s2) := by
  induction rs with
  | nil =>
    intro n s s' h
    cases n with
    | zero =>
      simp only [KDRay.nexts, Outcome.ok.injEq, Prod.mk.injEq] at h
      have := congrArg List.length h.1
      simp at this; omega
    | succ n =>
      rw [KDRay.nexts] at h
      obtain ⟨⟨r, s1⟩, h1, h⟩ := DDA.bind_eq_ok h
      obtain ⟨b, h2, h⟩ := DDA.bind_eq_ok h
      obtain ⟨k, rfl⟩ : ∃ k', k = k' + 1 := ⟨k - 1, by omega⟩
      simp only [Outcome.ok.injEq, Prod.mk.injEq, List.map_nil, List.nil_append, List.replicate_succ,
        List.cons.injEq] at h
      obtain ⟨⟨rfl, -⟩, -⟩ := h
      exact ⟨s1, Casts.done (by simp [kdCaster, h1])⟩
  | cons r rs ih =>
    intro n s s' h
    cases n with
    | zero =>
      simp only [KDRay.nexts, Outcome.ok.injEq, Prod.mk.injEq] at h
      have := congrArg List.length h.1
      simp at this
    | succ n =>
      rw [KDRay.nexts] at h
      obtain ⟨⟨r', s1⟩, h1, h⟩ := DDA.bind_eq_ok h
      obtain ⟨⟨l, s2⟩, h2, h⟩ := DDA.bind_eq_ok h
      simp only [Outcome.ok.injEq, Prod.mk.injEq, List.map_cons, List.cons_append, List.cons.injEq] at h
      obtain ⟨⟨rfl, rfl⟩, rfl⟩ := h
      obtain ⟨s3, h3⟩ := ih h2
      exact ⟨s3, Casts.more (by simp [kdCaster, h1, ofKD]) h3⟩

/-- C66 with the kd-tree caster, end to end: evaluating a beam of positive length against a kd-tree
that answers exactly for the map points `pts` (position, label) ends, and HIT / SHORT say that a map
point with an accepted label within `√2/2` grid sizes of the beam is nearer / not nearer to the
measured point than the hit range. -/
theorem C66_kdtree {cfg : KDRay.Cfg} {search : Vec3 ℝ → ℝ → Outcome (List (ℕ × ℝ))} {w : Vec3 ℝ}
    {pts : List (Vec3 ℝ × ℕ)} (hsearch : KDRay.ExactOver cfg (pts.map Prod.fst) w search)
    {b : Beam} {p : BeamParams} (hb : Beam.Reach p b) (hr : 0 ≤ p.hitRange) {lidar scan : Vec3 ℝ}
    (hne : 0 < DDA.len (scan - lidar)) {s1 : KDRay.St} (hs : KDRay.setRay cfg lidar scan = .ok s1)
    (s0 : Option KDRay.St) :
    ∃ st s2, getBeamStatus b (kdCaster cfg search pts) lidar scan s0 = .ok (st, s2) ∧
      (st = .hit → ∃ q ∈ pts, q.2 ≤ p.filterLabelMax ∧ dist scan q.1 < p.hitRange ∧
        ∃ k : ℕ, weightedDist w (DDA.rayPoint lidar scan ((k + 1) * cfg.gridMin)) q.1 < cfg.radius ^ 2) ∧
      (st = .short → ∃ q ∈ pts, q.2 ≤ p.filterLabelMax ∧ p.hitRange ≤ dist scan q.1 ∧
        ∃ k : ℕ, weightedDist w (DDA.rayPoint lidar scan ((k + 1) * cfg.gridMin)) q.1 < cfg.radius ^ 2) := by
  obtain ⟨rs, s', h1, h2, h3⟩ := KDRay.C65_results hsearch hne hs
    ((⌊(DDA.len (scan - lidar) + cfg.hitTolerance) / cfg.gridMin⌋ - 1).toNat + 1)
  rw [List.length_map] at h1 h3
  obtain ⟨s2, hcast⟩ := casts_of_nexts_kd (by rw [h2]; omega) rs h1
  have hC : ∀ r ∈ rs, (r.collision = true → ∃ q l, (ofKD pts r).point = some (q, l)) ∧
      ∀ q l, (ofKD pts r).point = some (q, l) → (q, l) ∈ pts ∧ ∃ k : ℕ,
        weightedDist w (DDA.rayPoint lidar scan ((k + 1) * cfg.gridMin)) q < cfg.radius ^ 2 := by
    intro r hrm
    obtain ⟨k, hk, rfl⟩ := List.getElem_of_mem hrm
    have hres := h3 k hk
    obtain ⟨c1, c2, c3⟩ := KDRay.C107_collision hsearch (by rw [List.length_map]; exact hres)
    have hid : ∀ id, rs[k].point = some id → ∃ q l, pts[id]? = some (q, l) ∧
        weightedDist w (DDA.rayPoint lidar scan ((k + 1) * cfg.gridMin)) q < cfg.radius ^ 2 := by
      intro id hid
      obtain ⟨q, hq, hd, -⟩ := c3 id hid
      rw [List.getElem?_map] at hq
      obtain ⟨⟨q', l⟩, hq1, rfl⟩ := Option.map_eq_some_iff.1 hq
      exact ⟨q', l, hq1, hd⟩
    refine ⟨fun hcol => ?_, fun q l hq => ?_⟩
    · obtain ⟨id, hp⟩ := c2.1 hcol
      obtain ⟨q, l, hq, -⟩ := hid id hp
      exact ⟨q, l, by simp [ofKD, hp, hq]⟩
    · simp only [ofKD] at hq
      obtain ⟨id, hp, hq⟩ := Option.bind_eq_some_iff.1 hq
      obtain ⟨q', l', hq', hd⟩ := hid id hp
      rw [hq] at hq'; cases hq'
      exact ⟨List.mem_of_getElem? hq, k, hd⟩
  have hpt : ∀ r ∈ rs.map (ofKD pts), r.collision = true → r.point.isSome := by
    intro r hr' hcol
    obtain ⟨x, hx, rfl⟩ := List.mem_map.1 hr'
    obtain ⟨q, l, h⟩ := (hC x hx).1 hcol
    rw [h]; rfl
  have hset : (kdCaster cfg search pts).setRay s0 lidar scan = .ok (some s1) := by
    simp [kdCaster, hs]
  obtain ⟨st, c3, g1, g2, g3⟩ := C66_classification hb hr (caster := kdCaster cfg search pts) hset hcast hpt
  refine ⟨st, c3, g1, ?_⟩
  have hmain : st ≠ .long → ∃ q ∈ pts, q.2 ≤ p.filterLabelMax ∧
      (∃ k : ℕ, weightedDist w (DDA.rayPoint lidar scan ((k + 1) * cfg.gridMin)) q.1 < cfg.radius ^ 2) ∧
      (st = .hit → dist scan q.1 < p.hitRange) ∧ (st = .short → p.hitRange ≤ dist scan q.1) := by
    intro hl
    rw [Ne, g2] at hl
    push Not at hl
    obtain ⟨pre, r, post, e1, e2, e3⟩ := first_split (Accepted p.filterLabelMax) _ hl
    have hmem : r ∈ rs.map (ofKD pts) := by rw [e1]; simp
    obtain ⟨x, hx, hxr⟩ := List.mem_map.1 hmem
    obtain ⟨q, l, hq⟩ := (hC x hx).1 (by rw [← hxr] at e3; exact e3.1)
    obtain ⟨hq1, hq2⟩ := (hC x hx).2 q l hq
    rw [hxr] at hq
    obtain ⟨-, k2, k3⟩ := g3 pre r post q l e1 e2 e3 hq
    exact ⟨(q, l), hq1, e3.2 q l hq, hq2, fun h => (k2.1 h).2, fun h => (k3.1 h).2⟩
  refine ⟨fun h => ?_, fun h => ?_⟩
  · obtain ⟨q, hq, hl, hk, hh, -⟩ := hmain (by rw [h]; simp)
    exact ⟨q, hq, hl, hh h, hk⟩
  · obtain ⟨q, hq, hl, hk, -, hh⟩ := hmain (by rw [h]; simp)
    exact ⟨q, hq, hl, hh h, hk⟩

/-! ## C67 -/

theorem Beam.Reach.facts {p : BeamParams} {b : Beam} (h : Beam.Reach p b) :
    b.params = p ∧ b.beamLikelihood = beamRoot p.likelihoodMin p.numDefault := by
  induction h with
  | make => exact ⟨rfl, rfl⟩
  | set _ _ _ ih => exact ih

theorem beamRoot_mem {l : ℝ} (h0 : 0 < l) (h1 : l ≤ 1) (n : ℕ) : 0 ≤ beamRoot l n ∧ beamRoot l n ≤ 1 := by
  unfold beamRoot
  split_ifs
  · norm_num
  · norm_num
  · exact ⟨Real.rpow_nonneg h0.le _, Real.rpow_le_one h0.le h1 (by positivity)⟩

theorem beamLoop_eq {C : Type} {b : Beam} {caster : Caster C} {origins : List (Vec3 ℝ)} {s : State6 ℝ}
    (pts : List (Pt ℝ ℕ)) : ∀ (score : ℝ) (c : C) (x : ℝ) (c' : C),
    beamLoop b caster origins s pts score c = .ok (x, c') ↔
      ∃ sts, Statuses b caster origins s pts c sts c' ∧
        x = score * b.beamLikelihood ^ (sts.countP fun st => decide (Penalised b.params.shortOnly st)) := by
  induction pts with
  | nil =>
    intro score c x c'
    constructor
    · intro h; cases h; exact ⟨[], .nil, by simp⟩
    · rintro ⟨sts, h, rfl⟩; cases h; simp [beamLoop]
  | cons p ps ih =>
    intro score c x c'
    have hpen : ∀ st, b.penalises st = decide (Penalised b.params.shortOnly st) := by
      intro st
      unfold Beam.penalises Penalised
      cases st <;> cases b.params.shortOnly <;> decide
    constructor
    · intro h
      rw [beamLoop] at h
      split at h
      · cases h
      · rename_i o ho
        obtain ⟨⟨st, c1⟩, h1, h⟩ := DDA.bind_eq_ok h
        obtain ⟨sts, h2, rfl⟩ := (ih _ _ _ _).1 h
        refine ⟨st :: sts, .cons ho h1 h2, ?_⟩
        rw [List.countP_cons, hpen]
        by_cases hp : Penalised b.params.shortOnly st
        · simp [hp, pow_succ]; ring
        · simp [hp]
    · rintro ⟨sts, h, rfl⟩
      cases h with
      | @cons _ _ o _ c1 _ st sts ho h1 h2 =>
        rw [beamLoop, ho]
        simp only [h1, Outcome.bind_ok]
        rw [ih]
        refine ⟨sts, h2, ?_⟩
        rw [List.countP_cons, hpen]
        by_cases hp : Penalised b.params.shortOnly st
        · simp [hp, pow_succ]; ring
        · simp [hp]

/-- A measurement of a non-empty cloud: the likelihood in terms of the number of penalised beams. -/
theorem measure_eq {C : Type} {b : Beam} {caster : Caster C} {pc : List (Pt ℝ ℕ)} (hne : pc ≠ [])
    {origins : List (Vec3 ℝ)} {s : State6 ℝ} {c c' : C} {res : Result} :
    b.measure caster (some pc) origins s c = .ok (res, c') ↔
      ∃ sts, Statuses b caster origins s (s.transform pc) c sts c' ∧ res.quality = 1 ∧
        res.likelihood = max b.params.likelihoodMin
          (b.beamLikelihood ^ (sts.countP fun st => decide (Penalised b.params.shortOnly st))) := by
  have hlen : ¬ pc.length = 0 := by simpa using hne
  unfold Beam.measure
  simp only [if_neg hlen]
  have hmax : ∀ x : ℝ, (if x < b.params.likelihoodMin then b.params.likelihoodMin else x) = max b.params.likelihoodMin x := by
    intro x; split_ifs with h
    · rw [max_eq_left h.le]
    · rw [max_eq_right (not_lt.1 h)]
  constructor
  · intro h
    obtain ⟨⟨x, c1⟩, h1, h⟩ := DDA.bind_eq_ok h
    obtain ⟨sts, h2, rfl⟩ := (beamLoop_eq _ _ _ _ _).1 h1
    cases h
    exact ⟨sts, h2, rfl, by rw [one_mul, hmax]⟩
  · rintro ⟨sts, h2, h3, h4⟩
    rw [(beamLoop_eq _ _ _ _ _).2 ⟨sts, h2, rfl⟩]
    simp only [Outcome.bind_ok, one_mul, hmax, Outcome.ok.injEq, Prod.mk.injEq, and_true]
    rw [← h4, ← h3]

/-- C67: a measurement of a non-empty cloud has quality 1 and a likelihood between the configured
minimum and 1; the likelihood is 1 if no beam is penalised, and of two measurements the one with more
penalised beams does not have the larger likelihood. -/
theorem C67_bounds {C : Type} {p : BeamParams} (h0 : 0 < p.likelihoodMin) (h1 : p.likelihoodMin ≤ 1)
    {b : Beam} (hb : Beam.Reach p b) {caster : Caster C} {pc : List (Pt ℝ ℕ)} (hne : pc ≠ [])
    {origins : List (Vec3 ℝ)} {s : State6 ℝ} {c c' : C} {res : Result}
    (hm : b.measure caster (some pc) origins s c = .ok (res, c')) :
    res.quality = 1 ∧ p.likelihoodMin ≤ res.likelihood ∧ res.likelihood ≤ 1 ∧
    ∀ sts, Statuses b caster origins s (s.transform pc) c sts c' →
      ((∀ st ∈ sts, ¬ Penalised p.shortOnly st) → res.likelihood = 1) ∧
      ∀ (C' : Type) (caster' : Caster C') (b' : Beam) (pc' : List (Pt ℝ ℕ)) (origins' : List (Vec3 ℝ)) (s' : State6 ℝ)
        (d d' : C') (sts' : List BeamStatus) (res' : Result), Beam.Reach p b' → pc' ≠ [] →
        b'.measure caster' (some pc') origins' s' d = .ok (res', d') →
        Statuses b' caster' origins' s' (s'.transform pc') d sts' d' →
        sts.countP (fun st => decide (Penalised p.shortOnly st)) ≤
          sts'.countP (fun st => decide (Penalised p.shortOnly st)) → res'.likelihood ≤ res.likelihood := by
  have uniq : ∀ {C : Type} {b : Beam} {caster : Caster C} {origins : List (Vec3 ℝ)} {s : State6 ℝ}
      {pts : List (Pt ℝ ℕ)} {c c1 c2 : C} {l1 l2 : List BeamStatus}, Statuses b caster origins s pts c l1 c1 →
      Statuses b caster origins s pts c l2 c2 → l1 = l2 := by
    intro C b caster origins s pts c c1 c2 l1 l2 a1
    induction a1 generalizing l2 with
    | nil => intro a2; cases a2; rfl
    | cons ho hs _ ih =>
      intro a2
      cases a2 with
      | cons ho' hs' a2 =>
        rw [ho] at ho'; cases ho'
        rw [hs] at hs'; cases hs'
        rw [ih a2]
  obtain ⟨sts, hst, hq, hl⟩ := (measure_eq hne).1 hm
  obtain ⟨hp, hbl⟩ := hb.facts
  obtain ⟨r0, r1⟩ := beamRoot_mem h0 h1 p.numDefault
  rw [hp, hbl] at hl
  refine ⟨hq, by rw [hl]; exact le_max_left _ _, by rw [hl]; exact max_le h1 (pow_le_one₀ r0 r1), ?_⟩
  intro sts1 hst1
  rw [uniq hst1 hst]
  refine ⟨?_, ?_⟩
  · intro hnone
    have : sts.countP (fun st => decide (Penalised p.shortOnly st)) = 0 := by
      rw [List.countP_eq_zero]; simpa using hnone
    rw [hl, this, pow_zero, max_eq_right h1]
  · intro C' caster' b' pc' origins' s' d d' sts' res' hb' hne' hm' hst' hle
    obtain ⟨sts2, hst2, -, hl'⟩ := (measure_eq hne').1 hm'
    obtain ⟨hp', hbl'⟩ := hb'.facts
    rw [hp', hbl', uniq hst2 hst'] at hl'
    rw [hl, hl']
    exact max_le_max le_rfl (pow_le_pow_of_le_one r0 r1 hle)

/-- C67: an empty or missing cloud yields likelihood 1 and quality 0. -/
theorem C67_empty {C : Type} (b : Beam) (caster : Caster C) (origins : List (Vec3 ℝ)) (s : State6 ℝ) (c : C) :
    b.measure caster none origins s c = .ok (⟨1, 0⟩, c) ∧
    b.measure caster (some []) origins s c = .ok (⟨1, 0⟩, c) := ⟨rfl, by simp [Beam.measure]⟩

/-! ## C68 -/

/-- C68: with the configured number of points `N > 0` (whatever the number currently in effect, so also while it is
reduced for global localization), `n` penalised beams give the likelihood `min ^ (n / N)`, or `min` if they are
more than `N`. -/
theorem C68_likelihood {C : Type} {p : BeamParams} (h0 : 0 < p.likelihoodMin) (h1 : p.likelihoodMin ≤ 1)
    (hN : 0 < p.numDefault) {b : Beam} (hb : Beam.Reach p b) {caster : Caster C} {pc : List (Pt ℝ ℕ)} (hne : pc ≠ [])
    {origins : List (Vec3 ℝ)} {s : State6 ℝ} {c c' : C} {res : Result}
    (hm : b.measure caster (some pc) origins s c = .ok (res, c')) :
    ∃ sts, Statuses b caster origins s (s.transform pc) c sts c' ∧ sts.length = pc.length ∧
      res.likelihood = p.likelihoodMin ^
        min 1 ((sts.countP (fun st => decide (Penalised p.shortOnly st)) : ℝ) / p.numDefault) := by
  obtain ⟨sts, hst, hq, hl⟩ := (measure_eq hne).1 hm
  obtain ⟨hp, hbl⟩ := hb.facts
  have hlen2 : sts.length = pc.length := by
    have key : ∀ {pts : List (Pt ℝ ℕ)} {c c' : C} {sts}, Statuses b caster origins s pts c sts c' →
        sts.length = pts.length := by
      intro pts c c' sts h
      induction h with
      | nil => rfl
      | cons _ _ _ ih => simp [ih]
    rw [key hst]; simp [State6.transform]
  refine ⟨sts, hst, hlen2, ?_⟩
  rw [hl, hp, hbl]
  generalize sts.countP (fun st => decide (Penalised p.shortOnly st)) = n at *
  have hpow : beamRoot p.likelihoodMin p.numDefault ^ n = p.likelihoodMin ^ ((n : ℝ) / p.numDefault) := by
    unfold beamRoot
    rw [if_neg (by omega), ← Real.rpow_natCast, ← Real.rpow_mul h0.le]
    congr 1; ring
  rw [hpow]
  rcases le_total ((n : ℝ) / p.numDefault) 1 with h | h
  · rw [min_eq_right h, max_eq_right]
    calc p.likelihoodMin = p.likelihoodMin ^ (1 : ℝ) := (Real.rpow_one _).symm
      _ ≤ _ := Real.rpow_le_rpow_of_exponent_ge h0 h1 h
  · rw [min_eq_left h, Real.rpow_one, max_eq_left]
    calc p.likelihoodMin ^ ((n : ℝ) / p.numDefault) ≤ p.likelihoodMin ^ (1 : ℝ) :=
          Real.rpow_le_rpow_of_exponent_ge h0 h1 h
      _ = _ := Real.rpow_one _

/-- C68 for a configured number of 0 points (the number during global localization may be positive): the likelihood is the
minimum as soon as one beam is penalised, and 1 otherwise. -/
theorem C68_zero {C : Type} {p : BeamParams} (h0 : 0 < p.likelihoodMin) (h1 : p.likelihoodMin ≤ 1)
    (hN : p.numDefault = 0) {b : Beam} (hb : Beam.Reach p b) {caster : Caster C} {pc : List (Pt ℝ ℕ)} (hne : pc ≠ [])
    {origins : List (Vec3 ℝ)} {s : State6 ℝ} {c c' : C} {res : Result}
    (hm : b.measure caster (some pc) origins s c = .ok (res, c')) :
    ∃ sts, Statuses b caster origins s (s.transform pc) c sts c' ∧
      ((∃ st ∈ sts, Penalised p.shortOnly st) → res.likelihood = p.likelihoodMin) ∧
      ((∀ st ∈ sts, ¬ Penalised p.shortOnly st) → res.likelihood = 1) := by
  obtain ⟨sts, hst, hq, hl⟩ := (measure_eq hne).1 hm
  obtain ⟨hp, hbl⟩ := hb.facts
  refine ⟨sts, hst, ?_, ?_⟩
  · rintro ⟨st, hs, hpen⟩
    rw [hl, hp, hbl, hN]
    have hn : sts.countP (fun st => decide (Penalised p.shortOnly st)) ≠ 0 := by
      have : 0 < sts.countP (fun st => decide (Penalised p.shortOnly st)) :=
        List.countP_pos_iff.2 ⟨st, hs, by simpa using hpen⟩
      omega
    unfold beamRoot
    rw [if_pos rfl]
    split_ifs with h
    · rw [h, one_pow, max_self]
    · rw [zero_pow hn, max_eq_left h0.le]
  · intro hno
    rw [hl, hp]
    have hn : sts.countP (fun st => decide (Penalised p.shortOnly st)) = 0 :=
      List.countP_eq_zero.2 fun st hs => by simpa using hno st hs
    rw [hn, pow_zero, max_eq_right h1]

/-- A caster that never reports anything: what `RaycastUsingDDA` does for a sensor outside the map (C64). -/
def blind : Caster Unit := ⟨fun _ _ _ => .ok (), fun _ => .ok (none, ())⟩

theorem blind_long (b : Beam) (l s : Vec3 ℝ) : getBeamStatus b blind l s () = .ok (.long, ()) := by
  unfold getBeamStatus blind
  simp only [Outcome.bind_ok]
  exact beamRound_end b ⟨fun _ _ _ => .ok (), fun _ => .ok (none, ())⟩ s rfl

/-- Parameters of the examples: 4 beams normally, 2 during global localization. -/
noncomputable def exParams : BeamParams :=
  { numDefault := 4, numGlobal := 2, clip := ⟨0, 10, -1, 1⟩, likelihoodMin := 1 / 16, angTotalRef := 0
    hitRange := 1, shortOnly := false, filterLabelMax := 4294967295 }

/-- The example model while global localization is under way with 4 times the particles. -/
noncomputable def exGlobal : Beam := (Beam.make exParams).setGlobalLocalizationStatus 1 4

theorem blind_measure (b : Beam) (hp : b.params = exParams) (hbl : b.beamLikelihood = 1 / 2) :
    b.measure blind (some [⟨⟨1, 0, 0⟩, 0⟩, ⟨⟨2, 0, 0⟩, 0⟩]) [⟨0, 0, 0⟩] State6.default () = .ok (⟨1 / 4, 1⟩, ()) := by
  rw [measure_eq (by simp)]
  refine ⟨[.long, .long], ?_, rfl, ?_⟩
  · exact .cons rfl (blind_long b _ _) (.cons rfl (blind_long b _ _) .nil)
  · rw [hp, hbl]
    norm_num [Penalised, exParams, List.countP_cons]

/-- C68 during global localization: of 2 sampled beams both are penalised, and the likelihood is
not the minimum (1/16) but 1/4, because the number of beams in the exponent is the default one. -/
theorem C68_global_localization_example :
    Beam.Reach exParams exGlobal ∧ exGlobal.numPoints = 2 ∧
    ∃ res, exGlobal.measure blind (some [⟨⟨1, 0, 0⟩, 0⟩, ⟨⟨2, 0, 0⟩, 0⟩]) [⟨0, 0, 0⟩] State6.default () = .ok (res, ()) ∧
      (∃ sts, Statuses exGlobal blind [⟨0, 0, 0⟩] State6.default
        (State6.default.transform [⟨⟨1, 0, 0⟩, 0⟩, ⟨⟨2, 0, 0⟩, 0⟩]) () sts () ∧
        sts.length = exGlobal.numPoints ∧ ∀ st ∈ sts, Penalised exParams.shortOnly st) ∧
      res.likelihood ≠ exParams.likelihoodMin ^ ((2 : ℝ) / exGlobal.numPoints) := by
  have hroot : beamRoot (1 / 16) 4 = 1 / 2 := by
    unfold beamRoot
    rw [if_neg (by norm_num), show ((1 : ℝ) / 16) = (1 / 2) ^ (4 : ℕ) by norm_num, one_div ((4 : ℕ) : ℝ),
      Real.pow_rpow_inv_natCast (by norm_num) (by norm_num)]
  refine ⟨.set 1 4 .make, rfl, ⟨1 / 4, 1⟩, blind_measure _ rfl hroot, ⟨[.long, .long], ?_, rfl, ?_⟩, ?_⟩
  · exact .cons rfl (blind_long exGlobal _ _) (.cons rfl (blind_long exGlobal _ _) .nil)
  · intro st hst
    simp at hst
    subst hst
    exact Or.inr ⟨rfl, rfl⟩
  · have : exGlobal.numPoints = 2 := rfl
    rw [this]
    norm_num [exParams]

/-- C67, C68 applied to the example: two LONG beams of a cloud of two, four configured. -/
example : ∃ res : Result, (Beam.make exParams).measure blind (some [⟨⟨1, 0, 0⟩, 0⟩, ⟨⟨2, 0, 0⟩, 0⟩]) [⟨0, 0, 0⟩]
    State6.default () = .ok (res, ()) ∧ res.likelihood = 1 / 4 := by
  have hroot : beamRoot (1 / 16) 4 = 1 / 2 := by
    unfold beamRoot
    rw [if_neg (by norm_num), show ((1 : ℝ) / 16) = (1 / 2) ^ (4 : ℕ) by norm_num, one_div ((4 : ℕ) : ℝ),
      Real.pow_rpow_inv_natCast (by norm_num) (by norm_num)]
  exact ⟨_, blind_measure _ rfl hroot, rfl⟩

/-- C68_zero applied: 0 points configured, 2 during global localization: one LONG beam gives the minimum. -/
example : ∃ (b : Beam) (res : Result), Beam.Reach { exParams with numDefault := 0 } b ∧ b.numPoints = 2 ∧
    b.measure blind (some [⟨⟨1, 0, 0⟩, 0⟩]) [⟨0, 0, 0⟩] State6.default () = .ok (res, ()) ∧ res.likelihood = 1 / 16 := by
  have hR : Beam.Reach { exParams with numDefault := 0 }
      ((Beam.make { exParams with numDefault := 0 }).setGlobalLocalizationStatus 1 4) := .set 1 4 .make
  have hS : Statuses ((Beam.make { exParams with numDefault := 0 }).setGlobalLocalizationStatus 1 4) blind [⟨0, 0, 0⟩]
      State6.default (State6.default.transform [⟨⟨1, 0, 0⟩, 0⟩]) () [.long] () := .cons rfl (blind_long _ _ _) .nil
  have hm := (measure_eq (res := ⟨max (1 / 16) (((Beam.make { exParams with numDefault := 0 }).setGlobalLocalizationStatus 1 4).beamLikelihood ^ 1), 1⟩)
    (by simp)).2 ⟨_, hS, rfl, rfl⟩
  refine ⟨_, _, hR, rfl, hm, ?_⟩
  obtain ⟨sts, hsts, hpen, -⟩ := C68_zero (by norm_num [exParams]) (by norm_num [exParams]) rfl hR (by simp) hm
  refine hpen ?_
  cases hsts with
  | cons ho hst hrest =>
    cases hrest
    rw [blind_long] at hst
    cases hst
    exact ⟨.long, by simp, .inr ⟨rfl, rfl⟩⟩

/-- C66 applied: the map and ray of `DDA.Example`. -/
example : ∃ st s2, getBeamStatus (Beam.make exParams) (ddaCaster DDA.Example.cfg (some DDA.Example.map1))
    DDA.Example.b DDA.Example.e DDA.St.fresh = .ok (st, s2) := by
  obtain ⟨s1, hs1⟩ := DDA.Example.setRay_ok DDA.Reachable.fresh
  obtain ⟨st, s2, h, -⟩ := C66_dda (S := {DDA.Example.map1}) (by norm_num [DDA.Example.cfg]) DDA.Example.stampsDiffer
    DDA.Reachable.fresh rfl (Beam.Reach.make (p := exParams)) (by norm_num [exParams]) hs1
  exact ⟨st, s2, h⟩

end Lidar
end Mcl3dl
