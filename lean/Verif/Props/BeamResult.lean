import Verif.Spec.BeamResult
import Verif.Props.LidarBeam
import Verif.Proofs.NodeReal
import Verif.Spec.NodeMarkers
import Verif.Props.KDRayHits

/-! # Property C163: where a beam was stopped -/

set_option linter.unusedSectionVars false

namespace Mcl3dl
namespace Lidar

variable {C : Type}

/-! ## The whole result belongs to the status -/

/-- The casters as the beam model sees them are those of `Model/Lidar`. -/
theorem ddaFull_plain (cfg : DDA.Cfg) (cloud : Option DDA.Cloud) : (ddaFull cfg cloud).plain = ddaCaster cfg cloud := by
  unfold ddaFull ddaCaster FullCaster.plain
  congr 1
  funext c
  simp only
  by_cases h : DDA.readsReleased cloud c
  · rw [if_pos h, if_pos h]; rfl
  · rw [if_neg h, if_neg h]
    cases DDA.getNext cfg c with
    | ok r => obtain ⟨_ | x, s⟩ := r <;> rfl
    | throws e => rfl
    | ub e => rfl

theorem kdFull_plain (cfg : KDRay.Cfg) (search : Vec3 ℝ → ℝ → Outcome (List (ℕ × ℝ))) (pts : List (Vec3 ℝ × ℕ)) :
    (kdFull cfg search pts).plain = kdCaster cfg search pts := by
  unfold kdFull kdCaster FullCaster.plain
  congr 1
  funext c
  cases c with
  | none => rfl
  | some s =>
    simp only
    cases KDRay.getNext cfg search pts.length s with
    | ok r => obtain ⟨_ | x, s⟩ := r <;> rfl
    | throws e => rfl
    | ub e => rfl

theorem beamRound_plain (b : Beam) (f : FullCaster C) (scan : Vec3 ℝ) (x : FullCast × C) :
    beamRound b f.plain scan x.2 =
      (resultRound b f scan x).bind fun r => .ok (r.map Prod.snd fun y => (y.1, y.2.2)) := by
  unfold beamRound resultRound FullCaster.plain
  simp only
  cases hn : f.next x.2 with
  | throws e => rfl
  | ub e => rfl
  | ok r =>
    obtain ⟨res, c⟩ := r
    simp only [Outcome.bind_ok]
    cases res with
    | none => rfl
    | some res =>
      simp only [Option.map_some, FullCast.plain]
      cases hc : res.collision with
      | false => simp
      | true =>
        simp only [Bool.not_true, Bool.false_eq_true, if_false]
        cases hp : res.point with
        | none => rfl
        | some q =>
          obtain ⟨p, l⟩ := q
          simp only
          by_cases h1 : l > b.params.filterLabelMax
          · rw [if_pos h1, if_pos h1]; rfl
          · rw [if_neg h1, if_neg h1]
            by_cases h2 : res.sinAngle > b.sinTotalRef
            · rw [if_pos h2, if_pos h2]
              by_cases h3 : (scan.x - p.x) ^ 2 + (scan.y - p.y) ^ 2 + (scan.z - p.z) ^ 2 < b.hitRangeSq
              · rw [if_pos h3, if_pos h3]; rfl
              · rw [if_neg h3, if_neg h3]; rfl
            · rw [if_neg h2, if_neg h2]; rfl

/-- C163: the out-parameter does not influence the status and the caster: without it the function is the one the
likelihood uses. -/
theorem C163_status (b : Beam) (f : FullCaster C) (lidar scan : Vec3 ℝ) (result : FullCast) (c : C) :
    getBeamStatus b f.plain lidar scan c =
      (getBeamResult b f lidar scan result c).bind fun r => .ok (r.1, r.2.2) := by
  unfold getBeamStatus getBeamResult
  show (f.setRay c lidar scan).bind _ = _
  cases f.setRay c lidar scan with
  | throws e => rfl
  | ub e => rfl
  | ok c1 =>
    simp only [Outcome.bind_ok]
    exact Node.loopO_map (step := resultRound b f scan) Prod.snd (fun y : BeamStatus × FullCast × C => (y.1, y.2.2))
      (beamRound_plain b f scan) (result, c1)

/-- C163: if the beam is stopped, the result is the first accepted collision; if not, it is the last result of the
caster, or the caller's if there is none. -/
theorem C163_result {b : Beam} {f : FullCaster C} {lidar scan : Vec3 ℝ} {result res : FullCast} {c c1 c2 c3 : C}
    {rs : List FullCast} {st : BeamStatus} (hs : f.setRay c lidar scan = .ok c1) (hc : FullCasts f c1 rs c2)
    (h : getBeamResult b f lidar scan result c = .ok (st, res, c3)) :
    (st = .long → res = rs.getLast?.getD result) ∧
    (st ≠ .long → ∃ pre post, rs = pre ++ res :: post ∧ Accepted b.params.filterLabelMax res.plain ∧
      res.point.isSome ∧ ∀ x ∈ pre, ¬ Accepted b.params.filterLabelMax x.plain) := by
  unfold getBeamResult at h
  rw [hs, Outcome.bind_ok] at h
  clear hs
  induction hc generalizing result with
  | done hn =>
    rw [loopO_eq] at h
    unfold resultRound at h
    simp only [hn, Outcome.bind_ok] at h
    cases h
    exact ⟨fun _ => rfl, fun h => absurd rfl h⟩
  | @more c c1 c' r rs hn hc ih =>
    have skip : ¬ Accepted b.params.filterLabelMax r.plain → loopO (resultRound b f scan) (r, c1) = .ok (st, res, c3) →
        (st = .long → res = (r :: rs).getLast?.getD result) ∧
        (st ≠ .long → ∃ pre post, r :: rs = pre ++ res :: post ∧ Accepted b.params.filterLabelMax res.plain ∧
          res.point.isSome ∧ ∀ x ∈ pre, ¬ Accepted b.params.filterLabelMax x.plain) := by
      intro ha h
      obtain ⟨g1, g2⟩ := ih h
      refine ⟨fun hl => ?_, fun hl => ?_⟩
      · rw [g1 hl]
        cases rs with
        | nil => rfl
        | cons a l =>
          rw [List.getLast?_cons_cons, List.getLast?_eq_some_getLast (List.cons_ne_nil a l)]
          rfl
      · obtain ⟨pre, post, e1, e2, e3, e4⟩ := g2 hl
        refine ⟨r :: pre, post, by rw [e1]; rfl, e2, e3, ?_⟩
        intro x hx
        rcases List.mem_cons.1 hx with rfl | hx
        · exact ha
        · exact e4 x hx
    rw [loopO_eq] at h
    unfold resultRound at h
    simp only [hn, Outcome.bind_ok] at h
    cases hcol : r.collision with
    | false =>
      rw [hcol] at h
      simp only [Bool.not_false, if_true, Outcome.bind_ok] at h
      exact skip (fun ha => by have := ha.1; simp [FullCast.plain, hcol] at this) h
    | true =>
      rw [hcol] at h
      simp only [Bool.not_true, Bool.false_eq_true, if_false] at h
      cases hp : r.point with
      | none => rw [hp] at h; cases h
      | some q =>
        obtain ⟨p, l⟩ := q
        rw [hp] at h
        simp only at h
        by_cases h1 : l > b.params.filterLabelMax
        · rw [if_pos h1] at h
          simp only [Outcome.bind_ok] at h
          refine skip (fun ha => ?_) h
          have := ha.2 p l hp
          omega
        · rw [if_neg h1] at h
          have hacc : Accepted b.params.filterLabelMax r.plain := by
            refine ⟨hcol, fun p' l' h' => ?_⟩
            have h' : r.point = some (p', l') := h'
            rw [hp] at h'
            cases h'
            omega
          have fin : ∀ st', st' ≠ BeamStatus.long → (Outcome.ok (st', r, c1) : Outcome (BeamStatus × FullCast × C)) = .ok (st, res, c3) →
              (st = .long → res = (r :: rs).getLast?.getD result) ∧
              (st ≠ .long → ∃ pre post, r :: rs = pre ++ res :: post ∧ Accepted b.params.filterLabelMax res.plain ∧
                res.point.isSome ∧ ∀ x ∈ pre, ¬ Accepted b.params.filterLabelMax x.plain) := by
            intro st' hst he
            cases he
            exact ⟨fun hl => absurd hl hst, fun _ => ⟨[], rs, rfl, hacc, by rw [hp]; rfl, by simp⟩⟩
          by_cases h2 : r.sinAngle > b.sinTotalRef
          · rw [if_pos h2] at h
            by_cases h3 : (scan.x - p.x) ^ 2 + (scan.y - p.y) ^ 2 + (scan.z - p.z) ^ 2 < b.hitRangeSq
            · rw [if_pos h3] at h
              exact fin .hit (by simp) h
            · rw [if_neg h3] at h
              exact fin .short (by simp) h
          · rw [if_neg h2] at h
            exact fin .totalReflection (by simp) h

theorem FullCasts.toPlain {f : FullCaster C} {c c' : C} {rs : List FullCast} (h : FullCasts f c rs c') :
    Casts f.plain c (rs.map FullCast.plain) c' := by
  induction h with
  | done hn => exact .done (by simp [FullCaster.plain, hn])
  | more hn _ ih => exact .more (by simp [FullCaster.plain, hn]) ih

/-- The rule of C66 for the result. -/
theorem C163_rule {b : Beam} {p : BeamParams} (hb : Beam.Reach p b) (hr : 0 ≤ p.hitRange) {f : FullCaster C}
    {lidar scan : Vec3 ℝ} {result res : FullCast} {c c1 c2 c3 : C} {rs : List FullCast} {st : BeamStatus}
    (hs : f.setRay c lidar scan = .ok c1) (hc : FullCasts f c1 rs c2)
    (hpt : ∀ r ∈ rs, r.collision = true → r.point.isSome)
    (h : getBeamResult b f lidar scan result c = .ok (st, res, c3)) (hst : st ≠ .long) :
    ∃ q l, res ∈ rs ∧ res.collision = true ∧ res.point = some (q, l) ∧ l ≤ p.filterLabelMax ∧
      (st = .totalReflection ↔ res.sinAngle ≤ Real.sin p.angTotalRef) ∧
      (st = .hit ↔ Real.sin p.angTotalRef < res.sinAngle ∧ dist scan q < p.hitRange) ∧
      (st = .short ↔ Real.sin p.angTotalRef < res.sinAngle ∧ p.hitRange ≤ dist scan q) := by
  obtain ⟨pre, post, e1, e2, e3, e4⟩ := (C163_result hs hc h).2 hst
  obtain ⟨hbp, _⟩ := hb.facts
  rw [hbp] at e2 e4
  obtain ⟨⟨q, l⟩, hq⟩ := Option.isSome_iff_exists.1 e3
  obtain ⟨st', c4, g1, _, g3⟩ := C66_classification hb hr (caster := f.plain) (lidar := lidar) (scan := scan) hs hc.toPlain (by
    intro r hr' hcol
    obtain ⟨x, hx, rfl⟩ := List.mem_map.1 hr'
    exact hpt x hx hcol)
  rw [C163_status b f lidar scan result c, h] at g1
  cases g1
  have := g3 (pre.map FullCast.plain) res.plain (post.map FullCast.plain) q l (by rw [e1]; simp) (by
    intro x hx
    obtain ⟨y, hy, rfl⟩ := List.mem_map.1 hx
    exact e4 y hy) e2 hq
  exact ⟨q, l, by rw [e1]; simp, e2.1, hq, e2.2 q l hq, this⟩

/-! ## With the DDA caster -/

/-- A DDA result, whole. -/
def wholeDDA (x : DDA.CastResult) : FullCast := ⟨x.pos, x.collision, x.sinAngle, x.point.map fun p => (p.pos, p.label)⟩

theorem ddaFull_next {cfg : DDA.Cfg} {c : DDA.Cloud} {s : DDA.St} (hJ : AllInto c s) :
    (ddaFull cfg (some c)).next s = (DDA.getNext cfg s).bind fun r => .ok (r.1.map wholeDDA, r.2) := by
  unfold ddaFull
  simp only
  rw [if_neg hJ.live]
  rfl

theorem fullCasts_of_nexts {cfg : DDA.Cfg} {c : DDA.Cloud} {k : ℕ} (hk : 0 < k)
    (rs : List DDA.CastResult) : ∀ {n : ℕ} {s s' : DDA.St}, AllInto c s →
    DDA.nexts cfg n s = .ok (rs.map some ++ List.replicate k none, s') →
    ∃ s2, FullCasts (ddaFull cfg (some c)) s (rs.map wholeDDA) s2 := by
  induction rs with
  | nil =>
    intro n s s' hJ h
    cases n with
    | zero =>
      simp only [DDA.nexts, Outcome.ok.injEq, Prod.mk.injEq] at h
      have := congrArg List.length h.1
      simp at this; omega
    | succ n =>
      rw [DDA.nexts] at h
      obtain ⟨⟨r, s1⟩, h1, h⟩ := DDA.bind_eq_ok h
      obtain ⟨b, h2, h⟩ := DDA.bind_eq_ok h
      obtain ⟨k, rfl⟩ : ∃ k', k = k' + 1 := ⟨k - 1, by omega⟩
      simp only [Outcome.ok.injEq, Prod.mk.injEq, List.map_nil, List.nil_append, List.replicate_succ,
        List.cons.injEq] at h
      obtain ⟨⟨rfl, -⟩, -⟩ := h
      exact ⟨s1, FullCasts.done (by rw [ddaFull_next hJ, h1]; rfl)⟩
  | cons r rs ih =>
    intro n s s' hJ h
    cases n with
    | zero =>
      simp only [DDA.nexts, Outcome.ok.injEq, Prod.mk.injEq] at h
      have := congrArg List.length h.1
      simp at this
    | succ n =>
      rw [DDA.nexts] at h
      obtain ⟨⟨r', s1⟩, h1, h⟩ := DDA.bind_eq_ok h
      obtain ⟨⟨l, s2⟩, h2, h⟩ := DDA.bind_eq_ok h
      simp only [Outcome.ok.injEq, Prod.mk.injEq, List.map_cons, List.cons_append, List.cons.injEq] at h
      obtain ⟨⟨rfl, rfl⟩, rfl⟩ := h
      obtain ⟨s3, h3⟩ := ih (fun g hg => hJ g (by rw [← getNext_grid h1]; exact hg)) h2
      exact ⟨s3, FullCasts.more (by rw [ddaFull_next hJ, h1]; rfl) h3⟩

theorem dda_fullCasts {cfg : DDA.Cfg} (hg : 0 < cfg.gridSize) {S : Set DDA.Cloud} (hS : DDA.StampsDiffer S)
    {s0 s : DDA.St} (h0 : DDA.Reachable cfg S s0) {c : DDA.Cloud} (hc : c ∈ S) {b e : Vec3 ℝ}
    (hs : DDA.setRay cfg s0 (some c) b e = .ok s) :
    ∃ (rs : List DDA.CastResult) (s2 : DDA.St), FullCasts (ddaFull cfg (some c)) s (rs.map wholeDDA) s2 ∧
      ∀ r ∈ rs, ∃ mn cell, DDA.ReportOK cfg c mn b e cell r := by
  obtain ⟨-, -, g, r, rfl, -, hG, hcase⟩ := DDA.setRay_inv hg (DDA.reachable_inv hg h0)
    (fun c' hc' => by cases hc'; exact hc) hs
  have hG := hG hS c rfl
  have hJ : AllInto c ⟨some g, some r⟩ := by
    intro g' hg' a p hp
    cases hg'
    rw [hG.cells_eq] at hp
    have := (List.mem_filter.1 hp).1
    unfold DDA.Cloud.refs at this
    obtain ⟨x, -, rfl⟩ := List.mem_map.1 this
    rfl
  rcases hcase with ⟨-, hz1, hz2⟩ | ⟨-, hst⟩
  · obtain ⟨s', hs'⟩ := DDA.nexts_exhausted cfg 1 g r (by omega)
    obtain ⟨s2, h2⟩ := fullCasts_of_nexts (c := c) one_pos [] (n := 1) (k := 1) hJ (by simpa using hs')
    exact ⟨[], s2, h2, by simp⟩
  · obtain ⟨s', hs'⟩ := DDA.nexts_eq hG (r.maxMov.toNat + 1) hst.dyn
    rw [hst.rayBegin, hst.dir] at hs'
    obtain ⟨p1, p2, p3, p4⟩ := DDA.cellPath_props (r.maxMov.toNat + 1) hst.dyn
    have hlen : (DDA.cellPath g (r.maxMov.toNat + 1) r).length < r.maxMov.toNat + 1 := by
      rcases lt_or_ge r.pos r.maxMov with hlt | hge
      · have := p4 hlt
        have := hst.pos
        omega
      · rw [DDA.cellPath_exhausted hge]; simp
    obtain ⟨s2, h2⟩ := fullCasts_of_nexts (c := c)
      (k := r.maxMov.toNat + 1 - (DDA.cellPath g (r.maxMov.toNat + 1) r).length) (by omega)
      ((DDA.cellPath g (r.maxMov.toNat + 1) r).map (DDA.resultAt cfg g b (e - b).normalized)) hJ
      (by rw [hs', List.map_map]; rfl)
    refine ⟨_, s2, h2, ?_⟩
    intro x hx
    obtain ⟨cell, hcell, rfl⟩ := List.mem_map.1 hx
    exact ⟨g.minP, cell, DDA.resultAt_ok hg hG hst.len_pos (p3 cell hcell)⟩

theorem dist_le_of_axes {x y : Vec3 ℝ} {r : ℝ} (hr : 0 ≤ r) (h : ∀ i : Fin 3, |x.get i - y.get i| ≤ r) :
    dist x y ≤ Real.sqrt 3 * r := by
  have h0 : |x.x - y.x| ≤ r := h 0
  have h1 : |x.y - y.y| ≤ r := h 1
  have h2 : |x.z - y.z| ≤ r := h 2
  unfold dist
  rw [show Real.sqrt 3 * r = Real.sqrt (3 * r ^ 2) by
    rw [Real.sqrt_mul (by norm_num), Real.sqrt_sq hr]]
  apply Real.sqrt_le_sqrt
  have e0 := sq_le_sq' (abs_le.1 h0).1 (abs_le.1 h0).2
  have e1 := sq_le_sq' (abs_le.1 h1).1 (abs_le.1 h1).2
  have e2 := sq_le_sq' (abs_le.1 h2).1 (abs_le.1 h2).2
  linarith

theorem dist_eq (x y : Vec3 ℝ) :
    dist x y = Dist.dist (!₂[x.x, x.y, x.z] : EuclideanSpace ℝ (Fin 3)) !₂[y.x, y.y, y.z] := by
  rw [EuclideanSpace.dist_eq, Fin.sum_univ_three]
  simp [dist, Real.dist_eq, sq_abs]

theorem dist_triangle' (x y z : Vec3 ℝ) : dist x z ≤ dist x y + dist y z := by
  rw [dist_eq, dist_eq, dist_eq]
  exact dist_triangle _ _ _

theorem dist_comm' (x y : Vec3 ℝ) : dist x y = dist y x := by
  rw [dist_eq, dist_eq]
  exact dist_comm _ _

/-- C163 with the DDA caster: where a beam is stopped is the centre of a cell of the map with the map point that stopped
it, at most half a cell diagonal away; after a HIT it is that close to the hit range around the measured point. -/
theorem C163_dda {cfg : DDA.Cfg} (hg : 0 < cfg.gridSize) {S : Set DDA.Cloud} (hS : DDA.StampsDiffer S)
    {s0 s3 : DDA.St} (h0 : DDA.Reachable cfg S s0) {c : DDA.Cloud} (hc : c ∈ S) {b : Beam} {p : BeamParams}
    (hb : Beam.Reach p b) (hr : 0 ≤ p.hitRange) {lidar scan : Vec3 ℝ} {result res : FullCast} {st : BeamStatus}
    (h : getBeamResult b (ddaFull cfg (some c)) lidar scan result s0 = .ok (st, res, s3)) (hst : st ≠ .long) :
    ∃ q ∈ c.refs, res.point = some (q.pos, q.label) ∧ q.label ≤ p.filterLabelMax ∧
      DDA.CloseToRay cfg.rayAngleHalf cfg.minDistThrSq lidar scan q.pos ∧
      dist res.pos q.pos ≤ Real.sqrt 3 * (cfg.gridSize / 2) ∧
      (st = .hit → dist scan q.pos < p.hitRange ∧ dist scan res.pos < p.hitRange + Real.sqrt 3 * (cfg.gridSize / 2)) ∧
      (st = .short → p.hitRange ≤ dist scan q.pos ∧ p.hitRange - Real.sqrt 3 * (cfg.gridSize / 2) ≤ dist scan res.pos) := by
  obtain ⟨s1, hs, _⟩ := Outcome.bind_eq_ok_iff.1 h
  obtain ⟨rs, s2, hcast, hrep⟩ := dda_fullCasts hg hS h0 hc hs
  obtain ⟨q, l, hmem, hcol, hq, hl, _, r2, r3⟩ := C163_rule hb hr (f := ddaFull cfg (some c)) hs hcast (by
    intro r hr' hcol
    obtain ⟨x, hx, rfl⟩ := List.mem_map.1 hr'
    obtain ⟨mn, cell, hR⟩ := hrep x hx
    obtain ⟨p, hp⟩ := hR.collision.1 hcol
    simp [wholeDDA, hp]) h hst
  obtain ⟨x, hx, rfl⟩ := List.mem_map.1 hmem
  obtain ⟨mn, cell, hR⟩ := hrep x hx
  have hq : x.point.map (fun p => (p.pos, p.label)) = some (q, l) := hq
  obtain ⟨m, hm, he⟩ := Option.map_eq_some_iff.1 hq
  cases he
  obtain ⟨l1, l2, href, hcube, hclose, _⟩ := hR.sound m hm
  have hd : dist x.pos m.pos ≤ Real.sqrt 3 * (cfg.gridSize / 2) := by
    refine dist_le_of_axes (by linarith) fun i => ?_
    have hc := hcube i
    rw [hR.pos i, abs_le]
    constructor <;> linarith [hc.1, hc.2]
  refine ⟨m, by rw [href]; simp, by simp [wholeDDA, hm], hl, hclose, hd, fun h => ?_, fun h => ?_⟩
  · have := (r2.1 h).2
    refine ⟨this, ?_⟩
    show dist scan x.pos < _
    have t := dist_triangle' scan m.pos x.pos
    rw [dist_comm' m.pos x.pos] at t
    linarith
  · have := (r3.1 h).2
    refine ⟨this, ?_⟩
    show _ ≤ dist scan x.pos
    have t := dist_triangle' scan x.pos m.pos
    linarith

/-! ## With the kd-tree caster -/

/-- A kd-tree cast result, whole. -/
def wholeKD (pts : List (Vec3 ℝ × ℕ)) (x : KDRay.CastResult) : FullCast :=
  ⟨x.pos, x.collision, x.sinAngle, x.point.bind fun i => pts[i]?⟩

theorem fullCasts_of_nexts_kd {cfg : KDRay.Cfg} {search : Vec3 ℝ → ℝ → Outcome (List (ℕ × ℝ))}
    {pts : List (Vec3 ℝ × ℕ)} {k : ℕ} (hk : 0 < k)
    (rs : List KDRay.CastResult) : ∀ {n : ℕ} {s s' : KDRay.St},
    KDRay.nexts cfg search pts.length n s = .ok (rs.map some ++ List.replicate k none, s') →
    ∃ s2, FullCasts (kdFull cfg search pts) (some s) (rs.map (wholeKD pts)) (some s2) := by
  induction rs with
  | nil =>
    intro n s s' h
    cases n with
    | zero =>
      simp only [KDRay.nexts, Outcome.ok.injEq, Prod.mk.injEq] at h
      have := congrArg List.length h.1
      simp at this; omega
    | succ n =>
      rw [KDRay.nexts] at h
      obtain ⟨⟨r, s1⟩, h1, h⟩ := DDA.bind_eq_ok h
      obtain ⟨b, h2, h⟩ := DDA.bind_eq_ok h
      obtain ⟨k, rfl⟩ : ∃ k', k = k' + 1 := ⟨k - 1, by omega⟩
      simp only [Outcome.ok.injEq, Prod.mk.injEq, List.map_nil, List.nil_append, List.replicate_succ,
        List.cons.injEq] at h
      obtain ⟨⟨rfl, -⟩, -⟩ := h
      exact ⟨s1, FullCasts.done (by simp [kdFull, h1])⟩
  | cons r rs ih =>
    intro n s s' h
    cases n with
    | zero =>
      simp only [KDRay.nexts, Outcome.ok.injEq, Prod.mk.injEq] at h
      have := congrArg List.length h.1
      simp at this
    | succ n =>
      rw [KDRay.nexts] at h
      obtain ⟨⟨r', s1⟩, h1, h⟩ := DDA.bind_eq_ok h
      obtain ⟨⟨l, s2⟩, h2, h⟩ := DDA.bind_eq_ok h
      simp only [Outcome.ok.injEq, Prod.mk.injEq, List.map_cons, List.cons_append, List.cons.injEq] at h
      obtain ⟨⟨rfl, rfl⟩, rfl⟩ := h
      obtain ⟨s3, h3⟩ := ih h2
      exact ⟨s3, FullCasts.more (by simp [kdFull, h1, wholeKD]) h3⟩

theorem resultAt_place {cfg : KDRay.Cfg} {search : Vec3 ℝ → ℝ → Outcome (List (ℕ × ℝ))} {n : ℕ} {pos inc : Vec3 ℝ}
    {r : KDRay.CastResult} (h : KDRay.resultAt cfg search n pos inc = .ok r) : r.pos = pos := by
  unfold KDRay.resultAt at h
  obtain ⟨r0, _, h⟩ := Outcome.bind_eq_ok_iff.1 h
  cases r0 with
  | nil => cases h; rfl
  | cons a l =>
    simp only at h
    split at h
    · cases h
    · obtain ⟨r1, _, h⟩ := Outcome.bind_eq_ok_iff.1 h
      cases r1 with
      | nil => cases h; rfl
      | cons a l => cases h; rfl

/-- C163 with the kd-tree caster and axis weights of at least 1: where a beam is stopped is one of the samples on the
ray, within `√2/2` of the largest grid size of the map point that stopped it, a nearest one; after a HIT it is that close
to the hit range around the measured point. -/
theorem C163_kdtree {cfg : KDRay.Cfg} (hrad : 0 ≤ cfg.gridMax) {search : Vec3 ℝ → ℝ → Outcome (List (ℕ × ℝ))} {w : Vec3 ℝ}
    (hw : 1 ≤ w.x ∧ 1 ≤ w.y ∧ 1 ≤ w.z) {pts : List (Vec3 ℝ × ℕ)}
    (hsearch : KDRay.ExactOver cfg (pts.map Prod.fst) w search) {b : Beam} {p : BeamParams} (hb : Beam.Reach p b)
    (hr : 0 ≤ p.hitRange) {lidar scan : Vec3 ℝ} (hne : 0 < DDA.len (scan - lidar)) {s0 s3 : Option KDRay.St}
    {result res : FullCast} {st : BeamStatus}
    (h : getBeamResult b (kdFull cfg search pts) lidar scan result s0 = .ok (st, res, s3)) (hst : st ≠ .long) :
    (∃ k : ℕ, res.pos = DDA.rayPoint lidar scan ((k + 1) * cfg.gridMin)) ∧
    ∃ q l, (q, l) ∈ pts ∧ res.point = some (q, l) ∧ l ≤ p.filterLabelMax ∧
      (∀ q' ∈ pts, weightedDist w res.pos q ≤ weightedDist w res.pos q'.1) ∧
      dist res.pos q < Real.sqrt 2 / 2 * cfg.gridMax ∧
      (st = .hit → dist scan q < p.hitRange ∧ dist scan res.pos < p.hitRange + Real.sqrt 2 / 2 * cfg.gridMax) ∧
      (st = .short → p.hitRange ≤ dist scan q ∧ p.hitRange - Real.sqrt 2 / 2 * cfg.gridMax < dist scan res.pos) := by
  obtain ⟨s1', hs, _⟩ := Outcome.bind_eq_ok_iff.1 h
  obtain ⟨s1, hs1, he⟩ := Outcome.bind_eq_ok_iff.1 (show (KDRay.setRay cfg lidar scan).bind _ = _ from hs)
  cases he
  obtain ⟨rs, s', h1, h2, h3⟩ := KDRay.C65_results hsearch hne hs1
    ((⌊(DDA.len (scan - lidar) + cfg.hitTolerance) / cfg.gridMin⌋ - 1).toNat + 1)
  rw [List.length_map] at h1 h3
  obtain ⟨s2, hcast⟩ := fullCasts_of_nexts_kd (by rw [h2]; omega) rs h1
  have hC : ∀ r ∈ rs, (∃ k : ℕ, r.pos = DDA.rayPoint lidar scan ((k + 1) * cfg.gridMin)) ∧
      (r.collision = true → ∃ id q l, r.point = some id ∧ pts[id]? = some (q, l) ∧
        weightedDist w r.pos q < cfg.radius ^ 2 ∧ ∀ q' ∈ pts, weightedDist w r.pos q ≤ weightedDist w r.pos q'.1) := by
    intro r hrm
    obtain ⟨k, hk, rfl⟩ := List.getElem_of_mem hrm
    have hres := h3 k hk
    have hpos : rs[k].pos = DDA.rayPoint lidar scan ((k + 1) * cfg.gridMin) := resultAt_place hres
    refine ⟨⟨k, hpos⟩, fun hcol => ?_⟩
    obtain ⟨c1, c2, c3⟩ := KDRay.C107_collision hsearch (by rw [List.length_map]; exact hres)
    obtain ⟨id, hid⟩ := c2.1 hcol
    obtain ⟨q, hq, hd, hn⟩ := c3 id hid
    rw [List.getElem?_map] at hq
    obtain ⟨⟨q', l⟩, hq1, rfl⟩ := Option.map_eq_some_iff.1 hq
    rw [hpos]
    exact ⟨id, q', l, hid, hq1, hd, fun x hx => hn _ (List.mem_map.2 ⟨x, hx, rfl⟩)⟩
  obtain ⟨q, l, hmem, hcol, hq, hl, _, r2, r3⟩ := C163_rule hb hr (f := kdFull cfg search pts) hs hcast (by
    intro r hr' hcol
    obtain ⟨x, hx, rfl⟩ := List.mem_map.1 hr'
    obtain ⟨id, q, l, hid, hq, _⟩ := (hC x hx).2 hcol
    simp [wholeKD, hid, hq]) h hst
  obtain ⟨x, hx, rfl⟩ := List.mem_map.1 hmem
  obtain ⟨hk, hx2⟩ := hC x hx
  obtain ⟨id, q', l', hid, hq', hd, hn⟩ := hx2 hcol
  have hqe : (q', l') = (q, l) := by
    have hq : (x.point.bind fun i => pts[i]?) = some (q, l) := hq
    rw [hid, Option.bind_some, hq'] at hq
    exact Option.some.inj hq
  cases hqe
  have hdist : dist x.pos q < Real.sqrt 2 / 2 * cfg.gridMax := by
    have hr0 : 0 ≤ cfg.radius := by unfold KDRay.Cfg.radius; positivity
    have e : Real.sqrt 2 / 2 * cfg.gridMax = cfg.radius := by unfold KDRay.Cfg.radius; ring
    rw [e]
    unfold dist
    rw [Real.sqrt_lt (by positivity) hr0]
    refine lt_of_le_of_lt ?_ hd
    have hsq : ∀ u v : ℝ, 1 ≤ u → v ^ 2 ≤ (u * v) ^ 2 := by
      intro u v hu
      rw [mul_pow]
      nlinarith [sq_nonneg v, sq_nonneg (u - 1), mul_nonneg (sub_nonneg.2 hu) (sq_nonneg v)]
    unfold weightedDist
    have a := hsq w.x (q.x - x.pos.x) hw.1
    have b := hsq w.y (q.y - x.pos.y) hw.2.1
    have c := hsq w.z (q.z - x.pos.z) hw.2.2
    nlinarith
  refine ⟨hk, q, l, List.mem_of_getElem? hq', hq, hl, hn, hdist, fun h => ?_, fun h => ?_⟩
  · have := (r2.1 h).2
    refine ⟨this, ?_⟩
    show dist scan x.pos < _
    have t := dist_triangle' scan q x.pos
    rw [dist_comm' q x.pos] at t
    linarith
  · have := (r3.1 h).2
    refine ⟨this, ?_⟩
    show _ < dist scan x.pos
    have t := dist_triangle' scan x.pos q
    linarith

/-- A beam of length 10 along a map point 0.3 beside its middle is stopped there. -/
theorem example_stopped : ∃ (search : Vec3 ℝ → ℝ → Outcome (List (ℕ × ℝ))) (st : BeamStatus) (res : FullCast)
    (s3 : Option KDRay.St),
    KDRay.ExactOver ⟨1, 1, 1, 1/2⟩ ([((⟨5, 3/10, 0⟩ : Vec3 ℝ), 0)].map Prod.fst) ⟨1, 1, 1⟩ search ∧
    0 < DDA.len ((⟨10, 0, 0⟩ : Vec3 ℝ) - ⟨0, 0, 0⟩) ∧
    getBeamResult (Beam.make exParams) (kdFull ⟨1, 1, 1, 1/2⟩ search [((⟨5, 3/10, 0⟩ : Vec3 ℝ), 0)]) ⟨0, 0, 0⟩ ⟨10, 0, 0⟩
      FullCast.default none = .ok (st, res, s3) ∧ st ≠ .long := by
  have hlen : DDA.len ((⟨10, 0, 0⟩ : Vec3 ℝ) - ⟨0, 0, 0⟩) = 10 := by
    show Real.sqrt ((10 - 0) ^ 2 + (0 - 0) ^ 2 + (0 - 0) ^ 2) = 10
    rw [show ((10:ℝ) - 0) ^ 2 + (0 - 0) ^ 2 + (0 - 0) ^ 2 = 10 ^ 2 by norm_num, Real.sqrt_sq (by norm_num)]
  have hmin : KDRay.Cfg.gridMin ⟨1, 1, 1, 1/2⟩ = 1 := by simp [KDRay.Cfg.gridMin]
  have hmax : KDRay.Cfg.gridMax ⟨1, 1, 1, 1/2⟩ = 1 := by simp [KDRay.Cfg.gridMax]
  have hfl : ⌊((10:ℝ) + 1 / 2) / 1⌋ = 10 := by norm_num [Int.floor_eq_iff]
  have hray : DDA.rayPoint ⟨0, 0, 0⟩ ⟨10, 0, 0⟩ 5 = ⟨5, 0, 0⟩ := by
    unfold DDA.rayPoint; rw [hlen]; norm_num
  choose f hf using fun (q : Vec3 ℝ) (r : ℝ) =>
    ChunkedKdtree.exactSearch_exists [(⟨5, 3/10, 0⟩ : Vec3 ℝ)] (weightedDist ⟨1, 1, 1⟩ q) r 1
  have hex : KDRay.ExactOver ⟨1, 1, 1, 1/2⟩ ([((⟨5, 3/10, 0⟩ : Vec3 ℝ), 0)].map Prod.fst) ⟨1, 1, 1⟩ (fun q r => .ok (f q r)) :=
    fun q r _ => ⟨_, rfl, hf q r⟩
  have hpos : 0 < DDA.len ((⟨10, 0, 0⟩ : Vec3 ℝ) - ⟨0, 0, 0⟩) := by rw [hlen]; norm_num
  obtain ⟨s, hs⟩ : ∃ s, KDRay.setRay ⟨1, 1, 1, 1/2⟩ ⟨0, 0, 0⟩ ⟨10, 0, 0⟩ = .ok s := by
    unfold KDRay.setRay
    rw [hmin, if_neg (by norm_num), DDA.norm_eq_len, hlen, hfl]
    have : DDA.i32 10 = .ok 10 := by simp [DDA.i32]
    rw [this, Outcome.bind_ok, if_neg]
    · exact ⟨_, rfl⟩
    · show ¬ ((10:ℝ) - 0) * (10 - 0) + (0 - 0) * (0 - 0) + (0 - 0) * (0 - 0) = 0
      norm_num
  obtain ⟨rs, s', h1, h2, h3⟩ := KDRay.C65_results hex hpos hs 10
  rw [List.length_map] at h1 h3
  rw [hlen, hmin, hfl] at h2
  obtain ⟨s2, hcast⟩ := fullCasts_of_nexts_kd (by rw [h2]; simp) rs h1
  have h4 : 4 < rs.length := by rw [h2]; decide
  have hres := h3 4 h4
  have hcol := (KDRay.C107_collision hex (by rw [List.length_map]; exact hres))
  have hray' : DDA.rayPoint ⟨0, 0, 0⟩ ⟨10, 0, 0⟩ (((4 : ℕ) + 1) * KDRay.Cfg.gridMin ⟨1, 1, 1, 1/2⟩) = ⟨5, 0, 0⟩ := by
    rw [hmin, ← hray]; norm_num
  have hc4 : rs[4].collision = true := by
    rw [hcol.1, hray']
    refine ⟨⟨5, 3/10, 0⟩, by simp, ?_⟩
    unfold weightedDist KDRay.Cfg.radius
    rw [hmax, show (Real.sqrt 2 * 1 / 2) ^ 2 = (Real.sqrt 2) ^ 2 / 4 by ring, Real.sq_sqrt (by norm_num)]
    norm_num
  obtain ⟨st, s3, g1, _⟩ := C66_kdtree hex (Beam.Reach.make (p := exParams)) (by norm_num [exParams]) hpos hs none
  have g1' := g1
  rw [← kdFull_plain, C163_status _ _ _ _ FullCast.default] at g1'
  obtain ⟨⟨st', res, s4⟩, g2, g3⟩ := Outcome.bind_eq_ok_iff.1 g1'
  cases g3
  refine ⟨_, st', res, s4, hex, hpos, g2, fun hl => ?_⟩
  have hset : (kdFull ⟨1, 1, 1, 1/2⟩ (fun q r => .ok (f q r)) [((⟨5, 3/10, 0⟩ : Vec3 ℝ), 0)]).plain.setRay none ⟨0, 0, 0⟩
      ⟨10, 0, 0⟩ = .ok (some s) := by
    show (KDRay.setRay _ _ _).bind _ = _
    rw [hs]; rfl
  obtain ⟨st2, c4, k1, k2, _⟩ := C66_classification (Beam.Reach.make (p := exParams)) (by norm_num [exParams]) hset
    hcast.toPlain (by
      intro r hr' hc
      obtain ⟨x, hx, rfl⟩ := List.mem_map.1 hr'
      obtain ⟨y, hy, rfl⟩ := List.mem_map.1 hx
      obtain ⟨k, hk, rfl⟩ := List.getElem_of_mem hy
      obtain ⟨c1, c2, c3⟩ := KDRay.C107_collision hex (by rw [List.length_map]; exact h3 k hk)
      obtain ⟨id, hid⟩ := c2.1 hc
      obtain ⟨q, hq, _⟩ := c3 id hid
      rw [List.getElem?_map] at hq
      obtain ⟨⟨q', l⟩, hq1, rfl⟩ := Option.map_eq_some_iff.1 hq
      simp [FullCast.plain, wholeKD, hid, hq1])
  rw [kdFull_plain, g1] at k1
  cases k1
  refine k2.1 hl (wholeKD _ rs[4]).plain (List.mem_map.2 ⟨_, List.mem_map.2 ⟨_, List.getElem_mem h4, rfl⟩, rfl⟩) ⟨hc4, ?_⟩
  intro p l hp
  have hp : (rs[4].point.bind fun i => [((⟨5, 3/10, 0⟩ : Vec3 ℝ), 0)][i]?) = some (p, l) := hp
  obtain ⟨i, _, hi⟩ := Option.bind_eq_some_iff.1 hp
  have := List.mem_of_getElem? hi
  simp at this
  simp [this.2]

end Lidar

namespace Node

variable {C : Type}

/-! ## The markers -/

/-- C163: the markers with the positions of the collisions are those of C125. -/
theorem C163_markers (b : Lidar.Beam) (f : Lidar.FullCaster C) (origins : List (Vec3 ℝ)) (e : State6 ℝ) (pts : List Point)
    (id : ℕ) (c : C) :
    rayMarkers b f.plain origins e pts id c =
      (fullRayMarkers b f origins e pts id c).bind fun r => .ok (r.1.map Marker.unplaced, r.2) := by
  induction pts generalizing id c with
  | nil => rfl
  | cons p ps ih =>
    rw [rayMarkers, fullRayMarkers]
    cases origins[p.attr]? with
    | none => rfl
    | some o =>
      simp only
      rw [Lidar.C163_status b f _ _ Lidar.FullCast.default]
      cases Lidar.getBeamResult b f (e.pos + e.rot.rotate o) p.pos Lidar.FullCast.default c with
      | throws m => rfl
      | ub m => rfl
      | ok r =>
        obtain ⟨st, res, c'⟩ := r
        simp only [Outcome.bind_ok]
        have hlen : (if st = .long then [] else [(⟨id, .collision, [], [collisionColor st]⟩ : Marker)]).length =
            (if st = .long then [] else [(⟨id, .collision, [res.pos], [collisionColor st]⟩ : Marker)]).length := by
          by_cases h : st = .long
          · rw [if_pos h, if_pos h]
          · rw [if_neg h, if_neg h]; rfl
        rw [hlen, ih]
        cases fullRayMarkers b f origins e ps _ c' with
        | throws m => rfl
        | ub m => rfl
        | ok rest =>
          simp only [Outcome.bind_ok]
          by_cases h : st = .long
          · simp [h, Marker.unplaced]
          · simp [h, Marker.unplaced]

/-- C163: there is one collision marker for each beam that is stopped, in the order of the beams, at the position of
its result, in the colour of its status. -/
theorem C163_places {b : Lidar.Beam} {f : Lidar.FullCaster C} {origins : List (Vec3 ℝ)} {e : State6 ℝ} {pts : List Point}
    {id : ℕ} {c c' : C} {ms : List Marker} (h : fullRayMarkers b f origins e pts id c = .ok (ms, c')) :
    ∃ rs : List (Lidar.BeamStatus × Lidar.FullCast), rs.length = pts.length ∧
      (∀ (i : ℕ) (p : Point) (r : Lidar.BeamStatus × Lidar.FullCast), pts[i]? = some p → rs[i]? = some r →
        ∃ o c1 c2, origins[p.attr]? = some o ∧
          Lidar.getBeamResult b f (e.pos + e.rot.rotate o) p.pos Lidar.FullCast.default c1 = .ok (r.1, r.2, c2)) ∧
      (ofKind .collision ms).map (fun m => (m.pts, m.colors)) =
        (rs.filter fun r => decide (r.1 ≠ .long)).map fun r => ([r.2.pos], [hue r.1 (opacity r.1 (4 / 5))]) := by
  induction pts generalizing id c ms with
  | nil =>
    cases h
    exact ⟨[], rfl, by simp, by simp [ofKind]⟩
  | cons p ps ih =>
    rw [fullRayMarkers] at h
    cases ho : origins[p.attr]? with
    | none => rw [ho] at h; cases h
    | some o =>
      rw [ho] at h
      simp only at h
      obtain ⟨⟨st, res, c1⟩, h1, h⟩ := Outcome.bind_eq_ok_iff.1 h
      obtain ⟨⟨rest, c2⟩, h2, h⟩ := Outcome.bind_eq_ok_iff.1 h
      cases h
      obtain ⟨rs, e1, e2, e3⟩ := ih h2
      refine ⟨(st, res) :: rs, by simp [e1], ?_, ?_⟩
      · intro i q r hq hr
        cases i with
        | zero =>
          cases hq; cases hr
          exact ⟨o, c, c1, ho, h1⟩
        | succ i => exact e2 i q r hq hr
      · have hcol : st ≠ .long → collisionColor st = hue st (opacity st (4 / 5)) := by
          cases st <;> simp [collisionColor, hue, opacity] <;> norm_num
        by_cases hl : st = .long
        · subst hl
          simpa [ofKind] using e3
        · have := hcol hl
          simp only [ofKind] at e3 ⊢
          simp [hl, e3, this]

/-- The hypotheses of C163 are met, and the markers are published: one beam, stopped. -/
example : ∃ (search : Vec3 ℝ → ℝ → Outcome (List (ℕ × ℝ))) (ms : List Marker) (s : Option KDRay.St),
    fullRayMarkers (Lidar.Beam.make Lidar.exParams)
      (Lidar.kdFull ⟨1, 1, 1, 1/2⟩ search [((⟨5, 3/10, 0⟩ : Vec3 ℝ), 0)]) [⟨0, 0, 0⟩] State6.default
      [⟨⟨10, 0, 0⟩, 0⟩] 0 none = .ok (ms, s) ∧ (ofKind .collision ms).length = 1 := by
  obtain ⟨search, st, res, s3, _, _, h, hst⟩ := Lidar.example_stopped
  have hpos : (State6.default : State6 ℝ).pos + (State6.default : State6 ℝ).rot.rotate ⟨0, 0, 0⟩ = ⟨0, 0, 0⟩ := by
    rw [show (State6.default : State6 ℝ).rot = 1 from rfl, (Quat.C29_one 1 ⟨0, 0, 0⟩).2.2]
    show (⟨0 + 0, 0 + 0, 0 + 0⟩ : Vec3 ℝ) = _
    simp
  refine ⟨search, [⟨0, .collision, [res.pos], [collisionColor st]⟩, ⟨1, .ray, [⟨0, 0, 0⟩, ⟨10, 0, 0⟩], rayColors st⟩], s3, ?_, ?_⟩
  · simp only [fullRayMarkers, List.getElem?_cons_zero]
    rw [hpos, h]
    simp [hst]
  · simp [ofKind]

end Node
end Mcl3dl
