import Verif.Proofs.DDALocal
import Verif.Props.BeamResult

/-! # C183: what the grid ray caster takes from the map -/

set_option linter.unusedSectionVars false

namespace Mcl3dl
namespace DDA

theorem nexts_twin {cfg : Cfg} {c c' : Cloud} {b e : Vec3 ℝ} (hsame : alongRay cfg c b e = alongRay cfg c' b e) (n : ℕ) :
    ∀ {g g' : Grid} {r : Ray}, Twin cfg c c' b e g g' r →
    seenAnswers (nexts cfg n ⟨some g', some r⟩).answer = seenAnswers (nexts cfg n ⟨some g, some r⟩).answer := by
  induction n with
  | zero => intros; rfl
  | succ n ih =>
    intro g g' r h
    rcases next_twin hsame h with ⟨r2, hend, h1, h2⟩ | ⟨x, x', r2, hs, -, -, -, h1, h2, h3⟩
    · rw [nexts, nexts, h1, h2, Outcome.bind_ok, Outcome.bind_ok]
      obtain ⟨t, ht⟩ := nexts_exhausted cfg n g r2 hend
      obtain ⟨t', ht'⟩ := nexts_exhausted cfg n g' r2 hend
      simp only [ht, ht', Outcome.bind_ok, Outcome.answer]
    · have := ih h3
      rw [nexts, nexts, h1, h2, Outcome.bind_ok, Outcome.bind_ok]
      cases hx : nexts cfg n ⟨some g, some r2⟩ <;> cases hy : nexts cfg n ⟨some g', some r2⟩ <;> rw [hx, hy] at this <;>
        simp only [seenAnswers, Outcome.answer, Outcome.bind] at this ⊢ <;> first | exact this | cases this | skip
      simp only [Outcome.ok.injEq] at this
      simp only [List.map_cons, Option.map_some, hs, this]

/-- **C183**: two maps with the same smallest and largest coordinates and the same labelled points, in the same order, close
to the line of a ray give the same answers along the ray — whether it can be cast at all, the visited cells, where it
collides, with which position and label — whatever was cast before in either. -/
theorem C183_cast {cfg : Cfg} (hg : 0 < cfg.gridSize) {S S' : Set Cloud} (hS : StampsDiffer S) (hS' : StampsDiffer S')
    {s s' : St} (h : Reachable cfg S s) (h' : Reachable cfg S' s') {c c' : Cloud} (hc : c ∈ S) (hc' : c' ∈ S')
    {b e : Vec3 ℝ} (hbox : SameBox c c') (hsame : alongRay cfg c b e = alongRay cfg c' b e) (n : ℕ) :
    seenAnswers (castAnswers cfg c' b e n s') = seenAnswers (castAnswers cfg c b e n s) := by
  rw [C152_dda hg hS h hc, C152_dda hg hS' h' hc']
  unfold castAnswers
  rcases setRay_twin hg hbox b e with ⟨g, g', r, h1, h2, ht⟩ | ⟨w, h1, h2⟩
  · rw [h1, h2, Outcome.bind_ok, Outcome.bind_ok]
    exact nexts_twin hsame n ht
  · rw [h1, h2]

end DDA

namespace Lidar

theorem twin_into {cfg : DDA.Cfg} {g : DDA.Grid} {c : DDA.Cloud} (hG : DDA.GridOK cfg.gridSize g c.refs) (r : DDA.Ray) :
    AllInto c ⟨some g, some r⟩ := by
  intro g' hg' a p hp
  cases hg'
  rw [hG.cells_eq] at hp
  have := List.mem_of_mem_filter hp
  unfold DDA.Cloud.refs at this
  obtain ⟨x, -, rfl⟩ := List.mem_map.1 this
  rfl

theorem ofDDA_seen {x x' : DDA.CastResult} (h : x.seen = x'.seen) : ofDDA x = ofDDA x' := by
  unfold DDA.CastResult.seen at h
  simp only [Prod.mk.injEq] at h
  obtain ⟨-, h1, h2, h3⟩ := h
  unfold ofDDA
  rw [h1, h2, h3]

theorem loop_twin {b : Beam} {cfg : DDA.Cfg} {c c' : DDA.Cloud} {lidar scan : Vec3 ℝ}
    (hsame : DDA.alongRay cfg c lidar scan = DDA.alongRay cfg c' lidar scan) (k : ℕ) :
    ∀ {g g' : DDA.Grid} {r : DDA.Ray}, (r.maxMov - r.pos).toNat ≤ k → DDA.Twin cfg c c' lidar scan g g' r →
    (loopO (beamRound b (ddaCaster cfg (some c')) scan) ⟨some g', some r⟩).answer =
    (loopO (beamRound b (ddaCaster cfg (some c)) scan) ⟨some g, some r⟩).answer := by
  induction k with
  | zero =>
    intro g g' r hk _
    rw [status_ended (by omega), status_ended (by omega)]
  | succ k ih =>
    intro g g' r hk h
    have n1 := ddaCaster_next (cfg := cfg) (twin_into h.ok r)
    have n2 := ddaCaster_next (cfg := cfg) (twin_into h.ok' r)
    rcases DDA.next_twin hsame h with ⟨r2, hend, h1, h2⟩ | ⟨x, x', r2, hs, hpt, hlt, hpos, h1, h2, h3⟩
    · rw [h1, Outcome.bind_ok] at n1
      rw [h2, Outcome.bind_ok] at n2
      rw [beamRound_end b _ scan n1, beamRound_end b _ scan n2]; rfl
    · rw [h1, Outcome.bind_ok] at n1
      rw [h2, Outcome.bind_ok] at n2
      simp only [Option.map_some] at n1 n2
      rw [← ofDDA_seen hs] at n2
      have hrec := ih (g := g) (g' := g') (r := r2) (by omega) h3
      rw [loopO_eq, loopO_eq (s := (⟨some g, some r⟩ : DDA.St))]
      unfold beamRound at hrec ⊢
      rw [n1, n2]
      simp only [Outcome.bind_ok]
      cases hcol : (ofDDA x).collision with
      | false => exact hrec
      | true =>
        cases hp : (ofDDA x).point with
        | none => rfl
        | some y =>
          obtain ⟨p, l⟩ := y
          simp only [Bool.not_true, Bool.false_eq_true, if_false]
          by_cases hl : l > b.params.filterLabelMax
          · simp only [if_pos hl]; exact hrec
          · simp only [if_neg hl]
            split_ifs <;> rfl

theorem set_eq (b : Beam) (cfg : DDA.Cfg) (c : DDA.Cloud) (lidar scan : Vec3 ℝ) (s : DDA.St) :
    getBeamStatus b (ddaCaster cfg (some c)) lidar scan s =
      (DDA.setRay cfg s (some c) lidar scan).bind fun t => loopO (beamRound b (ddaCaster cfg (some c)) scan) t := rfl

theorem status_ok {b : Beam} {cfg : DDA.Cfg} {c : DDA.Cloud} {lidar scan : Vec3 ℝ} {s t : DDA.St}
    (h : DDA.setRay cfg s (some c) lidar scan = .ok t) : getBeamStatus b (ddaCaster cfg (some c)) lidar scan s =
      loopO (beamRound b (ddaCaster cfg (some c)) scan) t := by
  rw [set_eq, h, Outcome.bind_ok]

theorem status_ub {b : Beam} {cfg : DDA.Cfg} {c : DDA.Cloud} {lidar scan : Vec3 ℝ} {s : DDA.St} {w : String}
    (h : DDA.setRay cfg s (some c) lidar scan = .ub w) : getBeamStatus b (ddaCaster cfg (some c)) lidar scan s = .ub w := by
  rw [set_eq, h]; rfl

theorem fresh_twin {cfg : DDA.Cfg} (hg : 0 < cfg.gridSize) {c c' : DDA.Cloud} {lidar scan : Vec3 ℝ} (hbox : DDA.SameBox c c')
    (hsame : DDA.alongRay cfg c lidar scan = DDA.alongRay cfg c' lidar scan) (b : Beam) :
    (getBeamStatus b (ddaCaster cfg (some c')) lidar scan DDA.St.fresh).answer =
    (getBeamStatus b (ddaCaster cfg (some c)) lidar scan DDA.St.fresh).answer := by
  rcases DDA.setRay_twin hg hbox lidar scan with ⟨g, g', r, h1, h2, ht⟩ | ⟨w, h1, h2⟩
  · rw [status_ok h1, status_ok h2]
    exact loop_twin hsame _ le_rfl ht
  · rw [status_ub h1, status_ub h2]

/-- **C183**: … the same status of a beam … -/
theorem C183_beam {cfg : DDA.Cfg} (hg : 0 < cfg.gridSize) {S S' : Set DDA.Cloud} (hS : DDA.StampsDiffer S)
    (hS' : DDA.StampsDiffer S') {s s' : DDA.St} (h : DDA.Reachable cfg S s) (h' : DDA.Reachable cfg S' s')
    {c c' : DDA.Cloud} (hc : c ∈ S) (hc' : c' ∈ S') {lidar scan : Vec3 ℝ} (hbox : DDA.SameBox c c')
    (hsame : DDA.alongRay cfg c lidar scan = DDA.alongRay cfg c' lidar scan) (b : Beam) :
    (getBeamStatus b (ddaCaster cfg (some c')) lidar scan s').answer =
    (getBeamStatus b (ddaCaster cfg (some c)) lidar scan s).answer := by
  have e1 := (forgets_dda (b := b) hg hS hc).1 s DDA.St.fresh lidar scan h .fresh
  have e2 := (forgets_dda (b := b) hg hS' hc').1 s' DDA.St.fresh lidar scan h' .fresh
  exact e2.trans ((fresh_twin hg hbox hsame b).trans e1.symm)

/-- **C183**: … and the same likelihood of a scan: the maps have to agree along the beams, from the place of the sensor of
each point, `pose ∘ origin`, to the place of the point. -/
theorem C183_scan {cfg : DDA.Cfg} (hg : 0 < cfg.gridSize) {S S' : Set DDA.Cloud} (hS : DDA.StampsDiffer S)
    (hS' : DDA.StampsDiffer S') {st st' : DDA.St} (h : DDA.Reachable cfg S st) (h' : DDA.Reachable cfg S' st')
    {c c' : DDA.Cloud} (hc : c ∈ S) (hc' : c' ∈ S') (hbox : DDA.SameBox c c') (b : Beam) (s : State6 ℝ)
    (origins : List (Vec3 ℝ)) (pc : List (Pt ℝ ℕ))
    (hsame : ∀ p ∈ pc, ∀ o, origins[p.attr]? = some o →
      DDA.alongRay cfg c (s.pos + s.rot.rotate o) (s.rot.normalized.rotate p.pos + s.pos) =
      DDA.alongRay cfg c' (s.pos + s.rot.rotate o) (s.rot.normalized.rotate p.pos + s.pos)) :
    (b.measure (ddaCaster cfg (some c')) (some pc) origins s st').answer =
    (b.measure (ddaCaster cfg (some c)) (some pc) origins s st).answer := by
  have hloop : ∀ (qs : List (Pt ℝ ℕ)) (score : ℝ) (st st' : DDA.St), DDA.Reachable cfg S st → DDA.Reachable cfg S' st' →
      (∀ p ∈ qs, ∀ o, origins[p.attr]? = some o →
        DDA.alongRay cfg c (s.pos + s.rot.rotate o) p.pos = DDA.alongRay cfg c' (s.pos + s.rot.rotate o) p.pos) →
      (beamLoop b (ddaCaster cfg (some c')) origins s qs score st').answer =
      (beamLoop b (ddaCaster cfg (some c)) origins s qs score st).answer := by
    intro qs
    induction qs with
    | nil => intros; rfl
    | cons q qs ih =>
      intro score st st' h h' hq
      unfold beamLoop
      cases ho : origins[q.attr]? with
      | none => rfl
      | some o =>
        have h1 := C183_beam hg hS hS' h h' hc hc' hbox (hq q List.mem_cons_self o ho) b
        simp only
        cases ha : getBeamStatus b (ddaCaster cfg (some c)) (s.pos + s.rot.rotate o) q.pos st with
        | ok y =>
          obtain ⟨x, c1⟩ := y
          rw [ha] at h1
          obtain ⟨c2, hb⟩ := answer_ok.1 h1
          rw [hb, Outcome.bind_ok, Outcome.bind_ok]
          exact ih _ _ _ ((forgets_dda hg hS hc).2 _ _ _ _ _ h ha) ((forgets_dda hg hS' hc').2 _ _ _ _ _ h' hb)
            fun p hp => hq p (List.mem_cons_of_mem _ hp)
        | throws m =>
          rw [ha] at h1
          cases hb : getBeamStatus b (ddaCaster cfg (some c')) (s.pos + s.rot.rotate o) q.pos st' with
          | ok y => rw [hb] at h1; cases h1
          | throws m' => rw [hb] at h1; cases h1; rw [Outcome.bind_throws, Outcome.bind_throws]
          | ub w => rw [hb] at h1; cases h1
        | ub w =>
          rw [ha] at h1
          cases hb : getBeamStatus b (ddaCaster cfg (some c')) (s.pos + s.rot.rotate o) q.pos st' with
          | ok y => rw [hb] at h1; cases h1
          | throws m' => rw [hb] at h1; cases h1
          | ub w' => rw [hb] at h1; cases h1; rw [Outcome.bind_ub, Outcome.bind_ub]
  unfold Beam.measure
  simp only
  split_ifs
  · rfl
  · have h1 := hloop (s.transform pc) 1 st st' h h' (by
      intro q hq o ho
      unfold State6.transform at hq
      obtain ⟨p, hp, rfl⟩ := List.mem_map.1 hq
      exact hsame p hp o ho)
    cases ha : beamLoop b (ddaCaster cfg (some c)) origins s (s.transform pc) 1 st with
    | ok y =>
      rw [ha] at h1
      obtain ⟨c2, hb⟩ := answer_ok.1 h1
      rw [hb, Outcome.bind_ok, Outcome.bind_ok]; simp only [Outcome.answer]
    | throws m =>
      rw [ha] at h1
      cases hb : beamLoop b (ddaCaster cfg (some c')) origins s (s.transform pc) 1 st' with
      | ok y => rw [hb] at h1; cases h1
      | throws m' => rw [hb] at h1; cases h1; rw [Outcome.bind_throws]
      | ub w => rw [hb] at h1; cases h1
    | ub w =>
      rw [ha] at h1
      cases hb : beamLoop b (ddaCaster cfg (some c')) origins s (s.transform pc) 1 st' with
      | ok y => rw [hb] at h1; cases h1
      | throws m' => rw [hb] at h1; cases h1
      | ub w' => rw [hb] at h1; cases h1; rw [Outcome.bind_ub]

end Lidar

/-! ## Why the smallest and largest coordinates are part of the condition -/

namespace DDA
namespace LocalExample

/-- 1 m cells, map grid 0.1 m, no tolerance. -/
noncomputable def cfg : Cfg := ⟨1 / 10, 1 / 10, 1 / 10, 1, 0, 0⟩
noncomputable def mapA : Cloud := ⟨1, 7, [(⟨0, 0, 0⟩, 0), (⟨39 / 10, 0, 0⟩, 0), (⟨9, 6, 0⟩, 0)]⟩
/-- The same map with one point more, 6 m beside the ray. -/
noncomputable def mapB : Cloud := ⟨2, 8, [(⟨0, 0, 0⟩, 0), (⟨39 / 10, 0, 0⟩, 0), (⟨9, 6, 0⟩, 0), (⟨-(1 / 2), 6, 0⟩, 0)]⟩
/-- `mapA` with one point more that leaves its box as it is. -/
noncomputable def mapC : Cloud := ⟨3, 9, [(⟨0, 0, 0⟩, 0), (⟨39 / 10, 0, 0⟩, 0), (⟨9, 6, 0⟩, 0), (⟨5, 6, 0⟩, 4)]⟩
noncomputable def b : Vec3 ℝ := ⟨32 / 10, 0, 0⟩
noncomputable def e : Vec3 ℝ := ⟨52 / 10, 0, 0⟩

theorem boxA : IsBoundingBox (mapA.pts.map Prod.fst) ![0, 0, 0] ![9, 6, 0] := by
  constructor
  · intro p hp i
    simp only [mapA, List.map_cons, List.map_nil, List.mem_cons, List.not_mem_nil, or_false] at hp
    rcases hp with rfl | rfl | rfl <;> fin_cases i <;> norm_num [Vec3.get]
  · intro p hp i
    simp only [mapA, List.map_cons, List.map_nil, List.mem_cons, List.not_mem_nil, or_false] at hp
    rcases hp with rfl | rfl | rfl <;> fin_cases i <;> norm_num [Vec3.get]
  · intro i
    refine ⟨⟨0, 0, 0⟩, by simp [mapA], ?_⟩
    fin_cases i <;> simp [Vec3.get]
  · intro i
    refine ⟨⟨9, 6, 0⟩, by simp [mapA], ?_⟩
    fin_cases i <;> simp [Vec3.get]

theorem boxC : IsBoundingBox (mapC.pts.map Prod.fst) ![0, 0, 0] ![9, 6, 0] := by
  constructor
  · intro p hp i
    simp only [mapC, List.map_cons, List.map_nil, List.mem_cons, List.not_mem_nil, or_false] at hp
    rcases hp with rfl | rfl | rfl | rfl <;> fin_cases i <;> norm_num [Vec3.get]
  · intro p hp i
    simp only [mapC, List.map_cons, List.map_nil, List.mem_cons, List.not_mem_nil, or_false] at hp
    rcases hp with rfl | rfl | rfl | rfl <;> fin_cases i <;> norm_num [Vec3.get]
  · intro i
    refine ⟨⟨0, 0, 0⟩, by simp [mapC], ?_⟩
    fin_cases i <;> simp [Vec3.get]
  · intro i
    refine ⟨⟨9, 6, 0⟩, by simp [mapC], ?_⟩
    fin_cases i <;> simp [Vec3.get]

theorem boxB : IsBoundingBox (mapB.pts.map Prod.fst) ![-(1 / 2), 0, 0] ![9, 6, 0] := by
  constructor
  · intro p hp i
    simp only [mapB, List.map_cons, List.map_nil, List.mem_cons, List.not_mem_nil, or_false] at hp
    rcases hp with rfl | rfl | rfl | rfl <;> fin_cases i <;> norm_num [Vec3.get]
  · intro p hp i
    simp only [mapB, List.map_cons, List.map_nil, List.mem_cons, List.not_mem_nil, or_false] at hp
    rcases hp with rfl | rfl | rfl | rfl <;> fin_cases i <;> norm_num [Vec3.get]
  · intro i
    fin_cases i
    · exact ⟨⟨-(1 / 2), 6, 0⟩, by simp [mapB], by simp [Vec3.get]⟩
    · exact ⟨⟨0, 0, 0⟩, by simp [mapB], by simp [Vec3.get]⟩
    · exact ⟨⟨0, 0, 0⟩, by simp [mapB], by simp [Vec3.get]⟩
  · intro i
    refine ⟨⟨9, 6, 0⟩, by simp [mapB], ?_⟩
    fin_cases i <;> simp [Vec3.get]

theorem len_eb : len (e - b) = 2 := by
  unfold len e b
  change Real.sqrt ((52 / 10 - 32 / 10) ^ 2 + (0 - 0) ^ 2 + (0 - 0) ^ 2) = 2
  rw [show ((52 / 10 : ℝ) - 32 / 10) ^ 2 + (0 - 0) ^ 2 + (0 - 0) ^ 2 = 2 ^ 2 by norm_num]
  exact Real.sqrt_sq (by norm_num)

theorem rayPoint_eq (t : ℝ) : rayPoint b e t = ⟨32 / 10 + t, 0, 0⟩ := by
  unfold rayPoint
  rw [len_eb]
  apply Vec3.ext <;> norm_num [e, b]

theorem same_box : SameBox mapA mapC := by
  intro mn mx
  have key : ∀ {c : Cloud}, IsBoundingBox (c.pts.map Prod.fst) ![0, 0, 0] ![9, 6, 0] →
      (IsBoundingBox (c.pts.map Prod.fst) mn mx ↔ ![0, 0, 0] = mn ∧ ![9, 6, 0] = mx) := by
    intro c hc
    constructor
    · intro h
      exact ((isBox_iff _ _ _).2 hc).unique ((isBox_iff _ _ _).2 h)
    · rintro ⟨rfl, rfl⟩; exact hc
  rw [key boxA, key boxC]

theorem not_close {x : ℝ} : ¬ CloseToRay cfg.rayAngleHalf cfg.minDistThrSq b e ⟨x, 6, 0⟩ := by
  rintro ⟨s, D, ⟨hD, -⟩, h⟩
  rw [rayPoint_eq] at hD
  have h36 : 36 ≤ D := by rw [hD]; unfold distSq; nlinarith [sq_nonneg (x - (32 / 10 + s))]
  norm_num [cfg, Cfg.minDistThrSq] at h
  rcases h with h | h <;> linarith

theorem along_same : alongRay cfg mapA b e = alongRay cfg mapC b e ∧ alongRay cfg mapA b e = alongRay cfg mapB b e := by
  unfold alongRay mapA mapB mapC
  constructor <;> simp only [List.filter_cons, List.filter_nil, not_close, decide_false, Bool.false_eq_true, if_false]

theorem one (c : Cloud) : StampsDiffer {c} := by
  intro x hx y hy _
  rw [Set.mem_singleton_iff] at hx hy
  rw [hx, hy]

theorem setRay_okA : ∃ s, setRay cfg St.fresh (some mapA) b e = .ok s := by
  have : (setRay cfg St.fresh (some mapA) b e).isOk = true := by
    refine C58_setRay_defined (S := {mapA}) (by norm_num [cfg]) .fresh (one _) rfl boxA ?_ ?_ ?_ ?_
    · simp only [gridSize, cfg, Matrix.cons_val]; norm_num
    · intro i; fin_cases i <;> norm_num [gridSize, cfg]
    · intro h; have := congrArg Vec3.x h; norm_num [b, e] at this
    · intro i
      rw [rayPoint_eq, len_eb]
      fin_cases i <;> norm_num [cfg, Vec3.get]
  cases hh : setRay cfg St.fresh (some mapA) b e with
  | ok a => exact ⟨a, rfl⟩
  | throws m => rw [hh] at this; cases this
  | ub w => rw [hh] at this; cases this

theorem setRay_okB : ∃ s, setRay cfg St.fresh (some mapB) b e = .ok s := by
  have : (setRay cfg St.fresh (some mapB) b e).isOk = true := by
    have hfl : ⌊(19 / 2 : ℝ)⌋ = 9 := by rw [Int.floor_eq_iff]; norm_num
    refine C58_setRay_defined (S := {mapB}) (by norm_num [cfg]) .fresh (one _) rfl boxB ?_ ?_ ?_ ?_
    · simp only [gridSize, cfg, Matrix.cons_val]; norm_num [hfl]
    · intro i; fin_cases i <;> norm_num [gridSize, cfg, hfl]
    · intro h; have := congrArg Vec3.x h; norm_num [b, e] at this
    · intro i
      rw [rayPoint_eq, len_eb]
      fin_cases i <;> norm_num [cfg, Vec3.get, abs_le]
  cases hh : setRay cfg St.fresh (some mapB) b e with
  | ok a => exact ⟨a, rfl⟩
  | throws m => rw [hh] at this; cases this
  | ub w => rw [hh] at this; cases this

theorem hit_B : ∃ n rs x, castAnswers cfg mapB b e n St.fresh = .ok rs ∧ some x ∈ rs ∧ x.collision = true := by
  obtain ⟨s, hs⟩ := setRay_okB
  obtain ⟨bc, fc, N, hbc, hfc, hall⟩ := C60_covers (cfg := cfg) (S := {mapB}) (by norm_num [cfg]) (by norm_num [cfg]) (one _) .fresh rfl
    hs boxB (by intro i; fin_cases i <;> norm_num [b, Vec3.get])
  obtain ⟨path, rs, s', hn, hrep, hgridp, hcov⟩ := hall N le_rfl
  have hend := hfc (by rw [rayPoint_eq, len_eb]; intro i; fin_cases i <;> norm_num [cfg, Vec3.get])
  rw [rayPoint_eq, len_eb] at hend
  obtain ⟨cell, hcell, hin⟩ := hcov ⟨39 / 10, 0, 0⟩
    ⟨7 / 10, by norm_num, by rw [len_eb]; norm_num [cfg], by rw [rayPoint_eq]; norm_num⟩
    (by intro i; fin_cases i <;> norm_num [Vec3.get])
  have hx := hin 0
  have hbx := hbc 0
  have hex := hend 0
  norm_num [Vec3.get, cfg, b] at hx hbx hex
  have hc0 : cell 0 = 4 := by
    have a : (cell 0 : ℝ) < 5 := by linarith
    have c : (3 : ℝ) < cell 0 := by linarith
    have a' : cell 0 < 5 := by exact_mod_cast a
    have c' : 3 < cell 0 := by exact_mod_cast c
    omega
  have hb0 : bc 0 < 4 := by
    have a : (bc 0 : ℝ) < 4 := by linarith [hbx.1]
    exact_mod_cast a
  have hf0 : 4 < fc 0 := by
    have a : (4 : ℝ) < fc 0 := by linarith [hex.2]
    exact_mod_cast a
  have hmem : cell ∈ path := by
    simp only [List.mem_cons, List.mem_append, List.not_mem_nil, or_false] at hcell
    rcases hcell with h | h | h
    · subst h; omega
    · exact h
    · subst h; omega
  obtain ⟨k, hk, hget⟩ := List.getElem_of_mem hmem
  have hk2 : k < rs.length := by rw [← hrep.length_eq]; exact hk
  have hR := (List.forall₂_iff_get.1 hrep).2 k hk hk2
  simp only [List.get_eq_getElem] at hR
  rw [hget] at hR
  have hgrid := hgridp cell hmem
  have h1 : cell 1 = 0 := by
    have a := (hin 1).1
    have hge := (hgrid 1).1
    norm_num [Vec3.get, cfg] at a
    have : cell 1 ≤ 0 := by exact_mod_cast a
    omega
  have h2 : cell 2 = 0 := by
    have a := (hin 2).1
    have hge := (hgrid 2).1
    simp only [Matrix.cons_val] at a
    norm_num [Vec3.get, cfg] at a
    have : cell 2 ≤ 0 := by exact_mod_cast a
    omega
  refine ⟨N, _, rs[k], by unfold castAnswers; rw [hs, Outcome.bind_ok, hn]; rfl, by simp, ?_⟩
  refine hR.complete ⟨2, 1, ⟨39 / 10, 0, 0⟩, 0⟩ (by simp [Cloud.refs, mapB]) ?_ ?_
  · intro i
    fin_cases i
    · change (![-(1 / 2), 0, 0] : Fin 3 → ℝ) 0 + cell 0 * cfg.gridSize ≤ 39 / 10 ∧
        39 / 10 < (![-(1 / 2), 0, 0] : Fin 3 → ℝ) 0 + (cell 0 + 1) * cfg.gridSize
      rw [hc0]; norm_num [cfg]
    · change (![-(1 / 2), 0, 0] : Fin 3 → ℝ) 1 + cell 1 * cfg.gridSize ≤ 0 ∧
        0 < (![-(1 / 2), 0, 0] : Fin 3 → ℝ) 1 + (cell 1 + 1) * cfg.gridSize
      rw [h1]; norm_num [cfg]
    · change (![-(1 / 2), 0, 0] : Fin 3 → ℝ) 2 + cell 2 * cfg.gridSize ≤ 0 ∧
        0 < (![-(1 / 2), 0, 0] : Fin 3 → ℝ) 2 + (cell 2 + 1) * cfg.gridSize
      rw [h2]; simp [cfg]
  · refine ⟨7 / 10, 0, ⟨?_, fun t => ?_⟩, Or.inr (by norm_num [cfg, Cfg.minDistThrSq])⟩
    · rw [rayPoint_eq]; norm_num [distSq]
    · rw [rayPoint_eq]; unfold distSq; positivity

theorem no_hit_A (n : ℕ) : ∃ rs, castAnswers cfg mapA b e n St.fresh = .ok rs ∧ ∀ x, some x ∈ rs → x.collision = false := by
  obtain ⟨s, hs⟩ := setRay_okA
  have hg : (0 : ℝ) < cfg.gridSize := by norm_num [cfg]
  have hin : InsideBox ![0, 0, 0] ![9, 6, 0] b := by intro i; fin_cases i <;> norm_num [b, Vec3.get]
  obtain ⟨g, r, rfl, hmn, hmx, hG, hst, hn⟩ := ray_results (S := {mapA}) hg (one _) .fresh rfl hs boxA hin
  obtain ⟨s', hs'⟩ := hn n
  obtain ⟨p1, p2, p3, p4⟩ := cellPath_props n hst.dyn
  refine ⟨_, by unfold castAnswers; rw [hs, Outcome.bind_ok, hs']; rfl, ?_⟩
  have hbi : r.beginIdx = ![3, 0, 0] := by
    rw [hst.beginIdx, cellOf_iff hg (fun i => by rw [hmn]; exact (hin i).1), hmn]
    intro i; fin_cases i <;> norm_num [b, Vec3.get, cfg]
  have hei : r.endIdx = ![5, 0, 0] := by
    rw [hst.endIdx, rayPoint_eq, len_eb, cellOf_iff hg (fun i => by rw [hmn]; fin_cases i <;> norm_num [cfg, Vec3.get]), hmn]
    intro i; fin_cases i <;> norm_num [Vec3.get, cfg]
  have hmm : r.maxMov = 2 := by
    rw [hst.dyn.maxMov]; unfold Ray.dist; rw [hbi, hei]; simp
  have hlen : (cellPath g n r).length ≤ 1 := by
    have := p4 (by rw [hmm, hst.pos]; norm_num)
    rw [hmm, hst.pos] at this
    omega
  have hcells : ∀ cell ∈ cellPath g n r, cell 0 = 4 := by
    rw [hst.cur] at p2
    match hpath : cellPath g n r, hlen with
    | [], _ => simp
    | [d], _ =>
      rw [hpath] at p2
      have hd : Step r.beginIdx r.endIdx r.beginIdx d := by simpa using p2
      obtain ⟨a, hne, hda⟩ := hd
      rw [hbi, hei] at hne
      have ha : a = 0 := by
        fin_cases a
        · rfl
        · simp at hne
        · simp at hne
      subst ha
      intro cell hc
      rw [List.mem_singleton.1 hc, hda, hbi, hei]
      simp
    | _ :: _ :: _, h => simp at h
  intro x hx
  simp only [List.mem_append, List.mem_map, Option.some.injEq, List.mem_replicate, reduceCtorEq, and_false, or_false] at hx
  obtain ⟨cell, hc, rfl⟩ := hx
  have hR := resultAt_ok hg hG hst.len_pos (p3 cell hc)
  by_contra hcol
  obtain ⟨p, hp⟩ := hR.collision.1 (by simpa using hcol)
  obtain ⟨l, r', hlr, hcube, -, -⟩ := hR.sound p hp
  have hpm : p ∈ mapA.refs := by rw [hlr]; simp
  have h0 := hcube 0
  rw [hcells cell hc, hmn] at h0
  simp [Cloud.refs, mapA] at hpm
  rcases hpm with rfl | rfl | rfl <;> norm_num [Vec3.get, cfg] at h0

end LocalExample

/-- **C183**: the box matters: a map point 6 m beside a ray, which moves the corner of the grid, makes the ray collide with
another point that it missed before — the first cell of a ray is not looked into, and the corner decides which points are
in it. -/
theorem C183_box : ∃ (cfg : Cfg) (c c' : Cloud) (q : Vec3 ℝ × ℕ) (b e : Vec3 ℝ) (n : ℕ),
    0 < cfg.gridSize ∧ c'.pts = c.pts ++ [q] ∧ alongRay cfg c b e = alongRay cfg c' b e ∧ (∀ t, 36 ≤ distSq q.1 (rayPoint b e t)) ∧
    (∃ rs, castAnswers cfg c b e n St.fresh = .ok rs ∧ ∀ x, some x ∈ rs → x.collision = false) ∧
    ∃ rs x, castAnswers cfg c' b e n St.fresh = .ok rs ∧ some x ∈ rs ∧ x.collision = true := by
  obtain ⟨n, rs, x, h1, h2, h3⟩ := LocalExample.hit_B
  refine ⟨LocalExample.cfg, LocalExample.mapA, LocalExample.mapB, (⟨-(1 / 2), 6, 0⟩, 0), LocalExample.b, LocalExample.e, n,
    by norm_num [LocalExample.cfg], rfl, LocalExample.along_same.2, ?_, LocalExample.no_hit_A n, rs, x, h1, h2, h3⟩
  intro t
  rw [LocalExample.rayPoint_eq]; unfold distSq; nlinarith [sq_nonneg (-(1 / 2) - (32 / 10 + t))]

/-! ## Non-vacuity -/

/-- C183 applied: a further point that leaves the box as it is changes nothing, and the ray can be cast. -/
example (n : ℕ) : ∃ rs, seenAnswers (castAnswers LocalExample.cfg LocalExample.mapC LocalExample.b LocalExample.e n St.fresh) = .ok rs ∧
    seenAnswers (castAnswers LocalExample.cfg LocalExample.mapA LocalExample.b LocalExample.e n St.fresh) = .ok rs := by
  obtain ⟨rs, h, -⟩ := LocalExample.no_hit_A n
  refine ⟨_, ?_, by rw [h]; rfl⟩
  rw [C183_cast (by norm_num [LocalExample.cfg]) (LocalExample.one _) (LocalExample.one _) .fresh .fresh rfl rfl
    LocalExample.same_box LocalExample.along_same.1 n, h]
  rfl

end DDA
end Mcl3dl
