import Verif.Spec.NodeMatch
import Verif.Props.NodeWeights

/-! # C100: matched and unmatched points -/

set_option linter.unusedSectionVars false

namespace Mcl3dl
namespace Node

variable {C : Type}

/-- What `splitMatch` makes of each point. -/
theorem splitMatch_ok {P : Params} {lib : Lib C} {m : MapSt} (pts : List Point) {r : List (Vec3 ℝ) × List (Vec3 ℝ)}
    (h : splitMatch P lib m pts = .ok r) (g : Vec3 ℝ → List (ℕ × ℝ))
    (hg : ∀ p ∈ pts, ∀ l, search P lib m p.pos P.unmatchOutputDist = .ok l → l = g p.pos) :
    (∀ p ∈ pts, search P lib m p.pos P.unmatchOutputDist = .ok (g p.pos)) ∧
    r.2 = (pts.map Pt.pos).filter (fun x => decide (g x = [])) ∧
    r.1 = (pts.map Pt.pos).filter (fun x => match g x with
      | [] => false
      | (_, sq) :: _ => decide (sq < P.matchOutputDist * P.matchOutputDist)) := by
  induction pts generalizing r with
  | nil =>
    simp only [splitMatch, Outcome.ok.injEq] at h
    rw [← h]; simp
  | cons p ps ih =>
    rw [splitMatch] at h
    obtain ⟨l, hl, h⟩ := Outcome.bind_eq_ok_iff.1 h
    obtain ⟨rest, hrest, h⟩ := Outcome.bind_eq_ok_iff.1 h
    obtain ⟨i0, i1, i2⟩ := ih hrest fun q hq => hg q (by simp [hq])
    have hlg := hg p (by simp) l hl
    refine ⟨?_, ?_⟩
    · intro q hq
      rcases List.mem_cons.1 hq with rfl | hq
      · rw [hl, hlg]
      · exact i0 q hq
    subst hlg
    simp only [List.map_cons, List.filter_cons]
    cases hgp : g p.pos with
    | nil =>
      rw [hgp] at h
      simp only [Outcome.ok.injEq] at h
      rw [← h]
      simp [i1, i2]
    | cons e l =>
      obtain ⟨id, sq⟩ := e
      rw [hgp] at h
      simp only at h
      split_ifs at h with hc
      · simp only [Outcome.ok.injEq] at h
        rw [← h]
        simp [i1, i2, hc]
      · simp only [Outcome.ok.injEq] at h
        rw [← h]
        simp [i1, i2, hc]

/-- The result of a search, or nothing. -/
noncomputable def found (P : Params) (lib : Lib C) (m : MapSt) (x : Vec3 ℝ) : List (ℕ × ℝ) :=
  match search P lib m x P.unmatchOutputDist with
  | .ok l => l
  | _ => []

/-- What a callback that publishes matched or unmatched points searched for. -/
theorem step_match {P : Params} {lib : Lib C} {env0 : Env} {motion0 : Motion ℝ} {h : History} {e : Event × Env}
    (hreg : RegularClouds (h ++ [e])) {n0 n : Node C} {outs : List (List Out)} {o : List Out}
    (hs : start P lib env0 motion0 = .ok n0) (hr : run P lib n0 (h ++ [e]) = .ok (n, outs ++ [o]))
    {b : List Scan} {s : Scan} (hb : (batchStep P (batchView P h).1 (batchView P h).2 e).1 = some (b ++ [s]))
    {t : Tf} (ht : e.2.tf P.baseFrame P.odomFrame s.header.stamp = some t)
    {stamp : ℝ} {frame : String} {pos : Vec3 ℝ} {rot : Quat ℝ} {cov : ℕ → ℕ → ℝ}
    (hp : .pose stamp frame pos rot cov ∈ o) :
    ∃ n1 outs1, run P lib n0 h = .ok (n1, outs1) ∧
      ((∀ st l, .matched st l ∉ o) ∧ (∀ st l, .unmatched st l ∉ o) ∨
        (∀ x ∈ placed P e.2 t (b ++ [s]) pos rot,
          search P lib n1.map x P.unmatchOutputDist = .ok (found P lib n1.map x)) ∧
        (∀ st l, .unmatched st l ∈ o → st = s.header.stamp ∧
          l = (placed P e.2 t (b ++ [s]) pos rot).filter fun x => decide (found P lib n1.map x = [])) ∧
        ∀ st l, .matched st l ∈ o → st = s.header.stamp ∧
          l = (placed P e.2 t (b ++ [s]) pos rot).filter fun x => match found P lib n1.map x with
            | [] => false
            | (_, sq) :: _ => decide (sq < P.matchOutputDist * P.matchOutputDist)) := by
  obtain ⟨n1, os, o1, h1, h2, h3⟩ := run_snoc_ok hr
  obtain ⟨hos, ho1⟩ := List.append_inj' h3 rfl
  simp only [List.cons.injEq, and_true] at ho1
  subst hos ho1
  refine ⟨n1, outs, h1, ?_⟩
  have hi := run_batchView (fun e he => hreg e (List.mem_append_left _ he)) h1 (start_batch hs)
  obtain ⟨_, _, hsome⟩ := step_batch hi (hreg e (by simp)) h2
  obtain ⟨_, acc, c, hh, hc, hcore⟩ := hsome _ hb
  obtain ⟨_, _, ⟨_, _, _, ho⟩ | ⟨_, hme⟩⟩ := measureCore_ok hcore
  · rw [ho] at hp; simp at hp
  have hlast : acc.headers.getLast? = some s.header := by rw [hh]; simp
  generalize n.loc = loc2 at hme
  generalize (freshen e.2 n1).loc = loc1 at hme
  cases hme with
  | noHeader _ => simp at hp
  | noTf _ _ _ => simp at hp
  | noOrigin _ _ _ _ => simp at hp
  | noPoints _ _ _ _ _ => simp [publishStatus] at hp
  | localized header p _ outs' hl hpr hne hloc =>
    rw [hlast] at hl
    simp only [Option.some.injEq] at hl
    subst hl
    obtain ⟨pts, t', hpts, ht', _, hcl, hfull, _⟩ := prepare_ready hpr
    rw [hc] at hpts
    rw [ht] at ht'
    simp only [Option.some.injEq] at hpts ht'
    subst hpts ht'
    obtain ⟨r, _, _, _, _, _, hmo, _, _, _, _, _, rfl⟩ := localize_ok hloc
    have hmm := matchOutput_only hmo
    have hnp : .pose stamp frame pos rot cov ∉ r.mo.2 := by
      intro hx; obtain ⟨s, l, hc | hc⟩ := hmm _ hx <;> cases hc
    have hpe : pos = (r.smooth P n1.odo loc1).pos ∧ rot = (r.smooth P n1.odo loc1).rot := by
      have : .pose stamp frame pos rot cov ∉ (if P.publishTf = true then
          [Out.transforms (transformsOf P (outStamp P n1.odo loc1.tolBase (e.2.now 1))
            (r.smooth P n1.odo loc1))] else []) := by split_ifs <;> simp
      simp only [List.mem_cons, List.mem_append, List.not_mem_nil, or_false, hnp, this, publishParticles, publishStatus,
        reduceCtorEq, false_or, Out.pose.injEq] at hp
      exact ⟨hp.2.2.1, hp.2.2.2.1⟩
    have hpl : ((r.final P n1.odo loc1).transform p.full).map Pt.pos = placed P e.2 t (b ++ [s]) pos rot := by
      rw [hpe.1, hpe.2, placed, State6.transform, hfull, hcl]
      simp [LocRun.final, Function.comp_def]
    have hin : ∀ x : Out, (∃ st l, x = .matched st l ∨ x = .unmatched st l) →
        (x ∈ (.batch true : Out) :: ([.markers r.marks.1] ++
          (if P.publishTf then
            [.transforms (transformsOf P (outStamp P n1.odo loc1.tolBase (e.2.now 1)) (r.smooth P n1.odo loc1))]
            else []) ++
          [.pose s.header.stamp P.mapFrame (r.smooth P n1.odo loc1).pos (r.smooth P n1.odo loc1).rot r.cov] ++ r.mo.2 ++
          [publishParticles P n1.odo loc1.tolBase (e.2.now 2) (r.pf2 P loc1),
            publishStatus (r.status P n1.stdWarn loc1) r.pf6]) ↔ x ∈ r.mo.2) := by
      rintro x ⟨st, l, rfl | rfl⟩ <;>
        cases P.publishTf <;> simp [publishParticles, publishStatus]
    rw [matchOutput] at hmo
    by_cases hcond : (loc1.matchLast + P.matchOutputInterval < s.header.stamp ∨ s.header.stamp + 1 < loc1.matchLast) ∧
        (e.2.subMatched ∨ e.2.subUnmatched)
    · right
      rw [if_pos hcond] at hmo
      obtain ⟨res, hsp, hmo⟩ := Outcome.bind_eq_ok_iff.1 hmo
      simp only [Outcome.ok.injEq] at hmo
      obtain ⟨g0, g1, g2⟩ := splitMatch_ok _ hsp (found P lib n1.map) (fun q _ l hl => by rw [found, hl])
      rw [hpl] at g1 g2
      have hall : ∀ x ∈ placed P e.2 t (b ++ [s]) pos rot,
          search P lib n1.map x P.unmatchOutputDist = .ok (found P lib n1.map x) := by
        intro x hx
        rw [← hpl] at hx
        obtain ⟨q, hq, rfl⟩ := List.mem_map.1 hx
        exact g0 q hq
      refine ⟨hall, fun st l hm => ?_, fun st l hm => ?_⟩
      · have := (hin _ ⟨st, l, .inr rfl⟩).1 hm
        rw [← hmo] at this
        have hx : Out.unmatched st l = .unmatched s.header.stamp res.2 := by
          simp at this
          simp [this.2]
        simp only [Out.unmatched.injEq] at hx
        exact ⟨hx.1, by rw [hx.2, g1]⟩
      · have := (hin _ ⟨st, l, .inl rfl⟩).1 hm
        rw [← hmo] at this
        have hx : Out.matched st l = .matched s.header.stamp res.1 := by
          simp at this
          simp [this.2]
        simp only [Out.matched.injEq] at hx
        exact ⟨hx.1, by rw [hx.2, g2]⟩
    · left
      rw [if_neg hcond] at hmo
      simp only [Outcome.ok.injEq] at hmo
      refine ⟨fun st l hm => ?_, fun st l hm => ?_⟩
      · have := (hin _ ⟨st, l, .inl rfl⟩).1 hm
        rw [← hmo] at this
        simp at this
      · have := (hin _ ⟨st, l, .inr rfl⟩).1 hm
        rw [← hmo] at this
        simp at this

/-- C100: no point is published both as matched and as unmatched, whatever the parameters and libraries. -/
theorem C100_disjoint {P : Params} {lib : Lib C} {env0 : Env} {motion0 : Motion ℝ} {h : History} {e : Event × Env}
    (hreg : RegularClouds (h ++ [e])) {n0 n : Node C} {outs : List (List Out)} {o : List Out}
    (hs : start P lib env0 motion0 = .ok n0) (hr : run P lib n0 (h ++ [e]) = .ok (n, outs ++ [o]))
    {b : List Scan} {s : Scan} (hb : (batchStep P (batchView P h).1 (batchView P h).2 e).1 = some (b ++ [s]))
    {t : Tf} (ht : e.2.tf P.baseFrame P.odomFrame s.header.stamp = some t)
    {stamp : ℝ} {frame : String} {pos : Vec3 ℝ} {rot : Quat ℝ} {cov : ℕ → ℕ → ℝ}
    (hp : .pose stamp frame pos rot cov ∈ o) {s1 s2 : ℝ} {l1 l2 : List (Vec3 ℝ)} (h1 : .matched s1 l1 ∈ o)
    (h2 : .unmatched s2 l2 ∈ o) :
    (∀ x ∈ l1, x ∉ l2) ∧ (∀ x ∈ l1 ++ l2, x ∈ placed P e.2 t (b ++ [s]) pos rot) ∧ s1 = s.header.stamp ∧
      s2 = s.header.stamp := by
  obtain ⟨n1, _, _, ⟨hn, _⟩ | ⟨_, hu, hm⟩⟩ := step_match hreg hs hr hb ht hp
  · exact absurd h1 (hn _ _)
  obtain ⟨e2, rfl⟩ := hu _ _ h2
  obtain ⟨e1, rfl⟩ := hm _ _ h1
  refine ⟨fun x hx hx' => ?_, fun x hx => ?_, e1, e2⟩
  · rw [List.mem_filter] at hx hx'
    have := hx'.2
    rw [decide_eq_true_eq] at this
    rw [this] at hx
    simp at hx
  · rcases List.mem_append.1 hx with hx | hx <;> exact (List.mem_filter.1 hx).1

open Classical in
/-- The map points less than the search range of the kd-tree beyond the border of the chunk of `x`. -/
noncomputable def inReach (P : Params) (map : List Point) (x : Vec3 ℝ) : List Point :=
  map.filter fun q => decide (ChunkedKdtree.Reach (kdCfg P) x q.pos)

theorem mem_inReach {P : Params} {map : List Point} {x : Vec3 ℝ} {q : Point} :
    q ∈ inReach P map x ↔ q ∈ map ∧ ChunkedKdtree.Reach (kdCfg P) x q.pos := by
  simp [inReach]

open Classical in
/-- C100 for every `unmatch_output_dist` up to the map chunk length (beyond that the search throws): the map points
considered for a point of the batch are those less than the search range beyond the border of its chunk; exactly
the points with none of these within `unmatch_output_dist` are published as unmatched, and exactly those with one
within both distances as matched. -/
theorem C100_reach {P : Params} (hR : 0 < (kdCfg P).maxSearchRadius)
    (h2 : 2 * (kdCfg P).maxSearchRadius ≤ P.mapChunk) (hu : P.unmatchOutputDist ≤ P.mapChunk) {lib : Lib C} {w : Vec3 ℝ}
    (hfl : ∀ pts q r num, ExactSearch pts (weightedDist w q) r num (lib.flann pts q r num))
    {env0 : Env} {motion0 : Motion ℝ} {h : History} {e : Event × Env}
    (hreg : RegularClouds (h ++ [e])) {n0 n : Node C} {outs : List (List Out)} {o : List Out}
    (hs : start P lib env0 motion0 = .ok n0) (hr : run P lib n0 (h ++ [e]) = .ok (n, outs ++ [o]))
    {b : List Scan} {s : Scan} (hb : (batchStep P (batchView P h).1 (batchView P h).2 e).1 = some (b ++ [s]))
    {t : Tf} (ht : e.2.tf P.baseFrame P.odomFrame s.header.stamp = some t)
    {stamp : ℝ} {frame : String} {pos : Vec3 ℝ} {rot : Quat ℝ} {cov : ℕ → ℕ → ℝ}
    (hp : .pose stamp frame pos rot cov ∈ o) :
    (∀ st l, .unmatched st l ∈ o → l = (placed P e.2 t (b ++ [s]) pos rot).filter fun x =>
      decide (FarFrom w (inReach P (mapView P h).active x) P.unmatchOutputDist x)) ∧
    ∀ st l, .matched st l ∈ o → l = (placed P e.2 t (b ++ [s]) pos rot).filter fun x =>
      decide (∃ q ∈ inReach P (mapView P h).active x, weightedDist w x q.pos < P.unmatchOutputDist ^ 2 ∧
        weightedDist w x q.pos < P.matchOutputDist ^ 2) := by
  obtain ⟨n1, outs1, h1, hcase⟩ := step_match hreg hs hr hb ht hp
  have hse := (C85_active_map hs h1).2.1
  have hex : ∀ x, ExactSearch ((mapView P h).active.map Pt.pos)
      (fun p => if ChunkedKdtree.Reach (kdCfg P) x p then weightedDist w x p else P.unmatchOutputDist ^ 2) P.unmatchOutputDist 1
      (found P lib n1.map x) := by
    intro x
    obtain ⟨res, hres, hx⟩ := ChunkedKdtree.C54_reach (kdCfg P) hR h2
      ((mapView P h).active.map Pt.pos) w lib.flann hfl x P.unmatchOutputDist hu 1
    rw [found, hse, hres]
    exact hx
  have hnil : ∀ x, found P lib n1.map x = [] ↔ FarFrom w (inReach P (mapView P h).active x) P.unmatchOutputDist x := by
    intro x
    constructor
    · intro h0 q hq
      by_contra hlt
      push _root_.Not at hlt
      rw [mem_inReach] at hq
      obtain ⟨i, hi⟩ := List.getElem?_of_mem (List.mem_map_of_mem (f := Pt.pos) hq.1)
      rcases (hex x).complete i q.pos hi (by rw [if_pos hq.2]; exact hlt) with hm | ⟨_, hl, _⟩
      · rw [h0] at hm; simp at hm
      · rw [h0] at hl; simp at hl
    · intro hf
      by_contra hne
      obtain ⟨e, l, hel⟩ := List.exists_cons_of_ne_nil hne
      obtain ⟨q, hq, _, hlt⟩ := (hex x).sound e (by rw [hel]; simp)
      obtain ⟨q', hq', rfl⟩ := List.mem_map.1 (List.mem_of_getElem? hq)
      have hre : ChunkedKdtree.Reach (kdCfg P) x q'.pos := by
        by_contra hre
        rw [if_neg hre] at hlt
        exact lt_irrefl _ hlt
      rw [if_pos hre] at hlt
      exact absurd (hf q' (mem_inReach.2 ⟨hq', hre⟩)) (not_le.2 hlt)
  have hnear : ∀ x, (match found P lib n1.map x with
        | [] => false
        | (_, sq) :: _ => decide (sq < P.matchOutputDist * P.matchOutputDist)) =
      decide (∃ q ∈ inReach P (mapView P h).active x, weightedDist w x q.pos < P.unmatchOutputDist ^ 2 ∧
        weightedDist w x q.pos < P.matchOutputDist ^ 2) := by
    intro x
    cases hf : found P lib n1.map x with
    | nil =>
      have := (hnil x).1 hf
      symm
      simp only [decide_eq_false_iff_not]
      rintro ⟨q, hq, hlt, _⟩
      exact absurd (this q hq) (not_le.2 hlt)
    | cons a l =>
      obtain ⟨id, sq⟩ := a
      obtain ⟨q, hq, hsq, hlt⟩ := (hex x).sound (id, sq) (by rw [hf]; simp)
      obtain ⟨q', hq', rfl⟩ := List.mem_map.1 (List.mem_of_getElem? hq)
      have hre : ChunkedKdtree.Reach (kdCfg P) x q'.pos := by
        by_contra hre
        rw [if_neg hre] at hlt
        exact lt_irrefl _ hlt
      rw [if_pos hre] at hlt hsq
      simp only [decide_eq_decide]
      constructor
      · intro hm
        exact ⟨q', mem_inReach.2 ⟨hq', hre⟩, hlt, by rw [← hsq]; simpa [pow_two] using hm⟩
      · rintro ⟨q2, hq2, hlt2, hm⟩
        rw [mem_inReach] at hq2
        obtain ⟨i, hi⟩ := List.getElem?_of_mem (List.mem_map_of_mem (f := Pt.pos) hq2.1)
        have hle : sq ≤ weightedDist w x q2.pos := by
          rcases (hex x).complete i q2.pos hi (by rw [if_pos hq2.2]; exact hlt2) with hmem | ⟨_, _, hle⟩
          · have hl1 := (hex x).bounded (by norm_num)
            rw [hf] at hmem hl1
            have : l = [] := by simpa using hl1
            subst this
            simp only [List.map_cons, List.map_nil, List.mem_singleton] at hmem
            subst hmem
            rw [hi] at hq
            simp only [Option.some.injEq] at hq
            rw [hq, ← hsq]
          · have := hle (id, sq) (by rw [hf]; simp)
            rwa [if_pos hq2.2] at this
        rw [← pow_two]
        exact lt_of_le_of_lt hle hm
  rcases hcase with ⟨hm, hun⟩ | ⟨_, hun, hm⟩
  · exact ⟨fun st l hx => absurd hx (hun _ _), fun st l hx => absurd hx (hm _ _)⟩
  · refine ⟨fun st l hx => ?_, fun st l hx => ?_⟩
    · rw [(hun st l hx).2]
      apply List.filter_congr
      intro x _
      rw [decide_eq_decide]
      exact hnil x
    · rw [(hm st l hx).2]
      apply List.filter_congr
      intro x _
      exact hnear x

open Classical in
/-- C100: if `unmatch_output_dist` does not exceed the search range the kd-tree was built for (and
the range at most half a map chunk, axis weights at least one), exactly the points of the batch with no map
point within `unmatch_output_dist` are published as unmatched, and exactly those with one within both distances
as matched. -/
theorem C100_exact {P : Params} (hR : 0 < (kdCfg P).maxSearchRadius)
    (h2 : 2 * (kdCfg P).maxSearchRadius ≤ P.mapChunk) (hu0 : 0 ≤ P.unmatchOutputDist)
    (hu : P.unmatchOutputDist ≤ (kdCfg P).maxSearchRadius) {lib : Lib C} {w : Vec3 ℝ}
    (hw : 1 ≤ w.x ∧ 1 ≤ w.y ∧ 1 ≤ w.z)
    (hfl : ∀ pts q r num, ExactSearch pts (weightedDist w q) r num (lib.flann pts q r num))
    {env0 : Env} {motion0 : Motion ℝ} {h : History} {e : Event × Env}
    (hreg : RegularClouds (h ++ [e])) {n0 n : Node C} {outs : List (List Out)} {o : List Out}
    (hs : start P lib env0 motion0 = .ok n0) (hr : run P lib n0 (h ++ [e]) = .ok (n, outs ++ [o]))
    {b : List Scan} {s : Scan} (hb : (batchStep P (batchView P h).1 (batchView P h).2 e).1 = some (b ++ [s]))
    {t : Tf} (ht : e.2.tf P.baseFrame P.odomFrame s.header.stamp = some t)
    {stamp : ℝ} {frame : String} {pos : Vec3 ℝ} {rot : Quat ℝ} {cov : ℕ → ℕ → ℝ}
    (hp : .pose stamp frame pos rot cov ∈ o) :
    (∀ st l, .unmatched st l ∈ o → l = (placed P e.2 t (b ++ [s]) pos rot).filter fun x =>
      decide (FarFrom w (mapView P h).active P.unmatchOutputDist x)) ∧
    ∀ st l, .matched st l ∈ o → l = (placed P e.2 t (b ++ [s]) pos rot).filter fun x =>
      decide (∃ q ∈ (mapView P h).active, weightedDist w x q.pos < P.unmatchOutputDist ^ 2 ∧
        weightedDist w x q.pos < P.matchOutputDist ^ 2) := by
  obtain ⟨g1, g2⟩ := C100_reach hR h2 (by linarith) hfl hreg hs hr hb ht hp
  have hL : 0 < (kdCfg P).chunkLength := lt_of_lt_of_le (by linarith) h2
  have hre : ∀ x (q : Point), weightedDist w x q.pos < P.unmatchOutputDist ^ 2 → ChunkedKdtree.Reach (kdCfg P) x q.pos := by
    intro x q hlt
    rw [← ChunkedKdtree.reach_iff (kdCfg P) hL hR h2]
    exact ChunkedKdtree.in_chunk (kdCfg P) hL hR h2 w x q.pos hw _ hu0 hu hlt
  refine ⟨fun st l hx => ?_, fun st l hx => ?_⟩
  · rw [g1 st l hx]
    apply List.filter_congr
    intro x _
    rw [decide_eq_decide]
    refine ⟨fun hf q hq => ?_, fun hf q hq => hf q (mem_inReach.1 hq).1⟩
    by_contra hlt
    push _root_.Not at hlt
    exact absurd (hf q (mem_inReach.2 ⟨hq, hre x q hlt⟩)) (not_le.2 hlt)
  · rw [g2 st l hx]
    apply List.filter_congr
    intro x _
    rw [decide_eq_decide]
    constructor
    · rintro ⟨q, hq, a, b⟩
      exact ⟨q, (mem_inReach.1 hq).1, a, b⟩
    · rintro ⟨q, hq, a, b⟩
      exact ⟨q, mem_inReach.2 ⟨hq, hre x q a⟩, a, b⟩

/-- C100, for every `unmatch_output_dist` that is searched at all: a point published as matched
has a map point within `match_output_dist`. -/
theorem C100_matched {P : Params} (hu : P.unmatchOutputDist ≤ P.mapChunk) {lib : Lib C} {w : Vec3 ℝ}
    (hfl : ∀ pts q r num, ExactSearch pts (weightedDist w q) r num (lib.flann pts q r num))
    {env0 : Env} {motion0 : Motion ℝ} {h : History} {e : Event × Env}
    (hreg : RegularClouds (h ++ [e])) {n0 n : Node C} {outs : List (List Out)} {o : List Out}
    (hs : start P lib env0 motion0 = .ok n0) (hr : run P lib n0 (h ++ [e]) = .ok (n, outs ++ [o]))
    {b : List Scan} {s : Scan} (hb : (batchStep P (batchView P h).1 (batchView P h).2 e).1 = some (b ++ [s]))
    {t : Tf} (ht : e.2.tf P.baseFrame P.odomFrame s.header.stamp = some t)
    {stamp : ℝ} {frame : String} {pos : Vec3 ℝ} {rot : Quat ℝ} {cov : ℕ → ℕ → ℝ}
    (hp : .pose stamp frame pos rot cov ∈ o) {st : ℝ} {l : List (Vec3 ℝ)} (hm : .matched st l ∈ o) :
    ∀ x ∈ l, Near w (mapView P h).active P.matchOutputDist x ∧ Near w (mapView P h).active P.unmatchOutputDist x := by
  obtain ⟨n1, outs1, h1, ⟨hn, _⟩ | ⟨hall, _, hma⟩⟩ := step_match hreg hs hr hb ht hp
  · exact absurd hm (hn _ _)
  obtain ⟨_, rfl⟩ := hma _ _ hm
  intro x hx
  rw [List.mem_filter] at hx
  obtain ⟨res, hres, _, hval⟩ := ChunkedKdtree.C53_ids_valid (kdCfg P) ((mapView P h).active.map Pt.pos) w lib.flann hfl
    x P.unmatchOutputDist 1 hu
  have hse := (C85_active_map hs h1).2.1 x P.unmatchOutputDist
  have hf : found P lib n1.map x = res := by rw [found, hse, hres]
  rw [hf] at hx
  cases res with
  | nil => simp at hx
  | cons a r =>
    obtain ⟨id, sq⟩ := a
    obtain ⟨q, hq, hsq, hlt⟩ := hval (id, sq) (by simp)
    obtain ⟨q', hq', rfl⟩ := List.mem_map.1 (List.mem_of_getElem? hq)
    have hlt2 : sq < P.matchOutputDist * P.matchOutputDist := by simpa using hx.2
    have hsq' : sq = weightedDist w x q'.pos := hsq
    exact ⟨⟨q', hq', by rw [← hsq', pow_two]; exact hlt2⟩, ⟨q', hq', hlt⟩⟩

end Node
end Mcl3dl
