import Verif.Spec.NodeMatchRatio
import Verif.Props.NodeEntropy

/-! # C117: the match ratio in the published status -/

set_option linter.unusedSectionVars false

namespace Mcl3dl
namespace Node

variable {C : Type}

theorem forall₂_right {α β : Type} {R : α → β → Prop} {l : List α} {l' : List β} (h : List.Forall₂ R l l') :
    ∀ y ∈ l', ∃ x, R x y := by
  induction h with
  | nil => simp
  | cons h _ ih =>
    intro y hy
    rcases List.mem_cons.1 hy with rfl | hy
    · exact ⟨_, h⟩
    · exact ih y hy

/-- The points given to the likelihood model are usable points of the batch. -/
theorem likePc_usable {P : Params} {lib : Lib C} {env : Env} (hv : env.Valid) {acc : AccSt}
    {loc : LocSt C} (hlike : Lidar.Like.Reach P.like loc.like) {header : Header} {b : List Scan}
    (hc : acc.cloud = some (labelled b)) {t : Tf} (ht : env.tf P.baseFrame P.odomFrame header.stamp = some t) {p : Prep}
    (hp : prepare P lib env acc loc header = .ok (.ready p)) :
    ∀ q ∈ p.likePc, q ∈ usablePoints P env t b := by
  obtain ⟨pts, t', h1, h2, _, h4, h5, _, _, h8, _, h10⟩ := prepare_ready hp
  rw [hc] at h1
  rw [ht] at h2
  simp only [Option.some.injEq] at h1 h2
  subst h1 h2
  have hreach : Lidar.Like.Reach P.like p.like := by rw [h8]; exact .set _ _ hlike
  obtain ⟨e1, e2, e3⟩ := like_fields hreach
  unfold Lidar.Like.filter Lidar.filter at h10
  rw [e1, e2, e3] at h10
  have hfil : (p.full.filter fun q => !Lidar.rejected P.like.clip (P.like.clip.near * P.like.clip.near)
      (P.like.clip.far * P.like.clip.far) q.pos) = usablePoints P env t b := by
    rw [usablePoints, h5, h4]
    apply List.filter_congr
    intro q _
    have := rejected_iff P q.pos
    classical
    by_cases hu : usable P q.pos
    · rw [this.2 hu, decide_eq_true hu]
    · rw [decide_eq_false hu, Bool.eq_false_iff]
      exact fun h => hu (this.1 h)
  rw [hfil] at h10
  rw [sample] at h10
  split_ifs at h10 with hs
  · obtain ⟨c, hc1, hc2⟩ := Outcome.bind_eq_ok_iff.1 h10
    simp only [Outcome.ok.injEq] at hc2
    obtain ⟨_, g1, g2, g3⟩ := Sampler.C73_distinct hv.order hc1
    rw [← hc2]
    intro q hq
    rcases Nat.eq_zero_or_pos p.like.numPoints with h0 | h0
    · rw [g1 (.inl h0)] at hq; simp at hq
    · rcases Nat.lt_or_ge p.like.numPoints (usablePoints P env t b).length with hl | hl
      · obtain ⟨_, ids, _, hids⟩ := g3 h0 hl
        obtain ⟨i, hi⟩ := forall₂_right hids q hq
        exact List.mem_of_getElem? hi
      · rw [g2 h0 hl] at hq; exact hq
  · obtain ⟨c, hc1, hc2⟩ := Outcome.bind_eq_ok_iff.1 h10
    simp only [Outcome.ok.injEq] at hc2
    obtain ⟨out, g1, _, g3, _⟩ := Sampler.C72_uniform (env.index 1 (usablePoints P env t b).length)
      (⟨(), usablePoints P env t b⟩ : Sampler.Cloud Unit Point) p.like.numPoints
      (fun hne k => hv.index _ _ k (List.length_pos_iff.2 hne))
    rw [hc1] at g1
    simp only [Outcome.ok.injEq] at g1
    rw [← hc2, g1]
    exact g3

theorem likeLoop_count {A : Type} {p : Lidar.LikeParams} (hf : p.matchDistFlat ≤ p.matchDistMin)
    (h0 : 0 ≤ p.matchDistMin)
    {search : Vec3 ℝ → ℝ → Outcome (List (ℕ × ℝ))} {near : Vec3 ℝ → Prop}
    (hs : ∀ x, ∃ l, search x p.matchDistMin = .ok l ∧ (∀ e ∈ l, e.2 < p.matchDistMin ^ 2) ∧ (l = [] ↔ ¬ near x))
    (qs : List (Pt ℝ A)) {score : ℝ} {num : ℕ} {r : ℝ × ℕ} (h : Lidar.likeLoop p search qs score num = .ok r) :
    r.2 = num + open Classical in (qs.filter fun q => near q.pos).length := by
  classical
  induction qs generalizing score num with
  | nil =>
    simp only [Lidar.likeLoop, Outcome.ok.injEq] at h
    rw [← h]; simp
  | cons q qs ih =>
    rw [Lidar.likeLoop] at h
    obtain ⟨l, hl, hlt, hn⟩ := hs q.pos
    rw [hl, Outcome.bind_ok] at h
    cases l with
    | nil =>
      have hnn := hn.1 rfl
      simp only at h
      rw [ih h, List.filter_cons, if_neg (by simpa using hnn)]
    | cons e l =>
      obtain ⟨i, sq⟩ := e
      have hnn : near q.pos := by
        by_contra hc
        have := hn.2 hc
        cases this
      have hsq := hlt (i, sq) List.mem_cons_self
      simp only at h hsq
      have hle : Real.sqrt sq ≤ p.matchDistMin := by
        rw [Real.sqrt_le_left h0]; exact hsq.le
      rw [if_neg (by have := max_le hle hf; linarith)] at h
      rw [ih h, List.filter_cons, if_pos (by simpa using hnn), List.length_cons]
      omega

/-- Weighting the particles one by one tracks the largest quality. -/
theorem weighLoop_max {P : Params} {lib : Lib C} {m : MapSt} {p : Prep} (g : State6 ℝ → ℝ)
    (hg : ∀ s r, p.like.measure (search P lib m) (some p.likePc) s = .ok r → r.quality = g s)
    {ps : List Particle} {w : WeighSt C} {r : List ℝ × WeighSt C} (h : weighLoop P lib m p ps w = .ok r) :
    w.ratioMax ≤ r.2.ratioMax ∧ (∀ q ∈ ps, g q.state ≤ r.2.ratioMax) ∧
      (r.2.ratioMax = w.ratioMax ∨ ∃ q ∈ ps, r.2.ratioMax = g q.state) := by
  induction ps generalizing w r with
  | nil =>
    simp only [weighLoop, Outcome.ok.injEq] at h
    rw [← h]; simp
  | cons q qs ih =>
    rw [weighLoop] at h
    obtain ⟨a, ha, h⟩ := Outcome.bind_eq_ok_iff.1 h
    obtain ⟨b, hb', h⟩ := Outcome.bind_eq_ok_iff.1 h
    simp only [Outcome.ok.injEq] at h
    rw [← h]
    obtain ⟨b1, b2, b3⟩ := ih hb'
    have ha' : a.2.ratioMax = max w.ratioMax (g q.state) := by
      rw [particleLikelihood] at ha
      obtain ⟨rb, hrb, ha⟩ := Outcome.bind_eq_ok_iff.1 ha
      obtain ⟨rl, hrl, ha⟩ := Outcome.bind_eq_ok_iff.1 ha
      simp only [Outcome.ok.injEq] at ha
      rw [← ha, ← hg _ _ hrl]
      show (if w.ratioMax < rl.quality then rl.quality else w.ratioMax) = _
      split_ifs with hc
      · rw [max_eq_right hc.le]
      · rw [max_eq_left (not_lt.1 hc)]
    rw [ha'] at b1 b3
    refine ⟨le_trans (le_max_left _ _) b1, ?_, ?_⟩
    · intro x hx
      rcases List.mem_cons.1 hx with rfl | hx
      · exact le_trans (le_max_right _ _) b1
      · exact b2 x hx
    · rcases b3 with b3 | ⟨x, hx, hx'⟩
      · rcases le_total w.ratioMax (g q.state) with hc | hc
        · right; exact ⟨q, List.mem_cons_self, by rw [b3, max_eq_right hc]⟩
        · left; rw [b3, max_eq_left hc]
      · right; exact ⟨x, List.mem_cons_of_mem _ hx, hx'⟩

/-- C117: the match ratio published with a pose is the largest fraction, over the particles before the
measurement, of the selected points that the particle puts near the map. -/
theorem C117_ratio {P : Params} (hR : 0 < (kdCfg P).maxSearchRadius)
    (h2 : 2 * (kdCfg P).maxSearchRadius ≤ P.mapChunk) (hd0 : 0 ≤ P.like.matchDistMin)
    (hfl0 : P.like.matchDistFlat ≤ P.like.matchDistMin) {lib : Lib C} {w : Vec3 ℝ}
    (hw : 1 ≤ w.x ∧ 1 ≤ w.y ∧ 1 ≤ w.z)
    (hfl : ∀ pts q r num, ExactSearch pts (weightedDist w q) r num (lib.flann pts q r num))
    {env0 : Env} (hv0 : env0.Valid) {motion0 : Motion ℝ} {h : History} {e : Event × Env} (hv : HistValid (h ++ [e]))
    (hreg : RegularClouds (h ++ [e])) {n0 n : Node C} {outs : List (List Out)} {o : List Out}
    (hs : start P lib env0 motion0 = .ok n0) (hr : run P lib n0 (h ++ [e]) = .ok (n, outs ++ [o]))
    {b : List Scan} {s : Scan} (hb : (batchStep P (batchView P h).1 (batchView P h).2 e).1 = some (b ++ [s]))
    {t : Tf} (ht : e.2.tf P.baseFrame P.odomFrame s.header.stamp = some t)
    {stamp : ℝ} {frame : String} {pos : Vec3 ℝ} {rot : Quat ℝ} {cov : ℕ → ℕ → ℝ}
    (hp : .pose stamp frame pos rot cov ∈ o) {st : Status} {ent : Option ℝ} {lev : Level}
    (hst : .status st ent lev ∈ o) :
    ∃ n1 outs1, run P lib n0 h = .ok (n1, outs1) ∧ ∃ sel : List Point, sel ≠ [] ∧
      (∀ q ∈ sel, q ∈ usablePoints P e.2 t (b ++ [s])) ∧
      (∀ q ∈ n1.loc.pf.particles,
        matchedFraction w (mapView P h).active P.like.matchDistMin q.state sel ≤ st.matchRatio) ∧
      (n1.loc.pf.particles ≠ [] → ∃ q ∈ n1.loc.pf.particles,
        st.matchRatio = matchedFraction w (mapView P h).active P.like.matchDistMin q.state sel) ∧
      0 ≤ st.matchRatio ∧ st.matchRatio ≤ 1 := by
  obtain ⟨n1, os, o1, h1, h2', h3⟩ := run_snoc_ok hr
  obtain ⟨hos, ho1⟩ := List.append_inj' h3 rfl
  simp only [List.cons.injEq, and_true] at ho1
  subst hos ho1
  refine ⟨n1, outs, h1, ?_⟩
  have hi := run_batchView (fun e he => hreg e (List.mem_append_left _ he)) h1 (start_batch hs)
  obtain ⟨_, _, hsome⟩ := step_batch hi (hreg e (by simp)) h2'
  obtain ⟨_, acc, c, hh, hc, hcore⟩ := hsome _ hb
  have hve : e.2.Valid := hv e (by simp)
  have hreach : Reachable P lib n1 := ⟨env0, motion0, n0, h, _, hv0, fun e he => hv e (List.mem_append_left _ he), hs, h1⟩
  have hlike : Lidar.Like.Reach P.like (freshen e.2 n1).loc.like := (reachable_models hreach).1
  obtain ⟨_, _, ⟨_, _, _, ho⟩ | ⟨_, hme⟩⟩ := measureCore_ok hcore
  · rw [ho] at hp; simp at hp
  have hlast : acc.headers.getLast? = some s.header := by rw [hh]; simp
  have hpfeq : n1.loc.pf = (freshen e.2 n1).loc.pf := rfl
  rw [hpfeq]
  generalize n.loc = loc2 at hme
  generalize (freshen e.2 n1).loc = loc1 at hme hlike hpfeq ⊢
  cases hme with
  | noHeader _ => simp at hp
  | noTf _ _ _ => simp at hp
  | noOrigin _ _ _ _ => simp at hp
  | noPoints _ _ _ _ _ => simp [publishStatus] at hp
  | localized header p _ outs' hl hpr hne hloc =>
    rw [hlast] at hl
    simp only [Option.some.injEq] at hl
    subst hl
    refine ⟨p.likePc, hne, likePc_usable hve hlike hc ht hpr, ?_⟩
    obtain ⟨_, _, _, _, _, _, _, _, _, hl1, _⟩ := prepare_ready hpr
    have hpl : p.like.params = P.like := by
      have : Lidar.Like.Reach P.like p.like := by rw [hl1]; exact .set _ _ hlike
      exact (like_fields this).1
    obtain ⟨wr, hwr, _, hmr⟩ := localize_entropy hve hloc
    have hse := (C85_active_map hs h1).2.1
    have hmax : P.like.matchDistMin ≤ (kdCfg P).maxSearchRadius := by
      simp only [kdCfg, cmax_eq]; exact le_max_right _ _
    have hsearch : ∀ x, ∃ l, search P lib n1.map x P.like.matchDistMin = .ok l ∧
        (∀ e ∈ l, e.2 < P.like.matchDistMin ^ 2) ∧ (l = [] ↔ ¬ Near w (mapView P h).active P.like.matchDistMin x) := by
      intro x
      obtain ⟨res, hres, hx⟩ := ChunkedKdtree.C52_equals_whole_cloud_search (kdCfg P) hR h2
        ((mapView P h).active.map Pt.pos) w hw lib.flann hfl x P.like.matchDistMin hd0 hmax 1
      refine ⟨res, by rw [hse]; exact hres, ?_, ?_⟩
      · intro e he
        obtain ⟨_, _, h1, h2⟩ := hx.sound e he
        rw [h1]; exact h2
      · constructor
        · rintro h0 ⟨q, hq, hlt⟩
          obtain ⟨i, hi⟩ := List.getElem?_of_mem (List.mem_map_of_mem (f := Pt.pos) hq)
          rcases hx.complete i q.pos hi hlt with hm | ⟨_, hl, _⟩
          · rw [h0] at hm; simp at hm
          · rw [h0] at hl; simp at hl
        · intro hf
          by_contra hne
          obtain ⟨e, l, hel⟩ := List.exists_cons_of_ne_nil hne
          obtain ⟨q, hq, _, hlt⟩ := hx.sound e (by rw [hel]; simp)
          obtain ⟨q', hq', rfl⟩ := List.mem_map.1 (List.mem_of_getElem? hq)
          exact hf ⟨q', hq', hlt⟩
    have hlen : (0 : ℝ) < p.likePc.length := by
      have : 0 < p.likePc.length := List.length_pos_iff.2 hne
      exact_mod_cast this
    have hg : ∀ s r, p.like.measure (search P lib n1.map) (some p.likePc) s = .ok r →
        r.quality = matchedFraction w (mapView P h).active P.like.matchDistMin s p.likePc := by
      intro s r hm
      classical
      simp only [Lidar.Like.measure] at hm
      rw [if_neg (by simpa using hne)] at hm
      obtain ⟨x, hx0, hx⟩ := Outcome.bind_eq_ok_iff.1 hm
      simp only [Outcome.ok.injEq] at hx
      rw [hpl] at hx0
      have hcnt := likeLoop_count (near := Near w (mapView P h).active P.like.matchDistMin) hfl0 hd0 hsearch _ hx0
      rw [← hx]
      simp only [hcnt, zero_add, matchedFraction, State6.transform, List.length_map, List.filter_map]
      rfl
    obtain ⟨w1, w2, w3⟩ := weighLoop_max _ hg hwr
    have hstm : st.matchRatio = wr.2.ratioMax := by
      rw [← hmr]
      obtain ⟨r, _, _, _, _, _, hmo, _, _, _, _, hloc', rfl⟩ := localize_ok hloc
      have hmm := matchOutput_only hmo
      have hnp : .status st ent lev ∉ r.mo.2 := by
        intro hx; obtain ⟨s, l, hc | hc⟩ := hmm _ hx <;> cases hc
      have : .status st ent lev ∉ (if P.publishTf = true then
          [Out.transforms (transformsOf P (outStamp P n1.odo loc1.tolBase (e.2.now 1))
            (r.smooth P n1.odo loc1))] else []) := by split_ifs <;> simp
      simp only [List.mem_cons, List.mem_append, List.not_mem_nil, or_false, hnp, this, publishParticles, publishStatus,
        reduceCtorEq, false_or, Out.status.injEq] at hst
      rw [hst.1, hloc']
    rw [hstm]
    have hfr : ∀ s, 0 ≤ matchedFraction w (mapView P h).active P.like.matchDistMin s p.likePc ∧
        matchedFraction w (mapView P h).active P.like.matchDistMin s p.likePc ≤ 1 := by
      intro s
      unfold matchedFraction
      refine ⟨by positivity, ?_⟩
      rw [div_le_one hlen]
      exact_mod_cast List.length_filter_le _ _
    refine ⟨w2, fun hpe => ?_, w1, ?_⟩
    · rcases w3 with w3 | w3
      · obtain ⟨q, ps, hqs⟩ := List.exists_cons_of_ne_nil hpe
        have hq : q ∈ loc1.pf.particles := by rw [hqs]; simp
        exact ⟨q, hq, le_antisymm (by rw [w3]; exact (hfr _).1) (w2 q hq)⟩
      · exact w3
    · rcases w3 with w3 | ⟨q, _, w3⟩
      · rw [w3]; exact zero_le_one
      · rw [w3]; exact (hfr _).2

/-- C117: a particle that puts every usable point near the map makes the match ratio one; if no particle puts
any near the map, it is zero. -/
theorem C117_extremes {P : Params} (hR : 0 < (kdCfg P).maxSearchRadius)
    (h2 : 2 * (kdCfg P).maxSearchRadius ≤ P.mapChunk) (hd0 : 0 ≤ P.like.matchDistMin)
    (hfl0 : P.like.matchDistFlat ≤ P.like.matchDistMin) {lib : Lib C} {w : Vec3 ℝ}
    (hw : 1 ≤ w.x ∧ 1 ≤ w.y ∧ 1 ≤ w.z)
    (hfl : ∀ pts q r num, ExactSearch pts (weightedDist w q) r num (lib.flann pts q r num))
    {env0 : Env} (hv0 : env0.Valid) {motion0 : Motion ℝ} {h : History} {e : Event × Env} (hv : HistValid (h ++ [e]))
    (hreg : RegularClouds (h ++ [e])) {n0 n1 n : Node C} {outs : List (List Out)} {o : List Out}
    (hs : start P lib env0 motion0 = .ok n0) (hr1 : run P lib n0 h = .ok (n1, outs))
    (hr : run P lib n0 (h ++ [e]) = .ok (n, outs ++ [o])) (hne : n1.loc.pf.particles ≠ [])
    {b : List Scan} {s : Scan} (hb : (batchStep P (batchView P h).1 (batchView P h).2 e).1 = some (b ++ [s]))
    {t : Tf} (ht : e.2.tf P.baseFrame P.odomFrame s.header.stamp = some t)
    {stamp : ℝ} {frame : String} {pos : Vec3 ℝ} {rot : Quat ℝ} {cov : ℕ → ℕ → ℝ}
    (hp : .pose stamp frame pos rot cov ∈ o) {st : Status} {ent : Option ℝ} {lev : Level}
    (hst : .status st ent lev ∈ o) :
    ((∃ q ∈ n1.loc.pf.particles, ∀ x ∈ usablePoints P e.2 t (b ++ [s]),
      Near w (mapView P h).active P.like.matchDistMin (q.state.rot.normalized.rotate x.pos + q.state.pos)) →
        st.matchRatio = 1) ∧
    ((∀ q ∈ n1.loc.pf.particles, ∀ x ∈ usablePoints P e.2 t (b ++ [s]),
      ¬ Near w (mapView P h).active P.like.matchDistMin (q.state.rot.normalized.rotate x.pos + q.state.pos)) →
        st.matchRatio = 0) := by
  obtain ⟨n1', outs1, h1, sel, hsel, hus, hge, hex, _, hle⟩ :=
    C117_ratio hR h2 hd0 hfl0 hw hfl hv0 hv hreg hs hr hb ht hp hst
  rw [hr1] at h1
  simp only [Outcome.ok.injEq, Prod.mk.injEq] at h1
  obtain ⟨h1, _⟩ := h1
  subst h1
  have hlen : (0 : ℝ) < sel.length := by
    have : 0 < sel.length := List.length_pos_iff.2 hsel
    exact_mod_cast this
  constructor
  · rintro ⟨q, hq, hall⟩
    refine le_antisymm hle (le_trans (le_of_eq ?_) (hge q hq))
    rw [matchedFraction, List.filter_eq_self.2, div_self hlen.ne']
    intro x hx
    simpa using hall x (hus x hx)
  · intro hall
    obtain ⟨q, hq, heq⟩ := hex hne
    rw [heq, matchedFraction, List.filter_eq_nil_iff.2]
    · simp
    · intro x hx
      simpa using hall q hq x (hus x hx)

/-- C117 and C101 are not empty: with the default parameters, 65 particles at the origin and a scan that fits the
map, the status published with the pose reports a match ratio of one and a defined entropy. -/
example : ∃ n0 n outs o, start Demo.P0 Demo.exactLib (Demo.env 0) Demo.motion0 = .ok n0 ∧
    run Demo.P0 Demo.exactLib n0 (Demo.poseHistory 10 10 10 ++ [Demo.lastCloud]) = .ok (n, outs ++ [o]) ∧
    ∃ st ent lev, .status st ent lev ∈ o ∧ st.matchRatio = 1 ∧ ent ≠ none := by
  obtain ⟨n0, n1, n, outs, o, hs, hr, hr', hst, rot, cov, hp, hrot⟩ :=
    Demo.pose_runs 10 10 10 (by norm_num) (by norm_num)
  refine ⟨n0, n, outs, o, hs, hr', ?_⟩
  obtain ⟨h1, h2, _⟩ := Demo.poseHistory_run hs hr
  have hv : HistValid (Demo.poseHistory 10 10 10 ++ [Demo.lastCloud]) := by
    intro e he
    rcases List.mem_append.1 he with he | he
    · exact Demo.poseHistory_valid _ _ _ e he
    · rw [List.mem_singleton.1 he]; exact Demo.env_valid 4
  obtain ⟨st, ent, lev, hm⟩ : ∃ st ent lev, .status st ent lev ∈ o := by
    rcases step_cases hst with ⟨_, h4 | ⟨b, h4 | ⟨h4, hpf⟩⟩⟩ | ⟨_, _, hd, p, acc, outs', _, _, _, _, hl, h4⟩
    · exact absurd (h4 _ hp) id
    · rw [h4] at hp; simp at hp
    · rw [h4] at hp; simp [publishStatus] at hp
    · obtain ⟨r, _, _, _, _, _, _, _, _, _, _, _, ho⟩ := localize_ok hl
      refine ⟨r.status Demo.P0 n1.stdWarn (freshen Demo.lastCloud.2 n1).loc, r.pf6.entropy,
        (r.status Demo.P0 n1.stdWarn (freshen Demo.lastCloud.2 n1).loc).level, ?_⟩
      rw [h4, ho, publishStatus]
      simp
  have hpar : 0 ≤ Demo.P0.like.matchDistMin ∧ Demo.P0.like.matchDistFlat ≤ Demo.P0.like.matchDistMin := by
    norm_num [Demo.P0, Params.loadFrom, Params.loadLike, Server.dblD, Server.getDouble]
  have hone : st.matchRatio = 1 := by
    have hlen : n1.loc.pf.particles ≠ [] := by
      intro h; rw [h] at h1; simp at h1
    refine (C117_extremes (w := ⟨1, 1, 5⟩) (by rw [Demo.P0_kd]; norm_num) ?_ hpar.1 hpar.2 (by norm_num)
      (fun pts q r num => Demo.exactFlann_spec pts q r num) (Demo.env_valid 0) hv (Demo.poseHistory_regular' _ _ _)
      hs hr hr' hlen (Demo.poseHistory_step _ _ _) (t := Demo.tf0) rfl hp hm).1 ?_
    · have : Demo.P0.mapChunk = (kdCfg Demo.P0).chunkLength := rfl
      rw [this, Demo.P0_kd]; norm_num
    obtain ⟨q, hq⟩ := List.exists_mem_of_ne_nil _ hlen
    refine ⟨q, hq, ?_⟩
    intro x hx
    have hx' := List.mem_of_mem_filter hx
    simp only [Demo.env, Demo.lastCloud, List.nil_append, labelled_single, List.map_cons, List.map_nil, List.mem_cons,
      List.not_mem_nil, or_false, or_self, Demo.tf0_point] at hx'
    subst hx'
    have hrq : q.state.rot.normalized.rotate ⟨10, 0, 0⟩ = (⟨10, 0, 0⟩ : Vec3 ℝ) := by
      have u1 : (1 : Quat ℝ).dot 1 = 1 := by show (0:ℝ) * 0 + 0 * 0 + 0 * 0 + 1 * 1 = 1; norm_num
      have un : (-1 : Quat ℝ).dot (-1) = 1 := by show (-0:ℝ) * -0 + -0 * -0 + -0 * -0 + -1 * -1 = 1; norm_num
      have hsame := (h2 q hq).2
      have hu : q.state.rot.dot q.state.rot = 1 := by
        rcases hsame with e | e <;> rw [e]
        · exact u1
        · exact un
      rw [Quat.C31_normalized_unit _ hu, (Quat.sameRotation_iff _ _ hu u1).1 hsame]
      exact (Quat.C29_one 1 _).2.2
    rw [Demo.poseHistory_map, hrq, (h2 q hq).1]
    refine ⟨_, List.mem_singleton.2 rfl, ?_⟩
    have hd : Demo.P0.like.matchDistMin = 1 / 5 := by
      norm_num [Demo.P0, Params.loadFrom, Params.loadLike, Server.dblD, Server.getDouble]
    have hz : (⟨10, 0, 0⟩ + 0 : Vec3 ℝ) = ⟨10, 0, 0⟩ := by
      show (⟨10 + 0, 0 + 0, 0 + 0⟩ : Vec3 ℝ) = _; simp
    rw [hd, hz]
    norm_num [weightedDist]
  refine ⟨st, ent, lev, hm, hone, ?_⟩
  exact C101_matched Demo.weighs Demo.reportsNear (Demo.env_valid 0) (Demo.env_valid 4)
    (Demo.poseHistory_valid _ _ _) hs hr hst hm (by rw [hone]; norm_num)

end Node
end Mcl3dl
