import Verif.Proofs.NodeBatch
import Verif.Props.Sampler
import Verif.Props.NodeSafe
import Verif.Props.NodeUb

/-! # C111, C112: which clouds are measured together, and when the result is a pose -/

set_option linter.unusedSectionVars false

namespace Mcl3dl
namespace Node

variable {C : Type}

/-- All the clouds of a history have float coordinates. -/
def RegularClouds (h : History) : Prop := ∀ e ∈ h, ∀ header msg, e.1 = .cloud header msg → Regular msg

theorem run_batchView {P : Params} {lib : Lib C} {h : History} (hreg : RegularClouds h)
    {n n' : Node C} {outs : List (List Out)} (hr : run P lib n h = .ok (n', outs)) {v : Bool × List Scan}
    (hi : BInv P v n) :
    BInv P (h.foldl (fun v e => (mapAvailable v.1 e.1, (batchStep P v.1 v.2 e).2)) v) n' := by
  induction h generalizing n outs v with
  | nil =>
    simp only [run, Outcome.ok.injEq, Prod.mk.injEq] at hr
    exact hr.1 ▸ hi
  | cons e h ih =>
    obtain ⟨ev, env⟩ := e
    obtain ⟨n1, o, os, h1, h2, _⟩ := run_cons_ok hr
    exact ih (fun e he => hreg e (List.mem_cons_of_mem _ he)) h2
      (step_batch hi (hreg _ List.mem_cons_self) h1).1

theorem run_snoc_ok {P : Params} {lib : Lib C} {n n' : Node C} {h : History} {e : Event × Env}
    {outs : List (List Out)} (hr : run P lib n (h ++ [e]) = .ok (n', outs)) :
    ∃ n1 os o, run P lib n h = .ok (n1, os) ∧ step P lib e.2 n1 e.1 = .ok (n', o) ∧ outs = os ++ [o] := by
  rw [run_append] at hr
  obtain ⟨⟨n1, os⟩, h1, hr⟩ := Outcome.bind_eq_ok_iff.1 hr
  obtain ⟨⟨n2, o⟩, h2, hr⟩ := Outcome.bind_eq_ok_iff.1 hr
  obtain ⟨n3, o3, os3, h3, h4, h5⟩ := run_cons_ok h2
  simp only [run, Outcome.ok.injEq, Prod.mk.injEq] at h4
  simp only [Outcome.ok.injEq, Prod.mk.injEq] at hr
  obtain ⟨rfl, rfl⟩ := hr
  obtain ⟨rfl, rfl⟩ := h4
  exact ⟨n1, os, o3, h1, h3, by rw [h5]⟩

/-- The measurement models have the configured parameters. -/
theorem reachable_models {P : Params} {lib : Lib C} {n : Node C} (hn : Reachable P lib n) :
    Lidar.Like.Reach P.like n.loc.like ∧ Lidar.Beam.Reach P.beam n.loc.beam := by
  refine reachable_inv (I := fun n => Lidar.Like.Reach P.like n.loc.like ∧ Lidar.Beam.Reach P.beam n.loc.beam)
    ?_ ?_ hn
  · intro env m n _ h
    obtain ⟨_, _, _, rfl⟩ := start_ok h
    exact ⟨.make, .make⟩
  · intro n ev env n' o hi _ h
    by_cases hc : ∃ header msg, ev = .cloud header msg
    · obtain ⟨header, msg, rfl⟩ := hc
      obtain ⟨_, _, _, _, hcase⟩ := cbCloud_loc h
      rcases hcase with ⟨hl, _, _⟩ | ⟨_, acc, c, hcore⟩
      · rw [hl]; exact hi
      obtain ⟨_, _, ⟨_, _, hl, _⟩ | ⟨_, hme⟩⟩ := measureCore_ok hcore
      · rw [hl]; exact hi
      generalize n'.loc = loc2 at hme
      have hset : ∀ header p acc, prepare P lib env acc (freshen env n).loc header = .ok (.ready p) →
          Lidar.Like.Reach P.like p.like ∧ Lidar.Beam.Reach P.beam p.beam := by
        intro header p acc hp
        obtain ⟨_, _, _, _, _, _, _, _, hb, hlk, _⟩ := prepare_ready hp
        rw [hb, hlk]
        exact ⟨.set _ _ hi.1, .set _ _ hi.2⟩
      cases hme with
      | noHeader _ => exact hi
      | noTf _ _ _ => exact hi
      | noOrigin _ _ _ _ => exact hi
      | noPoints _ p _ hp _ => exact hset _ _ _ hp
      | localized _ p _ _ _ hp _ hl =>
        obtain ⟨r, _, _, _, _, _, _, _, _, _, _, rfl, _⟩ := localize_ok hl
        exact hset _ _ _ hp
    · push _root_.Not at hc
      rw [(step_loc h hc).1]
      exact hi

/-- C111: after any history, the next callback completes a batch iff `batchStep` says so: nothing of a
measurement is published without a complete batch, and a complete batch is measured or skipped. -/
theorem C111_batches {P : Params} {lib : Lib C} {env0 : Env} {motion0 : Motion ℝ} {h : History} {e : Event × Env}
    (hreg : RegularClouds (h ++ [e])) {n0 n : Node C} {outs : List (List Out)} {o : List Out}
    (hs : start P lib env0 motion0 = .ok n0) (hr : run P lib n0 (h ++ [e]) = .ok (n, outs ++ [o])) :
    ((batchStep P (batchView P h).1 (batchView P h).2 e).1 = none ∧
      ∀ x ∈ o, x.batchOf = none ∧ x.poseCov = none ∧ x.statusMsg = none) ∨
    ∃ b s, (batchStep P (batchView P h).1 (batchView P h).2 e).1 = some (s :: b) ∧
      (batches [o] = [true] ∨ o = [.batch false]) := by
  obtain ⟨n1, os, o1, h1, h2, h3⟩ := run_snoc_ok hr
  obtain ⟨hos, ho1⟩ := List.append_inj' h3 rfl
  simp only [List.cons.injEq, and_true] at ho1
  subst hos ho1
  have hi := run_batchView (fun e he => hreg e (List.mem_append_left _ he)) h1 (start_batch hs)
  obtain ⟨_, hnone, hsome⟩ := step_batch hi (hreg e (by simp)) h2
  change ((batchStep P (batchView P h).1 (batchView P h).2 e).1 = none → _) at hnone
  change (∀ bb, (batchStep P (batchView P h).1 (batchView P h).2 e).1 = some bb → _) at hsome
  cases hb : (batchStep P (batchView P h).1 (batchView P h).2 e).1 with
  | none =>
    left
    refine ⟨rfl, fun x hx => ?_⟩
    have := hnone hb x hx
    cases x <;> first | exact ⟨rfl, rfl, rfl⟩ | exact absurd this id
  | some bb =>
    right
    obtain ⟨hne, acc, c, _, _, hcore⟩ := hsome bb hb
    obtain ⟨s, b, rfl⟩ := List.exists_cons_of_ne_nil hne
    refine ⟨b, s, rfl, ?_⟩
    obtain ⟨_, _, ⟨_, _, _, ho⟩ | ⟨_, hme⟩⟩ := measureCore_ok hcore
    · exact .inr ho
    · left
      generalize n.loc = loc2 at hme
      cases hme with
      | noHeader _ => rfl
      | noTf _ _ _ => rfl
      | noOrigin _ _ _ _ => rfl
      | noPoints _ _ _ _ _ => rfl
      | localized _ p _ _ _ _ _ hl =>
        obtain ⟨r, _, _, _, _, _, hmo, _, _, _, _, _, houts⟩ := localize_ok hl
        exact (localized_outs (P := P) (warn := 0) (matchOutput_only hmo)
          (congrArg (Out.batch true :: ·) houts)).2

/-- C90: with `skip_measure: 0` no history that completes a batch is survived: the callback that completes it
never returns. -/
theorem C90_zero {P : Params} (hP : Params.toSize P.skipMeasure = 0) {lib : Lib C} {env0 : Env} {motion0 : Motion ℝ}
    {h : History} {e : Event × Env} (hreg : RegularClouds (h ++ [e])) {n0 : Node C}
    (hs : start P lib env0 motion0 = .ok n0) {b : List Scan}
    (hb : (batchStep P (batchView P h).1 (batchView P h).2 e).1 = some b) :
    (run P lib n0 (h ++ [e])).isOk = false := by
  cases hr : run P lib n0 (h ++ [e]) with
  | throws m => rfl
  | ub m => rfl
  | ok r =>
    exfalso
    obtain ⟨n, outs⟩ := r
    obtain ⟨n1, os, o, h1, h2, rfl⟩ := run_snoc_ok hr
    have hi := run_batchView (fun e he => hreg e (List.mem_append_left _ he)) h1 (start_batch hs)
    obtain ⟨_, acc, c, _, _, hcore⟩ := (step_batch hi (hreg e (by simp)) h2).2.2 b hb
    unfold measureCore at hcore
    simp [hP] at hcore

/-- The situation of `C90_division_by_zero` is one of these. -/
example : Params.toSize Demo.P1.skipMeasure = 0 ∧ ∃ b, (batchStep Demo.P1
    (batchView Demo.P1 [(.mapcloud 0 (Demo.msg 1), Demo.env 0)]).1
    (batchView Demo.P1 [(.mapcloud 0 (Demo.msg 1), Demo.env 0)]).2
    (.cloud ⟨"laser", 1⟩ (Demo.msg 1), Demo.env 1)).1 = some b := by
  refine ⟨rfl, ?_⟩
  have hv : validCloud (Demo.msg 1) = true := by
    simp [validCloud, Demo.msg, Conv.Msg.has]
  have hac : Demo.P1.accumCloud = 0 := rfl
  have ht : (Demo.env 1).tf Demo.P1.odomFrame "laser" 1 = some Demo.tf0 := rfl
  have h1 : (batchView Demo.P1 [(.mapcloud 0 (Demo.msg 1), Demo.env 0)]).1 = true := by
    simp [batchView, mapAvailable, hv]
  simp only [batchStep, h1, if_true, hac, scanOf, ht, hv, Option.map_some, Option.some.injEq, exists_eq']

theorem originsOf_none_iff {P : Params} {env : Env} {stamp : ℝ} (hs : List Header) :
    originsOf P env stamp hs ≠ none ↔
      ∀ x ∈ hs, env.tfFull P.baseFrame stamp x.frame x.stamp P.odomFrame ≠ none := by
  induction hs with
  | nil => simp [originsOf]
  | cons x hs ih =>
    rw [originsOf, List.forall_mem_cons, ← ih]
    cases ht : env.tfFull P.baseFrame stamp x.frame x.stamp P.odomFrame with
    | none => simp
    | some t => simp

/-- The points a batch offers to the likelihood model: transformed to the robot at the time of the last
cloud, downsampled, and near the robot. -/
noncomputable def usablePoints (P : Params) (env : Env) (t : Tf) (b : List Scan) : List Point :=
  open Classical in
  (env.voxel P.downsample ((labelled b).map fun p => { p with pos := t.point p.pos })).filter fun p => usable P p.pos

theorem rejected_iff (P : Params) (p : Vec3 ℝ) :
    (!Lidar.rejected P.like.clip (P.like.clip.near * P.like.clip.near) (P.like.clip.far * P.like.clip.far) p) = true ↔
      usable P p := by
  unfold Lidar.rejected usable
  simp only [pow_two]
  split_ifs with h1 h2 h3
  · simp only [Bool.not_true, Bool.false_eq_true, false_iff]
    intro h; linarith [h.2.1]
  · simp only [Bool.not_true, Bool.false_eq_true, false_iff]
    intro h; linarith [h.1]
  · simp only [Bool.not_true, Bool.false_eq_true, false_iff]
    intro h; rcases h3 with h3 | h3
    · linarith [h.2.2.1]
    · linarith [h.2.2.2]
  · push _root_.Not at h3
    simp only [Bool.not_false, true_iff]
    exact ⟨by linarith, by linarith, h3.1, h3.2⟩

theorem like_fields {p : Lidar.LikeParams} {l : Lidar.Like} (h : Lidar.Like.Reach p l) :
    l.params = p ∧ l.clipFarSq = p.clip.far * p.clip.far ∧ l.clipNearSq = p.clip.near * p.clip.near := by
  induction h with
  | make => exact ⟨rfl, rfl, rfl⟩
  | set n c _ ih => exact ih

/-- The filtered cloud of the likelihood model is empty iff no point is usable. -/
theorem likePc_empty {P : Params}
    (hpts : 0 < P.like.numDefault ∧ 0 < P.like.numGlobal) {lib : Lib C} {env : Env} (hv : env.Valid) {acc : AccSt}
    {loc : LocSt C} (hlike : Lidar.Like.Reach P.like loc.like) {header : Header} {b : List Scan}
    (hc : acc.cloud = some (labelled b)) {t : Tf} (ht : env.tf P.baseFrame P.odomFrame header.stamp = some t) {p : Prep}
    (hp : prepare P lib env acc loc header = .ok (.ready p)) :
    p.likePc = [] ↔ usablePoints P env t b = [] := by
  obtain ⟨pts, t', h1, h2, _, h4, h5, _, _, h8, _, h10⟩ := prepare_ready hp
  rw [hc] at h1
  rw [ht] at h2
  simp only [Option.some.injEq] at h1 h2
  subst h1 h2
  have hreach : Lidar.Like.Reach P.like p.like := by rw [h8]; exact .set _ _ hlike
  obtain ⟨e1, e2, e3⟩ := like_fields hreach
  have hnum : 0 < p.like.numPoints := by
    rw [h8]
    simp only [Lidar.Like.setGlobalLocalizationStatus, Lidar.globalNumPoints]
    rw [(like_fields hlike).1]
    split_ifs with g1 g2
    · exact hpts.1
    · exact hpts.2
    · exact lt_of_lt_of_le hpts.2 (not_lt.1 g2)
  unfold Lidar.Like.filter Lidar.filter at h10
  rw [e1, e2, e3] at h10
  have hfil : (p.full.filter fun q => !Lidar.rejected P.like.clip (P.like.clip.near * P.like.clip.near)
      (P.like.clip.far * P.like.clip.far) q.pos) = usablePoints P env t b := by
    rw [usablePoints, h5, h4]
    apply List.filter_congr
    intro q _
    have := rejected_iff P q.pos
    classical
    by_cases hu : usable P q.pos
    · rw [this.2 hu, decide_eq_true hu]
    · rw [decide_eq_false hu, Bool.eq_false_iff]
      exact fun h => hu (this.1 h)
  rw [hfil] at h10
  by_cases hsamp : P.useNormalSampler = true
  · rw [sample, if_pos hsamp] at h10
    obtain ⟨c, hc1, hc2⟩ := Outcome.bind_eq_ok_iff.1 h10
    simp only [Outcome.ok.injEq] at hc2
    obtain ⟨_, g1, g2, g3⟩ := Sampler.C73_distinct hv.order hc1
    rw [← hc2]
    constructor
    · intro h
      by_cases hl : (usablePoints P env t b).length ≤ p.like.numPoints
      · have e : c = ⟨(), usablePoints P env t b⟩ := g2 hnum hl
        rw [e] at h; exact h
      · have := (g3 hnum (not_le.1 hl)).1
        rw [h] at this
        simp at this
        omega
    · intro h
      exact g1 (.inr h)
  · rw [sample] at h10
    rw [if_neg hsamp] at h10
    obtain ⟨c, hc1, hc2⟩ := Outcome.bind_eq_ok_iff.1 h10
    simp only [Outcome.ok.injEq] at hc2
    obtain ⟨out, g1, _, _, g4, g5⟩ := Sampler.C72_uniform (env.index 1 (usablePoints P env t b).length)
      (⟨(), usablePoints P env t b⟩ : Sampler.Cloud Unit Point) p.like.numPoints
      (fun hne k => hv.index _ _ _ (List.length_pos_iff.2 hne))
    rw [g1] at hc1
    simp only [Outcome.ok.injEq] at hc1
    subst hc1
    rw [← hc2]
    constructor
    · intro h
      by_contra hne
      have := g4 hne
      rw [h] at this
      simp at this
      omega
    · intro h
      exact g5 h

/-- C112: a measured batch, with its transforms missing, publishes nothing; with its transforms and no
point near the robot it publishes only the error POINTS_NOT_FOUND; otherwise exactly one pose, in the map
frame with the time of the last cloud, and a status without error. -/
theorem C112_measured {P : Params}
    (hpts : 0 < P.like.numDefault ∧ 0 < P.like.numGlobal) {lib : Lib C} {env0 : Env} (hv0 : env0.Valid)
    {motion0 : Motion ℝ} {h : History} {e : Event × Env} (hv : HistValid (h ++ [e]))
    (hreg : RegularClouds (h ++ [e])) {n0 n : Node C} {outs : List (List Out)} {o : List Out}
    (hs : start P lib env0 motion0 = .ok n0) (hr : run P lib n0 (h ++ [e]) = .ok (n, outs ++ [o]))
    {b : List Scan} {s : Scan} (hb : (batchStep P (batchView P h).1 (batchView P h).2 e).1 = some (b ++ [s]))
    (hm : batches [o] = [true]) :
    (¬ transformable P e.2 (b ++ [s]) s.header.stamp → o = [.batch true]) ∧
    (transformable P e.2 (b ++ [s]) s.header.stamp → ∀ t, e.2.tf P.baseFrame P.odomFrame s.header.stamp = some t →
      (usablePoints P e.2 t (b ++ [s]) = [] → ∃ st ent lev, o = [.batch true, .status st ent lev] ∧
        st.error = .pointsNotFound) ∧
      (usablePoints P e.2 t (b ++ [s]) ≠ [] →
        (∃ pos rot cov, o.filter (fun x => (Out.poseCov x).isSome) = [.pose s.header.stamp P.mapFrame pos rot cov]) ∧
        ∃ st ent lev, .status st ent lev ∈ o ∧ st.error = .normal)) := by
  obtain ⟨n1, os, o1, h1, h2, h3⟩ := run_snoc_ok hr
  obtain ⟨hos, ho1⟩ := List.append_inj' h3 rfl
  simp only [List.cons.injEq, and_true] at ho1
  subst hos ho1
  have hi := run_batchView (fun e he => hreg e (List.mem_append_left _ he)) h1 (start_batch hs)
  obtain ⟨_, _, hsome⟩ := step_batch hi (hreg e (by simp)) h2
  obtain ⟨_, acc, c, hh, hc, hcore⟩ := hsome _ hb
  have hve : e.2.Valid := hv e (by simp)
  have hreach : Reachable P lib n1 := ⟨env0, motion0, n0, h, _, hv0, fun e he => hv e (List.mem_append_left _ he), hs, h1⟩
  have hlike : Lidar.Like.Reach P.like (freshen e.2 n1).loc.like := (reachable_models hreach).1
  obtain ⟨_, _, ⟨_, _, _, ho⟩ | ⟨_, hme⟩⟩ := measureCore_ok hcore
  · rw [ho] at hm; cases hm
  have hlast : acc.headers.getLast? = some s.header := by rw [hh]; simp
  have hst : (freshen e.2 n1).loc.status.error = .normal := rfl
  have htrans : ∀ os, originsOf P e.2 s.header.stamp acc.headers = some os →
      ∀ x ∈ b ++ [s], e.2.tfFull P.baseFrame s.header.stamp x.header.frame x.header.stamp P.odomFrame ≠ none := by
    intro os ho x hx
    have := (originsOf_none_iff (P := P) (env := e.2) (stamp := s.header.stamp) acc.headers).1 (by simp [ho])
    rw [hh] at this
    exact this x.header (List.mem_map_of_mem hx)
  generalize n.loc = loc2 at hme
  generalize (freshen e.2 n1).loc = loc1 at hme hlike hst
  cases hme with
  | noHeader hnil => rw [hnil] at hlast; cases hlast
  | noTf header hl hp =>
    rw [hlast] at hl
    simp only [Option.some.injEq] at hl
    subst hl
    refine ⟨fun _ => rfl, fun htr t ht => ?_⟩
    unfold prepare at hp
    rw [hc, ht] at hp
    simp only at hp
    split at hp
    · simp at hp
    · obtain ⟨_, _, hp⟩ := Outcome.bind_eq_ok_iff.1 hp
      obtain ⟨_, _, hp⟩ := Outcome.bind_eq_ok_iff.1 hp
      obtain ⟨_, _, hp⟩ := Outcome.bind_eq_ok_iff.1 hp
      simp at hp
  | noOrigin header cl hl hp =>
    rw [hlast] at hl
    simp only [Option.some.injEq] at hl
    subst hl
    refine ⟨fun _ => rfl, fun htr t ht => ?_⟩
    unfold prepare at hp
    rw [hc, ht] at hp
    simp only at hp
    split at hp
    · rename_i hnone
      refine absurd hnone ((originsOf_none_iff _).2 ?_)
      rw [hh]
      intro x hx
      obtain ⟨y, hy, rfl⟩ := List.mem_map.1 hx
      exact htr.2 y hy
    · obtain ⟨_, _, hp⟩ := Outcome.bind_eq_ok_iff.1 hp
      obtain ⟨_, _, hp⟩ := Outcome.bind_eq_ok_iff.1 hp
      obtain ⟨_, _, hp⟩ := Outcome.bind_eq_ok_iff.1 hp
      simp at hp
  | noPoints header p hl hp hnil =>
    rw [hlast] at hl
    simp only [Option.some.injEq] at hl
    subst hl
    obtain ⟨_, t', _, ht', ho, _⟩ := prepare_ready hp
    refine ⟨fun hn => absurd ⟨by simp [ht'], htrans _ ho⟩ hn, fun _ t ht => ⟨fun _ => ⟨_, _, _, rfl, rfl⟩, fun hne => ?_⟩⟩
    exact absurd ((likePc_empty hpts hve hlike hc ht hp).1 hnil) hne
  | localized header p _ outs' hl hp hne hloc =>
    rw [hlast] at hl
    simp only [Option.some.injEq] at hl
    subst hl
    obtain ⟨_, t', _, ht', ho, _⟩ := prepare_ready hp
    refine ⟨fun hn => absurd ⟨by simp [ht'], htrans _ ho⟩ hn, fun _ t ht => ⟨fun h0 => ?_, fun _ => ?_⟩⟩
    · exact absurd ((likePc_empty hpts hve hlike hc ht hp).2 h0) hne
    · obtain ⟨r, _, _, _, _, _, hmo, _, _, _, _, _, houts⟩ := localize_ok hloc
      have hmm := matchOutput_only hmo
      have hf : r.mo.2.filter (fun x => (Out.poseCov x).isSome) = [] := by
        rw [List.filter_eq_nil_iff]
        intro x hx
        obtain ⟨s, l, rfl | rfl⟩ := hmm x hx <;> simp [Out.poseCov]
      constructor
      · refine ⟨(r.smooth P n1.odo loc1).pos, (r.smooth P n1.odo loc1).rot, r.cov, ?_⟩
        rw [houts]
        simp only [List.filter_append, hf, List.filter_cons, List.filter_nil]
        cases P.publishTf <;> simp [Out.poseCov, publishParticles, publishStatus]
      · obtain ⟨ent, lev, hps⟩ : ∃ ent lev, publishStatus (r.status P n1.stdWarn loc1) r.pf6 =
            .status (r.status P n1.stdWarn loc1) ent lev := ⟨_, _, rfl⟩
        refine ⟨r.status P n1.stdWarn loc1, ent, lev, ?_, hst⟩
        rw [houts, ← hps]
        simp

/-! ## Non-vacuity: a run that localizes -/

namespace Demo

theorem regular_msg (x : ℝ) : Regular (msg x) := by
  intro k hk
  simp only [List.mem_cons, List.not_mem_nil, or_false] at hk
  rcases hk with rfl | rfl | rfl <;>
    simp [msg, Conv.Msg.index, List.findIdx?_cons]

theorem validCloud_msg (x : ℝ) : validCloud (msg x) = true := by
  rw [← fromROSMsg_valid, fromROSMsg_msg]

theorem scanOf_msg (P : Params) (t : ℝ) (header : Header) (x : ℝ) :
    scanOf P (env t) header (msg x) = some ⟨header, [⟨x, 0, 0⟩]⟩ := by
  have h1 : (env t).tf P.odomFrame header.frame header.stamp = some tf0 := rfl
  simp [scanOf, h1, validCloud_msg, cloudPoints, fromROSMsg_msg, tf0_point]

theorem completes_one (s : ℝ) (pts : List (Vec3 ℝ)) :
    completes P0 [⟨⟨"laser", s⟩, pts⟩] "laser" := by
  right
  exact ⟨_, _, rfl, rfl, by simp [Params.toSize]⟩

theorem not_completes_nil (f : String) : ¬ completes P0 [] f := by
  rintro (h | ⟨s, t, h, _⟩)
  · simp [Params.toSize] at h
  · cases h

theorem usable_msg (t s x : ℝ) (h1 : 1 / 2 ≤ x) (h2 : x ≤ 10) :
    usablePoints P0 (env t) tf0 [⟨⟨"laser", s⟩, [⟨x, 0, 0⟩]⟩] ≠ [] := by
  have hu : usable P0 ⟨x, 0, 0⟩ := by
    have e : P0.like.clip = ⟨1 / 2, 10, -2, 2⟩ := by
      simp [P0, Params.loadFrom, Params.loadLike, Server.dblD, Server.getDouble]
    unfold usable
    rw [e]
    refine ⟨?_, ?_, by norm_num, by norm_num⟩
    · simp only; nlinarith
    · simp only; nlinarith
  unfold usablePoints
  rw [List.ne_nil_iff_length_pos, List.length_pos_iff_exists_mem]
  refine ⟨⟨⟨x, 0, 0⟩, 0⟩, ?_⟩
  rw [List.mem_filter]
  exact ⟨by simp [env, labelled_single, tf0_point], by simpa using hu⟩

/-- The next cloud after a usable one leads to a pose with the time of the first. -/
theorem localizes_pts {L : Lib C} {h : History} (hh : ∀ e ∈ h, e.2.Valid) (hreg : RegularClouds h) {n0 n : Node C}
    {outs : List (List Out)} {o : List Out} {t s s' : ℝ} {m' : Conv.Msg} (hm' : Regular m')
    {pts : List (Vec3 ℝ)} (hu : usablePoints P0 (env t) tf0 [⟨⟨"laser", s⟩, pts⟩] ≠ [])
    (hs : start P0 L (env 0) motion0 = .ok n0)
    (hr : run P0 L n0 (h ++ [(.cloud ⟨"laser", s'⟩ m', env t)]) = .ok (n, outs ++ [o]))
    (hb : batchView P0 h = (true, [⟨⟨"laser", s⟩, pts⟩])) :
    (∃ pos rot cov, o.filter (fun x => (Out.poseCov x).isSome) = [.pose s P0.mapFrame pos rot cov]) ∧
      ∃ st ent lev, .status st ent lev ∈ o ∧ st.error = .normal := by
  have hv : HistValid (h ++ [(.cloud ⟨"laser", s'⟩ m', env t)]) := by
    intro e he
    rcases List.mem_append.1 he with he | he
    · exact hh e he
    · rw [List.mem_singleton.1 he]; exact env_valid t
  have hrg : RegularClouds (h ++ [(.cloud ⟨"laser", s'⟩ m', env t)]) := by
    intro e he
    rcases List.mem_append.1 he with he | he
    · exact hreg e he
    · rw [List.mem_singleton.1 he]
      rintro header m ⟨⟩
      exact hm'
  have hstep : (batchStep P0 (batchView P0 h).1 (batchView P0 h).2
      (.cloud ⟨"laser", s'⟩ m', env t)).1 = some ([] ++ [⟨⟨"laser", s⟩, pts⟩]) := by
    rw [hb]
    simp [batchStep, completes_one s]
  have hm : batches [o] = [true] := by
    rcases C111_batches hrg hs hr with ⟨h3, _⟩ | ⟨_, _, _, h3 | h3⟩
    · rw [hstep] at h3; cases h3
    · exact h3
    · exfalso
      obtain ⟨n1, os, o1, g1, g2, g3⟩ := run_snoc_ok hr
      obtain ⟨_, ho1⟩ := List.append_inj' g3 rfl
      simp only [List.cons.injEq, and_true] at ho1
      subst ho1
      rcases (step_view (by simp) (env_valid t) g2).batch with ⟨hbn, _⟩ | ⟨_, _, ⟨hne, _⟩ | ⟨_, hbt⟩⟩
      · rw [h3] at hbn; cases hbn
      · exact hne (by simp [Params.toSize, Nat.mod_one])
      · rw [h3] at hbt; cases hbt
  have hC := (C112_measured (P := P0) (by
    simp [P0, Params.loadFrom, Params.loadLike, Server.intD, Server.getInt, Params.toSize]) (env_valid 0) hv hrg hs hr hstep hm).2
  exact (hC ⟨by simp [env], fun _ _ => by simp [env]⟩ tf0 rfl).2 hu

/-- The next cloud after a usable one leads to a pose with the time of the first. -/
theorem localizes {h : History} (hh : ∀ e ∈ h, e.2.Valid) (hreg : RegularClouds h) {n0 n : Node Unit}
    {outs : List (List Out)} {o : List Out} {t s s' x y : ℝ} (h1 : 1 / 2 ≤ x) (h2 : x ≤ 10)
    (hs : start P0 lib (env 0) motion0 = .ok n0)
    (hr : run P0 lib n0 (h ++ [(.cloud ⟨"laser", s'⟩ (msg y), env t)]) = .ok (n, outs ++ [o]))
    (hb : batchView P0 h = (true, [⟨⟨"laser", s⟩, [⟨x, 0, 0⟩]⟩])) :
    (∃ pos rot cov, o.filter (fun x => (Out.poseCov x).isSome) = [.pose s P0.mapFrame pos rot cov]) ∧
      ∃ st ent lev, .status st ent lev ∈ o ∧ st.error = .normal :=
  localizes_pts hh hreg (regular_msg y) (usable_msg _ _ _ h1 h2) hs hr hb

/-- A map and two clouds. -/
noncomputable def history2 : History :=
  [(.mapcloud 1 (msg 10), env 1), (.cloud ⟨"laser", 2⟩ (msg 10), env 2)]

theorem history2_view : batchView P0 history2 = (true, [⟨⟨"laser", 2⟩, [⟨10, 0, 0⟩]⟩]) := by
  simp [batchView, history2, batchStep, mapAvailable, validCloud_msg, not_completes_nil, scanOf_msg]

end Demo

/-- C111, C112 are not empty: with the default parameters, after a map and a cloud the second cloud of the
same sensor completes a batch, whose pose has the time of the first. -/
example : ∃ n0 n outs o, start Demo.P0 Demo.lib (Demo.env 0) Demo.motion0 = .ok n0 ∧
    run Demo.P0 Demo.lib n0 (Demo.history2 ++ [(.cloud ⟨"laser", 3⟩ (Demo.msg 10), Demo.env 3)]) =
      .ok (n, outs ++ [o]) ∧
    ∃ pos rot cov, o.filter (fun x => (Out.poseCov x).isSome) = [.pose 2 Demo.P0.mapFrame pos rot cov] := by
  obtain ⟨n0, hs, n, outs, hr, hl⟩ := C110_no_crash Demo.sane_P0 Demo.works (Demo.env 0) Demo.motion0
    (Demo.history2 ++ [(.cloud ⟨"laser", 3⟩ (Demo.msg 10), Demo.env 3)]) (by
      have hx : ∀ x, HasXYZ (Demo.msg x) := by simp [HasXYZ, Demo.msg]
      simp [Demo.history2, SafeEvent, hx, Demo.env_valid, Demo.keeps])
  obtain ⟨n1, os, o, h1, h2, rfl⟩ := run_snoc_ok hr
  refine ⟨n0, n, os, o, hs, hr, ?_⟩
  exact (Demo.localizes (by simp [Demo.history2, Demo.env_valid])
    (by
      intro e he header m hm
      simp only [Demo.history2, List.mem_cons, List.not_mem_nil, or_false] at he
      rcases he with rfl | rfl
      · cases hm
      · cases hm; exact Demo.regular_msg _)
    (by norm_num) le_rfl hs hr Demo.history2_view).1

end Node
end Mcl3dl
