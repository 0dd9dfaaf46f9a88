import Verif.Props.Likelihood
import Verif.Props.NodeMatchDemo

/-! # C101: the entropy in the published status -/

set_option linter.unusedSectionVars false

namespace Mcl3dl
namespace Node

variable {C : Type}

theorem measure_entropy {f : Filter} (lik : State6 ℝ → ℝ) (h : f.entropy ≠ none) :
    (f.measure Real.log lik).entropy ≠ none := by
  simp only [PF.Filter.measure]
  split_ifs
  · simp
  · exact h

theorem measureWith_entropy {f : Filter} (ls : List ℝ) (h : f.entropy ≠ none) : (measureWith f ls).entropy ≠ none := by
  simp only [measureWith]
  split_ifs
  · simp
  · exact h

/-- A localization keeps what the weighting of the particles made of the entropy. -/
theorem localize_entropy {P : Params} {lib : Lib C} {env : Env} (hv : env.Valid) {m : MapSt} {odo : OdoSt}
    {warn : Vec3 ℝ} {loc loc' : LocSt C} {header : Header} {p : Prep} {outs : List Out}
    (h : localize P lib env m odo warn loc header p = .ok (loc', outs)) :
    ∃ w, weighLoop P lib m p loc.pf.particles ⟨loc.caster, 1, 0⟩ = .ok w ∧
      loc'.pf.entropy = (measureWith loc.pf w.1).entropy ∧ loc'.status.matchRatio = w.2.ratioMax := by
  obtain ⟨r, hw, _, _, _, _, _, h3, h5, h6, _, rfl, _⟩ := localize_ok h
  refine ⟨r.w, hw, ?_, rfl⟩
  show r.pf6.entropy = _
  have e6 : r.pf6.entropy = r.pf5.entropy := by
    rw [reduceFilter] at h6
    split_ifs at h6
    · exact (resizeFilter_spec hv h6).2.2.1
    · simp only [Outcome.ok.injEq] at h6
      rw [h6]
  have e5 : r.pf5.entropy = (driftFilter P env r.pf3).entropy := by
    rw [expandFilter] at h5
    split_ifs at h5
    · exact (addNoise_spec h5).2
    · simp only [Outcome.ok.injEq] at h5
      rw [← h5]
  have e3 := (resampleFilter_spec hv h3).2
  have e2 : (r.pf2 P loc).entropy = (r.pf1 P loc).entropy := by
    unfold LocRun.pf2
    split_ifs <;> rfl
  rw [e6, e5, (driftFilter_spec _ _ _).2, e3, e2, LocRun.pf1, (biasFilter_spec _ _ _).2]

theorem sensor_entropy {P : Params} {env : Env} (fuel : ℕ) {n n' : Node C}
    {msg : OdomMsg ⊕ ImuMsg} {outs : List Out} (h : sensor P env fuel n msg = .ok (n', outs))
    (hw : n.loc.pf.entropy ≠ none) : n'.loc.pf.entropy ≠ none := by
  have hodom : ∀ (n : Node C) msg, n.loc.pf.entropy ≠ none → (odomCore P n msg).1.loc.pf.entropy ≠ none := by
    intro n msg hw
    simp only [odomCore]
    split_ifs <;> exact hw
  have himu : ∀ (n : Node C) msg, n.loc.pf.entropy ≠ none → (imuCore P env n msg).1.loc.pf.entropy ≠ none := by
    intro n msg hw
    simp only [imuCore]
    cases env.tf P.baseFrame msg.frame 0 with
    | none => split_ifs <;> exact hw
    | some t =>
      split_ifs <;> first | exact hw | exact measure_entropy _ hw
  induction fuel generalizing n msg outs with
  | zero => simp [sensor] at h
  | succ fuel ih =>
    cases msg with
    | inl msg =>
      have := hodom n msg hw
      rw [sensor] at h
      rcases hc : odomCore P n msg with ⟨n1, _ | im⟩
      · rw [hc] at h this
        simp only [Outcome.ok.injEq, Prod.mk.injEq] at h
        rw [← h.1]; exact this
      · rw [hc] at h this
        obtain ⟨⟨n2, o2⟩, h2, h⟩ := Outcome.bind_eq_ok_iff.1 h
        simp only [Outcome.ok.injEq, Prod.mk.injEq] at h
        obtain ⟨rfl, rfl⟩ := h; exact ih (n := n1) h2 this
    | inr msg =>
      have := himu n msg hw
      rw [sensor] at h
      rcases hc : imuCore P env n msg with ⟨n1, _ | im⟩
      · rw [hc] at h this
        simp only [Outcome.ok.injEq, Prod.mk.injEq] at h
        rw [← h.1]; exact this
      · rw [hc] at h this
        obtain ⟨⟨n2, o2⟩, h2, h⟩ := Outcome.bind_eq_ok_iff.1 h
        simp only [Outcome.ok.injEq, Prod.mk.injEq] at h
        obtain ⟨rfl, rfl⟩ := h; exact ih (n := n1) h2 this

/-- Once the entropy is defined it stays defined. -/
theorem step_entropy {P : Params} {lib : Lib C} {env : Env} (hv : env.Valid) {n n' : Node C} {ev : Event}
    {o : List Out} (h : step P lib env n ev = .ok (n', o)) (hw : n.loc.pf.entropy ≠ none) :
    n'.loc.pf.entropy ≠ none := by
  cases ev with
  | mapcloud stamp msg =>
    rcases cbMapcloud_ok h with ⟨_, rfl, _⟩ | ⟨_, hl⟩
    · exact hw
    · obtain ⟨_, _, _, _, h5, _⟩ := load_frame hl
      rw [h5]; exact hw
  | mapcloudUpdate msg =>
    simp only [step, Outcome.ok.injEq, Prod.mk.injEq] at h
    rw [← h.1]
    simp only [cbMapcloudUpdate]
    rcases Conv.fromROSMsg msg [] with ⟨_ | _, pts⟩ <;> exact hw
  | loadPcd file =>
    rcases cbLoadPcd_ok h with ⟨_, rfl, _⟩ | ⟨_, _, _, hl, _⟩
    · exact hw
    · obtain ⟨_, _, _, _, h5, _⟩ := load_frame hl
      rw [h5]; exact hw
  | timer =>
    obtain ⟨r, _, h⟩ := Outcome.bind_eq_ok_iff.1 h
    simp only [Outcome.ok.injEq, Prod.mk.injEq] at h
    rw [← h.1]; exact hw
  | cloud header msg =>
    obtain ⟨_, _, _, _, hcase⟩ := cbCloud_loc h
    rcases hcase with ⟨hl, _, _⟩ | ⟨_, acc, c, hcore⟩
    · rw [hl]; exact hw
    obtain ⟨_, _, ⟨_, _, hk, _⟩ | ⟨_, hme⟩⟩ := measureCore_ok hcore
    · rw [hk]; exact hw
    generalize n'.loc = loc2 at hme
    cases hme with
    | noHeader _ => exact hw
    | noTf _ _ _ => exact hw
    | noOrigin _ _ _ _ => exact hw
    | noPoints _ _ _ _ _ => exact hw
    | localized _ _ _ _ _ _ _ hl =>
      obtain ⟨w, _, e, _⟩ := localize_entropy hv hl
      rw [e]
      exact measureWith_entropy _ hw
  | odom msg => exact sensor_entropy _ h hw
  | imu msg => exact sensor_entropy _ h hw
  | initialpose msg =>
    rcases cbPosition_ok h with ⟨rfl, _⟩ | ⟨_, t, st, _, rfl, _⟩
    · exact hw
    · exact hw
  | landmark msg =>
    obtain ⟨pf, h2, rfl, _⟩ := cbLandmark_ok h
    show pf.entropy ≠ none
    rw [(resampleFilter_spec hv h2).2]
    exact measure_entropy _ hw
  | resize size =>
    obtain ⟨pf, h2, rfl, _⟩ := cbResize_ok h
    show pf.entropy ≠ none
    rw [(resizeFilter_spec hv h2).2.2.1]
    exact hw
  | expansionReset =>
    obtain ⟨pf, h2, rfl, _⟩ := cbExpansionReset_ok h
    show pf.entropy ≠ none
    rw [(addNoise_spec h2).2]
    exact hw
  | globalLocalization =>
    rcases cbGlobalLocalization_ok h with ⟨_, rfl, _⟩ | ⟨_, c, pf, ps, _, h1, _, rfl, _⟩
    · exact hw
    · show pf.entropy ≠ none
      rw [(resizeFilter_spec hv h1).2.2.1]
      exact hw
  | reconfigure w =>
    simp only [step, Outcome.ok.injEq, Prod.mk.injEq] at h
    rw [← h.1]; exact hw

theorem run_entropy {P : Params} {lib : Lib C} {h : History} (hv : HistValid h) {n n' : Node C}
    {outs : List (List Out)} (hr : run P lib n h = .ok (n', outs)) (hw : n.loc.pf.entropy ≠ none) :
    n'.loc.pf.entropy ≠ none := by
  induction h generalizing n outs with
  | nil =>
    simp only [run, Outcome.ok.injEq, Prod.mk.injEq] at hr
    rw [← hr.1]; exact hw
  | cons e h ih =>
    obtain ⟨ev, env⟩ := e
    obtain ⟨n1, o, os, hs, hr', rfl⟩ := run_cons_ok hr
    exact ih (fun e he => hv e (by simp [he])) hr' (step_entropy (hv (ev, env) (by simp)) hs hw)

/-- A callback publishes the entropy of the filter it leaves. -/
theorem status_entropy {P : Params} {lib : Lib C} {env : Env} {n n' : Node C} {ev : Event}
    {o : List Out} (h : step P lib env n ev = .ok (n', o)) {s : Status} {ent : Option ℝ} {lev : Level}
    (hs : .status s ent lev ∈ o) : ent = n'.loc.pf.entropy ∧
      (s.matchRatio = 0 ∨ s = n'.loc.status ∧ ∃ hd p outs,
        (∃ acc : AccSt, prepare P lib env acc (freshen env n).loc hd = .ok (.ready p)) ∧
        localize P lib env n.map n.odo n.stdWarn (freshen env n).loc hd p = .ok (n'.loc, outs)) := by
  rcases step_cases h with ⟨_, h4 | ⟨b, rfl | ⟨rfl, hpf⟩⟩⟩ | ⟨_, _, hd, p, acc, outs', _, _, hpr, _, hl, rfl⟩
  · exact absurd (h4 _ hs) id
  · simp at hs
  · simp only [publishStatus, List.mem_cons, reduceCtorEq, List.not_mem_nil, or_false, false_or, Out.status.injEq] at hs
    refine ⟨by rw [hs.2.1, hpf], .inl ?_⟩
    rw [hs.1]
    rfl
  · have hl' := hl
    obtain ⟨r, _, _, _, _, _, hmo, _, _, _, _, hloc, rfl⟩ := localize_ok hl'
    have hmm := matchOutput_only hmo
    have hnp : .status s ent lev ∉ r.mo.2 := by
      intro hx; obtain ⟨s, l, hc | hc⟩ := hmm _ hx <;> cases hc
    have : .status s ent lev ∉ (if P.publishTf = true then
        [Out.transforms (transformsOf P (outStamp P n.odo (freshen env n).loc.tolBase (env.now 1))
          (r.smooth P n.odo (freshen env n).loc))] else []) := by split_ifs <;> simp
    simp only [List.mem_cons, List.mem_append, List.not_mem_nil, or_false, hnp, this, publishParticles, publishStatus,
      reduceCtorEq, false_or, Out.status.injEq] at hs
    refine ⟨?_, .inr ⟨?_, hd, p, _, ⟨acc, hpr⟩, hl⟩⟩
    · rw [hs.2.1, hloc]
    · rw [hs.1, hloc]

/-- C101: after a status with a defined entropy every later status has one too. -/
theorem C101_stays {P : Params} {lib : Lib C} {n0 n1 n3 n4 : Node C} {h : History} {outs : List (List Out)}
    {e1 e2 : Event × Env} {o1 o2 : List Out} (hv : HistValid (h ++ [e2]))
    (hs1 : step P lib e1.2 n0 e1.1 = .ok (n1, o1)) (hr : run P lib n1 h = .ok (n3, outs))
    (hs2 : step P lib e2.2 n3 e2.1 = .ok (n4, o2)) {s1 s2 : Status} {ent1 ent2 : Option ℝ} {l1 l2 : Level}
    (h1 : .status s1 ent1 l1 ∈ o1) (h2 : .status s2 ent2 l2 ∈ o2) (hd : ent1 ≠ none) : ent2 ≠ none := by
  rw [(status_entropy hs1 h1).1] at hd
  rw [(status_entropy hs2 h2).1]
  exact step_entropy (hv e2 (by simp)) hs2 (run_entropy (fun e he => hv e (by simp [he])) hr hd)

/-! ## A status with matched points has an entropy -/

/-- Every particle has a positive weight. -/
def AllPos (f : Filter) : Prop := ∀ p ∈ f.particles, 0 < p.prob

theorem AllPos.same {f f' : Filter} (h : AllPos f)
    (e : f'.particles.map PF.Particle.prob = f.particles.map PF.Particle.prob) : AllPos f' := by
  intro p hp
  have : p.prob ∈ f'.particles.map PF.Particle.prob := List.mem_map_of_mem hp
  rw [e] at this
  obtain ⟨q, hq, hpq⟩ := List.mem_map.1 this
  rw [← hpq]; exact h q hq

theorem uniform_pos {f : Filter} {n : ℕ} (hl : f.particles.length = n)
    (hp : ∀ p ∈ f.particles, p.prob = 1 / (n : ℝ)) : AllPos f := by
  intro p hpm
  rw [hp p hpm]
  have : 0 < n := by rw [← hl]; exact List.length_pos_of_mem hpm
  positivity

theorem AllPos.measure {f : Filter} (h : AllPos f) {lik : State6 ℝ → ℝ} (hl : ∀ s, 0 < lik s) :
    AllPos (f.measure Real.log lik) := by
  simp only [PF.Filter.measure]
  split_ifs with ht
  · intro p hp
    obtain ⟨q, hq, rfl⟩ := List.mem_map.1 hp
    obtain ⟨q', hq', rfl⟩ := List.mem_map.1 hq
    exact div_pos (mul_pos (h q' hq') (hl _)) ht
  · exact h

theorem sensor_pos {P : Params} (hs : P.accVar ≠ 0) {env : Env} (fuel : ℕ) {n n' : Node C}
    {msg : OdomMsg ⊕ ImuMsg} {outs : List Out} (h : sensor P env fuel n msg = .ok (n', outs))
    (hw : AllPos n.loc.pf) : AllPos n'.loc.pf := by
  have hodom : ∀ (n : Node C) msg, AllPos n.loc.pf → AllPos (odomCore P n msg).1.loc.pf := by
    intro n msg hw
    simp only [odomCore]
    split_ifs <;> first | exact hw | exact hw.same (predict_prob _ _)
  have himu : ∀ (n : Node C) msg, AllPos n.loc.pf → AllPos (imuCore P env n msg).1.loc.pf := by
    intro n msg hw
    simp only [imuCore]
    cases env.tf P.baseFrame msg.frame 0 with
    | none => split_ifs <;> exact hw
    | some t =>
      split_ifs <;> first | exact hw | exact hw.measure fun s => (Mcl3dl.NormalLikelihood.C80_shape _ hs).1 _
  induction fuel generalizing n msg outs with
  | zero => simp [sensor] at h
  | succ fuel ih =>
    cases msg with
    | inl msg =>
      have := hodom n msg hw
      rw [sensor] at h
      rcases hc : odomCore P n msg with ⟨n1, _ | im⟩
      · rw [hc] at h this
        simp only [Outcome.ok.injEq, Prod.mk.injEq] at h
        rw [← h.1]; exact this
      · rw [hc] at h this
        obtain ⟨⟨n2, o2⟩, h2, h⟩ := Outcome.bind_eq_ok_iff.1 h
        simp only [Outcome.ok.injEq, Prod.mk.injEq] at h
        obtain ⟨rfl, rfl⟩ := h; exact ih (n := n1) h2 this
    | inr msg =>
      have := himu n msg hw
      rw [sensor] at h
      rcases hc : imuCore P env n msg with ⟨n1, _ | im⟩
      · rw [hc] at h this
        simp only [Outcome.ok.injEq, Prod.mk.injEq] at h
        rw [← h.1]; exact this
      · rw [hc] at h this
        obtain ⟨⟨n2, o2⟩, h2, h⟩ := Outcome.bind_eq_ok_iff.1 h
        simp only [Outcome.ok.injEq, Prod.mk.injEq] at h
        obtain ⟨rfl, rfl⟩ := h; exact ih (n := n1) h2 this

theorem init_pos (f : Filter) (st : ℕ → State6 ℝ) : AllPos (f.init st) := by
  refine uniform_pos (n := f.particles.length) (by simp [PF.Filter.init]) ?_
  intro p hp
  simp only [PF.Filter.init, List.mem_mapIdx] at hp
  obtain ⟨i, hi, rfl⟩ := hp
  rfl

/-- Every callback leaves positive weights. -/
theorem step_pos {P : Params} (hs : P.accVar ≠ 0) (hd : 0 < P.divYaw) {lib : Lib C} {env : Env} (hv : env.Valid)
    {n n' : Node C} {ev : Event} {o : List Out} (h : step P lib env n ev = .ok (n', o))
    (hw : AllPos n.loc.pf) : AllPos n'.loc.pf := by
  cases ev with
  | mapcloud stamp msg =>
    rcases cbMapcloud_ok h with ⟨_, rfl, _⟩ | ⟨_, hl⟩
    · exact hw
    · obtain ⟨_, _, _, _, h5, _⟩ := load_frame hl
      rw [h5]; exact hw
  | mapcloudUpdate msg =>
    simp only [step, Outcome.ok.injEq, Prod.mk.injEq] at h
    rw [← h.1]
    simp only [cbMapcloudUpdate]
    rcases Conv.fromROSMsg msg [] with ⟨_ | _, pts⟩ <;> exact hw
  | loadPcd file =>
    rcases cbLoadPcd_ok h with ⟨_, rfl, _⟩ | ⟨_, _, _, hl, _⟩
    · exact hw
    · obtain ⟨_, _, _, _, h5, _⟩ := load_frame hl
      rw [h5]; exact hw
  | timer =>
    obtain ⟨r, _, h⟩ := Outcome.bind_eq_ok_iff.1 h
    simp only [Outcome.ok.injEq, Prod.mk.injEq] at h
    rw [← h.1]; exact hw
  | cloud header msg =>
    obtain ⟨_, _, _, _, hcase⟩ := cbCloud_loc h
    rcases hcase with ⟨hl, _, _⟩ | ⟨_, acc, c, hcore⟩
    · rw [hl]; exact hw
    obtain ⟨_, _, ⟨_, _, hk, _⟩ | ⟨_, hme⟩⟩ := measureCore_ok hcore
    · rw [hk]; exact hw
    generalize n'.loc = loc2 at hme
    cases hme with
    | noHeader _ => exact hw
    | noTf _ _ _ => exact hw
    | noOrigin _ _ _ _ => exact hw
    | noPoints _ _ _ _ _ => exact hw
    | localized _ _ _ _ _ _ _ hl => exact uniform_pos rfl (localize_equal hv hl)
  | odom msg => exact sensor_pos hs _ h hw
  | imu msg => exact sensor_pos hs _ h hw
  | initialpose msg =>
    rcases cbPosition_ok h with ⟨rfl, _⟩ | ⟨_, t, st, _, rfl, _⟩
    · exact hw
    · exact (init_pos _ _).same (predict_prob _ _)
  | landmark msg =>
    obtain ⟨pf, h2, rfl, _⟩ := cbLandmark_ok h
    obtain ⟨hl, hp⟩ := resampleFilter_uniform hv h2
    exact uniform_pos hl hp
  | resize size =>
    obtain ⟨pf, h2, rfl, _⟩ := cbResize_ok h
    obtain ⟨_, hl, _, _, hp⟩ := resizeFilter_spec hv h2
    exact uniform_pos hl hp
  | expansionReset =>
    obtain ⟨pf, h2, rfl, _⟩ := cbExpansionReset_ok h
    exact hw.same (addNoise_prob h2)
  | globalLocalization =>
    rcases cbGlobalLocalization_ok h with ⟨_, rfl, _⟩ | ⟨_, c, pf, ps, _, h1, h2, rfl, _⟩
    · exact hw
    obtain ⟨_, hl, _⟩ := resizeFilter_spec hv h1
    obtain ⟨dn, hdn⟩ : ∃ d : ℕ, P.divYaw = (d : ℤ) := ⟨P.divYaw.toNat, (Int.toNat_of_nonneg hd.le).symm⟩
    rw [hdn] at h2 hl hd
    have hd' : 0 < dn := by exact_mod_cast hd
    obtain ⟨hl2, hp⟩ := place_spec pf.particles 0 hd' _ (by exact_mod_cast h2)
    generalize standingPoints P lib env c.points = sp at *
    have hlen : ps.length = sp.length * dn := by
      rw [hl2, hl]
      have : ((sp.length : ℤ) * (dn : ℤ)) = ((sp.length * dn : ℕ) : ℤ) := by push_cast; ring
      rw [this, Int.toNat_natCast]
    intro p hpm
    have hpm' : p ∈ ps := hpm
    obtain ⟨k, hk1, rfl⟩ := List.mem_iff_getElem.1 hpm'
    obtain ⟨_, q, _, e, _, e2, _⟩ := hp k (by omega)
    rw [List.getElem?_eq_getElem hk1] at e
    simp only [Option.some.injEq] at e
    rw [e, e2]
    have : 0 < sp.length := by
      rcases Nat.eq_zero_or_pos sp.length with h0 | h0
      · rw [hlen, h0] at hk1; simp at hk1
      · exact h0
    positivity
  | reconfigure w =>
    simp only [step, Outcome.ok.injEq, Prod.mk.injEq] at h
    rw [← h.1]; exact hw

theorem run_pos {P : Params} (hs : P.accVar ≠ 0) (hd : 0 < P.divYaw) {lib : Lib C} {h : History} (hv : HistValid h)
    {n n' : Node C} {outs : List (List Out)} (hr : run P lib n h = .ok (n', outs)) (hw : AllPos n.loc.pf) :
    AllPos n'.loc.pf := by
  induction h generalizing n outs with
  | nil =>
    simp only [run, Outcome.ok.injEq, Prod.mk.injEq] at hr
    rw [← hr.1]; exact hw
  | cons e h ih =>
    obtain ⟨ev, env⟩ := e
    obtain ⟨n1, o, os, h1, hr', rfl⟩ := run_cons_ok hr
    exact ih (fun e he => hv e (by simp [he])) hr' (step_pos hs hd (hv (ev, env) (by simp)) h1 hw)

/-- The kd-tree reports distances below the radius. -/
def ReportsNear (lib : Lib C) : Prop := ∀ pts q r k, ∀ e ∈ lib.flann pts q r k, e.2 < r ^ 2

theorem search_near {P : Params} {lib : Lib C} (hf : ReportsNear lib) {m : MapSt} {x : Vec3 ℝ} {r : ℝ}
    {l : List (ℕ × ℝ)} (h : search P lib m x r = .ok l) : ∀ e ∈ l, e.2 < r ^ 2 := by
  unfold search ChunkedKdtree.radiusSearch at h
  simp only at h
  split_ifs at h with h1 h2 h3
  · simp only [Outcome.ok.injEq] at h
    rw [← h]; simp
  · simp only [Outcome.ok.injEq] at h
    rw [← h]
    intro e he
    obtain ⟨e', he', hm⟩ := List.mem_filterMap.1 he
    have := hf _ _ _ _ e' he'
    cases hc : (m.kd (ChunkedKdtree.chunkId (kdCfg P) x))[e'.1]? with
    | none => rw [hc] at hm; cases hm
    | some ip =>
      rw [hc] at hm
      simp only [Option.map_some, Option.some.injEq] at hm
      rw [← hm]; exact this

theorem likeLoop_pos {A : Type} {p : Lidar.LikeParams} (hw : 0 < p.matchWeight) (hf : p.matchDistFlat < p.matchDistMin)
    (h0 : 0 < p.matchDistMin)
    {search : Vec3 ℝ → ℝ → Outcome (List (ℕ × ℝ))}
    (hn : ∀ x l, search x p.matchDistMin = .ok l → ∀ e ∈ l, e.2 < p.matchDistMin ^ 2)
    (pts : List (Pt ℝ A)) {score : ℝ} {num : ℕ} (hs : 0 ≤ score) (hsn : num ≠ 0 → 0 < score)
    {r : ℝ × ℕ} (h : Lidar.likeLoop p search pts score num = .ok r) : 0 ≤ r.1 ∧ (r.2 ≠ 0 → 0 < r.1) := by
  induction pts generalizing score num with
  | nil =>
    simp only [Lidar.likeLoop, Outcome.ok.injEq] at h
    rw [← h]; exact ⟨hs, hsn⟩
  | cons q qs ih =>
    rw [Lidar.likeLoop] at h
    obtain ⟨l, hl, h⟩ := Outcome.bind_eq_ok_iff.1 h
    cases l with
    | nil => exact ih hs hsn h
    | cons e l =>
      simp only at h
      split_ifs at h with hd
      · exact ih hs hsn h
      · have hlt : Real.sqrt e.2 < p.matchDistMin := by
          rw [Real.sqrt_lt' h0]
          exact hn _ _ hl e (by simp)
        have hpos : 0 < (p.matchDistMin - max (Real.sqrt e.2) p.matchDistFlat) * p.matchWeight := by
          apply mul_pos _ hw
          have := max_lt hlt hf
          linarith
        exact ih (by linarith) (fun _ => by linarith) h

/-- What the weights of a measurement depend on. -/
structure Weighs (P : Params) : Prop where
  beam : 0 < P.beam.likelihoodMin
  weight : 0 < P.like.matchWeight
  dist : 0 < P.like.matchDistMin
  flat : P.like.matchDistFlat < P.like.matchDistMin
  sigma : P.integLinSigma ≠ 0
  acc : P.accVar ≠ 0
  yaw : 0 < P.divYaw

theorem particleLikelihood_pos {P : Params} (hP : Weighs P)
    {lib : Lib C} (hf : ReportsNear lib) {m : MapSt} {p : Prep} (h1 : p.beam.params = P.beam)
    (h2 : p.like.params = P.like) {s : State6 ℝ} {w : WeighSt C} {r : ℝ × WeighSt C}
    (h : particleLikelihood P lib m p s w = .ok r) :
    0 ≤ r.1 ∧ (w.ratioMax < r.2.ratioMax → 0 ≤ w.ratioMax → 0 < r.1) ∧ w.ratioMax ≤ r.2.ratioMax := by
  rw [particleLikelihood] at h
  obtain ⟨rb, hrb, h⟩ := Outcome.bind_eq_ok_iff.1 h
  obtain ⟨rl, hrl, h⟩ := Outcome.bind_eq_ok_iff.1 h
  simp only [Outcome.ok.injEq] at h
  rw [← h]
  have e1 : 0 < rb.1.likelihood := by
    simp only [Lidar.Beam.measure] at hrb
    split_ifs at hrb with h0
    · simp only [Outcome.ok.injEq] at hrb
      rw [← hrb]; exact zero_lt_one
    · obtain ⟨x, _, hx⟩ := Outcome.bind_eq_ok_iff.1 hrb
      simp only [Outcome.ok.injEq] at hx
      rw [← hx]
      simp only [h1]
      split_ifs with hx
      · exact hP.beam
      · exact lt_of_lt_of_le hP.beam (not_lt.1 hx)
  have e2 : 0 ≤ rl.likelihood ∧ (0 < rl.quality → 0 < rl.likelihood) := by
    simp only [Lidar.Like.measure] at hrl
    split_ifs at hrl with h0
    · simp only [Outcome.ok.injEq] at hrl
      rw [← hrl]; exact ⟨zero_le_one, fun _ => zero_lt_one⟩
    · obtain ⟨x, hx0, hx⟩ := Outcome.bind_eq_ok_iff.1 hrl
      simp only [Outcome.ok.injEq] at hx
      rw [← hx]
      have := likeLoop_pos (p := p.like.params) (by rw [h2]; exact hP.weight) (by rw [h2]; exact hP.flat)
        (by rw [h2]; exact hP.dist) (fun x l hl => search_near hf hl) _ le_rfl (fun h => absurd rfl h) hx0
      refine ⟨this.1, fun hq => this.2 ?_⟩
      intro hz
      rw [hz] at hq
      simp at hq
  have e3 := (Mcl3dl.NormalLikelihood.C80_shape P.integLinSigma hP.sigma).1 s.integLin.norm
  simp only [one_mul]
  refine ⟨mul_nonneg (mul_nonneg e1.le e2.1) e3.le, fun hlt hge => ?_, ?_⟩
  · split_ifs at hlt with hc
    · exact mul_pos (mul_pos e1 (e2.2 (lt_of_le_of_lt hge hc))) e3
    · exact absurd hlt (lt_irrefl _)
  · split_ifs with hc
    · exact hc.le
    · exact le_rfl

theorem weighLoop_pos {P : Params} (hP : Weighs P)
    {lib : Lib C} (hf : ReportsNear lib) {m : MapSt} {p : Prep} (h1 : p.beam.params = P.beam)
    (h2 : p.like.params = P.like) {ps : List Particle} {w : WeighSt C} {r : List ℝ × WeighSt C} (h0 : 0 ≤ w.ratioMax)
    (h : weighLoop P lib m p ps w = .ok r) :
    (∀ x ∈ r.1, 0 ≤ x) ∧ (w.ratioMax < r.2.ratioMax → ∃ x ∈ r.1, 0 < x) ∧ w.ratioMax ≤ r.2.ratioMax := by
  induction ps generalizing w r with
  | nil =>
    simp only [weighLoop, Outcome.ok.injEq] at h
    rw [← h]; simp
  | cons q qs ih =>
    rw [weighLoop] at h
    obtain ⟨a, ha, h⟩ := Outcome.bind_eq_ok_iff.1 h
    obtain ⟨b, hb', h⟩ := Outcome.bind_eq_ok_iff.1 h
    simp only [Outcome.ok.injEq] at h
    rw [← h]
    obtain ⟨a1, a2, a3⟩ := particleLikelihood_pos hP hf h1 h2 ha
    obtain ⟨b1, b2, b3⟩ := ih (le_trans h0 a3) hb'
    refine ⟨?_, fun hlt => ?_, le_trans a3 b3⟩
    · intro x hx
      rcases List.mem_cons.1 hx with rfl | hx
      · exact a1
      · exact b1 x hx
    · rcases lt_or_ge w.ratioMax a.2.ratioMax with hc | hc
      · exact ⟨a.1, List.mem_cons_self, a2 hc h0⟩
      · obtain ⟨x, hx, hx0⟩ := b2 (lt_of_le_of_lt hc hlt)
        exact ⟨x, List.mem_cons_of_mem _ hx, hx0⟩

theorem zipWith_sum_pos {ps : List Particle} (h : ∀ p ∈ ps, 0 < p.prob) {ls : List ℝ} (hlen : ls.length = ps.length)
    (hl : ∀ x ∈ ls, 0 ≤ x) (hx : ∃ x ∈ ls, 0 < x) :
    0 < ((List.zipWith (fun (p : Particle) l => { p with prob := p.prob * l }) ps ls).map PF.Particle.prob).sum := by
  induction ps generalizing ls with
  | nil =>
    obtain ⟨x, hx, _⟩ := hx
    rw [List.length_nil, List.length_eq_zero_iff] at hlen
    rw [hlen] at hx; simp at hx
  | cons q ps ih =>
    cases ls with
    | nil => simp at hlen
    | cons l ls =>
      rw [List.zipWith_cons_cons, List.map_cons, List.sum_cons]
      have hq := h q (by simp)
      have hl0 := hl l (by simp)
      have hrest : 0 ≤ ((List.zipWith (fun (p : Particle) l => { p with prob := p.prob * l }) ps ls).map PF.Particle.prob).sum := by
        apply List.sum_nonneg
        intro x hx
        obtain ⟨p, hp, rfl⟩ := List.mem_map.1 hx
        exact zipWith_nonneg (fun p hp => (h p (by simp [hp])).le) (fun x hx => hl x (by simp [hx])) p hp
      obtain ⟨x, hx, hx0⟩ := hx
      rcases List.mem_cons.1 hx with rfl | hx
      · have := mul_pos hq hx0
        exact add_pos_of_pos_of_nonneg this hrest
      · have := ih (fun p hp => h p (by simp [hp])) (by simpa using hlen) (fun x hx => hl x (by simp [hx])) ⟨x, hx, hx0⟩
        exact add_pos_of_nonneg_of_pos (mul_nonneg hq.le hl0) this

/-- C101: with sensible parameters every status that reports a positive match ratio carries a
defined entropy, after any history. -/
theorem C101_matched {P : Params} (hP : Weighs P) {lib : Lib C} (hf : ReportsNear lib) {env0 env : Env}
    (hv0 : env0.Valid) (hve : env.Valid) {motion0 : Motion ℝ} {h : History} (hv : HistValid h) {n0 n n' : Node C}
    {outs : List (List Out)} {ev : Event} {o : List Out} (hs : start P lib env0 motion0 = .ok n0)
    (hr : run P lib n0 h = .ok (n, outs)) (hst : step P lib env n ev = .ok (n', o)) {s : Status} {ent : Option ℝ}
    {lev : Level} (hm : .status s ent lev ∈ o) (hpos : 0 < s.matchRatio) : ent ≠ none := by
  obtain ⟨he, h0 | ⟨hs', hd, p, outs', ⟨acc, hpr⟩, hl⟩⟩ := status_entropy hst hm
  · rw [h0] at hpos; exact absurd hpos (lt_irrefl _)
  obtain ⟨w, hw, e1, e2⟩ := localize_entropy hve hl
  rw [hs', e2] at hpos
  have hreach : Reachable P lib n := ⟨env0, motion0, n0, h, _, hv0, hv, hs, hr⟩
  obtain ⟨hlk, hbm⟩ := reachable_models hreach
  obtain ⟨_, _, _, _, _, _, _, _, hb1, hl1, _⟩ := prepare_ready hpr
  have hpb : p.beam.params = P.beam := by
    have : Lidar.Beam.Reach P.beam p.beam := by rw [hb1]; exact .set _ _ hbm
    exact this.facts.1
  have hpl : p.like.params = P.like := by
    have : Lidar.Like.Reach P.like p.like := by rw [hl1]; exact .set _ _ hlk
    exact (like_fields this).1
  obtain ⟨w1, w2, _⟩ := weighLoop_pos hP hf hpb hpl le_rfl hw
  have hall : AllPos n.loc.pf := by
    refine run_pos hP.acc hP.yaw hv hr ?_
    obtain ⟨_, ns, _, rfl⟩ := start_ok hs
    exact init_pos _ _
  have hsum := zipWith_sum_pos hall (weighLoop_length hw) w1 (w2 hpos)
  rw [he, e1]
  simp only [measureWith]
  rw [if_pos (by rw [PF.total_eq]; exact hsum)]
  simp

/-- The hypotheses of `C101_matched` on the parameters are met by the defaults. -/
theorem Demo.weighs : Weighs Demo.P0 := by
  refine ⟨?_, ?_, ?_, ?_, ?_, ?_, ?_⟩
  · norm_num [Demo.P0, Params.loadFrom, Params.loadBeam, Server.dblD, Server.getDouble]
  · norm_num [Demo.P0, Params.loadFrom, Params.loadLike, Server.dblD, Server.getDouble]
  · norm_num [Demo.P0, Params.loadFrom, Params.loadLike, Server.dblD, Server.getDouble]
  · norm_num [Demo.P0, Params.loadFrom, Params.loadLike, Server.dblD, Server.getDouble]
  · norm_num [Demo.P0, Params.loadFrom, Server.dblD, Server.getDouble]
  · norm_num [Demo.P0, Params.loadFrom, Server.dblD, Server.getDouble]
  · rw [Demo.P0_divYaw]; norm_num

/-- The hypothesis of `C101_matched` on the kd-tree is met by the demo's. -/
theorem Demo.reportsNear : ReportsNear Demo.exactLib := by
  intro pts q r k e he
  obtain ⟨_, _, h1, h2⟩ := (Demo.exactFlann_spec pts q r k).sound e he
  rw [h1]; exact h2

/-- C101, before any usable measurement: with the default parameters, if the first measured cloud has no usable point, the status
published carries an entropy that has never been computed. -/
theorem C101_undefined_before : ∃ n0 n outs o, start Demo.P0 Demo.exactLib (Demo.env 0) Demo.motion0 = .ok n0 ∧
    run Demo.P0 Demo.exactLib n0 (Demo.poseHistory 10 100 100 ++ [Demo.lastCloud]) = .ok (n, outs ++ [o]) ∧
    ∃ s lev, .status s none lev ∈ o := by
  have hx : ∀ x, HasXYZ (Demo.msg x) := by simp [HasXYZ, Demo.msg]
  have hx2 : ∀ x y, HasXYZ (Demo.msg2 x y) := by simp [HasXYZ, Demo.msg2]
  obtain ⟨n0, hs, n, outs, hr, hl, _⟩ := Demo.exact_runs (Demo.poseHistory 10 100 100 ++ [Demo.lastCloud]) (by
    simp [Demo.poseHistory, Demo.lastCloud, SafeEvent, hx, hx2, Demo.env_valid, Demo.keeps])
  obtain ⟨n1, os, o, g1, g2, rfl⟩ := run_snoc_ok hr
  refine ⟨n0, n, os, o, hs, hr, ?_⟩
  have hent := (Demo.poseHistory_run hs g1).2.2.2.2.2.1
  have hmeas : batches [o] = [true] := by
    rcases C111_batches (Demo.poseHistory_regular' _ _ _) hs hr with ⟨h3, _⟩ | ⟨_, _, _, h3 | h3⟩
    · rw [Demo.poseHistory_step] at h3; cases h3
    · exact h3
    · exfalso
      rcases (step_view (by simp) (Demo.env_valid 4) g2).batch with ⟨hbn, _⟩ | ⟨_, _, ⟨hne, _⟩ | ⟨_, hbt⟩⟩
      · rw [h3] at hbn; cases hbn
      · exact hne (by simp [Params.toSize, Nat.mod_one])
      · rw [h3] at hbt; cases hbt
  have hv : HistValid (Demo.poseHistory 10 100 100 ++ [Demo.lastCloud]) := by
    intro e he
    rcases List.mem_append.1 he with he | he
    · exact Demo.poseHistory_valid _ _ _ e he
    · rw [List.mem_singleton.1 he]; exact Demo.env_valid 4
  have hC := (C112_measured (P := Demo.P0) (by
    simp [Demo.P0, Params.loadFrom, Params.loadLike, Server.intD, Server.getInt, Params.toSize]) (Demo.env_valid 0) hv
    (Demo.poseHistory_regular' _ _ _) hs hr (Demo.poseHistory_step _ _ _) hmeas).2
  have hC1 := (hC ⟨by simp [Demo.env, Demo.lastCloud], fun _ _ => by simp [Demo.env, Demo.lastCloud]⟩ Demo.tf0 rfl).1
  obtain ⟨st, ent, lev, rfl, hst⟩ := hC1 (by
    have e : Demo.P0.like.clip = ⟨1 / 2, 10, -2, 2⟩ := by
      simp [Demo.P0, Params.loadFrom, Params.loadLike, Server.dblD, Server.getDouble]
    unfold usablePoints
    rw [List.filter_eq_nil_iff]
    intro p hp
    simp only [Demo.env, Demo.lastCloud, List.nil_append, labelled_single, List.map_cons, List.map_nil, List.mem_cons,
      List.not_mem_nil, or_false, or_self, Demo.tf0_point] at hp
    subst hp
    unfold usable
    rw [e]
    simp only [decide_eq_true_eq]
    intro h
    have := h.2.1
    norm_num at this)
  refine ⟨st, lev, ?_⟩
  have : ent = none := by
    rcases step_cases g2 with ⟨_, h4 | ⟨b, h4 | ⟨h4, hpf⟩⟩⟩ | ⟨_, _, hd, p, acc, outs', _, _, _, _, hl, h4⟩
    · exact absurd (h4 (.status st ent lev) (by simp)) id
    · simp at h4
    · simp only [publishStatus, List.cons.injEq, Out.batch.injEq, Out.status.injEq, and_true] at h4
      rw [h4.2.2.1, hent]
    · exfalso
      obtain ⟨r, _, _, _, _, _, _, _, _, _, _, _, ho⟩ := localize_ok hl
      have := congrArg List.length h4
      rw [ho] at this
      simp at this
      try omega
  rw [← this]
  simp

end Node
end Mcl3dl
