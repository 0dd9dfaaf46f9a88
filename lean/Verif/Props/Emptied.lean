import Verif.Spec.Emptied
import Verif.Props.NodeSafe
import Verif.Proofs.NodeOut
import Verif.Props.AnchorDemo
import Verif.Props.Display
import Verif.Props.NodeWeightSum

/-! # C172: a request for zero particles is accepted, and nothing brings particles back -/

set_option linter.unusedSectionVars false

namespace Mcl3dl
namespace Node

variable {C : Type}

/-- The filter after a request for no particles. -/
theorem resize_zero {env : Env} (hv : env.Valid) (f : Filter) :
    resizeFilter env f 0 = .ok { f with particles := [] } := by
  have hs := hv.sort (PF.accumulate 0 f.particles)
  obtain ⟨f2, h2, he, hl, _⟩ := PF.resize_spec State6.default env.junk f 0 _ hs (.inr rfl)
  rw [resizeFilter, if_neg (by norm_num)]
  show PF.Filter.resize State6.default env.junk f 0 _ = _
  rw [h2]
  congr 1
  cases f2
  simp only at he hl
  rw [he, List.length_eq_zero_iff.1 hl]

/-- C172: a request for zero particles is always accepted, and the node then has none. -/
theorem C172_accepted (P : Params) (lib : Lib C) {env : Env} (hv : env.Valid) (n : Node C) :
    ∃ n' t, step P lib env n (.resize 0) = .ok (n', [.particles t [], .response true]) ∧
      n' = emptied n := by
  show ∃ n' t, cbResize P env n 0 = _ ∧ _
  unfold cbResize
  rw [resize_zero hv, Outcome.bind_ok]
  exact ⟨_, _, rfl, rfl⟩

/-- A localization needs a particle. -/
theorem localize_empty {P : Params} {lib : Lib C} {env : Env} {m : MapSt} {odo : OdoSt} {warn : Vec3 ℝ}
    {loc : LocSt C} {header : Header} {p : Prep} (he : loc.pf.particles = []) :
    (localize P lib env m odo warn loc header p).isUb = true := by
  unfold localize
  rw [he]
  simp only [weighLoop, Outcome.bind_ok]
  have h1 : (biasFilter P loc.statePrev (measureWith loc.pf [])).particles = [] := by
    have := (biasFilter_spec P loc.statePrev (measureWith loc.pf [])).1
    rw [measureWith_length _ _ (by rw [he]; rfl), he] at this
    exact List.length_eq_zero_iff.1 this
  rw [PF.Filter.max, h1]
  rfl

theorem mapTimer_idle {P : Params} {env : Env} {m m' : MapSt} {o : List Out}
    (h : mapTimer P env m = .ok (m', o)) : ∀ x ∈ o, x.Idle := by
  rw [mapTimer] at h
  cases hm : m.hasMap with
  | false =>
    simp only [hm, Bool.false_eq_true, if_false, Outcome.ok.injEq, Prod.mk.injEq] at h
    simp [← h.2]
  | true =>
    simp only [hm, if_true] at h
    cases hu : m.update with
    | some u =>
      rw [hu] at h
      simp only at h
      split at h
      · simp at h
      · simp only [Outcome.ok.injEq, Prod.mk.injEq] at h
        simp [← h.2, Out.Idle]
    | none =>
      rw [hu] at h
      simp only at h
      cases hme : m.merged with
      | some r =>
        rw [hme] at h
        simp only [Outcome.ok.injEq, Prod.mk.injEq] at h
        simp [← h.2]
      | none =>
        rw [hme] at h
        simp only at h
        cases hb : m.base with
        | none => rw [hb] at h; simp at h
        | some b =>
          rw [hb] at h
          simp only at h
          cases hc : m.heap[b]? with
          | none => rw [hc] at h; simp at h
          | some c =>
            rw [hc] at h
            simp only [Outcome.ok.injEq, Prod.mk.injEq] at h
            simp [← h.2, Out.Idle]

/-- One callback of a node without particles. -/
theorem step_empty {P : Params} {lib : Lib C} {env : Env} (hv : env.Valid) {n n' : Node C} {ev : Event}
    {o : List Out} (he : n.loc.pf.particles = []) (h : step P lib env n ev = .ok (n', o)) :
    n'.loc.pf.particles = [] ∧ (∀ x ∈ o, x.Idle) ∧ ¬ AsksParticles (ev, env) := by
  by_cases hc : ∃ header msg, ev = .cloud header msg
  · obtain ⟨header, msg, rfl⟩ := hc
    obtain ⟨_, _, _, _, hcase⟩ := cbCloud_loc h
    refine ⟨?_, ?_, by simp [AsksParticles]⟩
    all_goals
      rcases hcase with ⟨hl, _, rfl⟩ | ⟨hm, acc, c, hcore⟩
      · first | (rw [hl]; exact he) | simp
      obtain ⟨_, _, hk⟩ := measureCore_ok hcore
      generalize hloc2 : n'.loc = loc2 at hk ⊢
      rcases hk with ⟨_, _, rfl, rfl⟩ | ⟨_, hme⟩
      · first | exact he | simp [Out.Idle]
      cases hme with
      | noHeader _ => first | exact he | simp [Out.Idle]
      | noTf _ _ _ => first | exact he | simp [Out.Idle]
      | noOrigin _ _ _ _ => first | exact he | simp [Out.Idle]
      | noPoints _ p _ _ _ => first | exact he | simp [Out.Idle, publishStatus]
      | localized hd p _ outs _ _ _ hl =>
        have := localize_empty (P := P) (lib := lib) (env := env) (m := n.map) (odo := n.odo) (warn := n.stdWarn)
          (loc := (freshen env n).loc) (header := hd) (p := p) he
        rw [hl] at this
        cases this
  · have hc' : ∀ header msg, ev ≠ .cloud header msg := fun a b hab => hc ⟨a, b, hab⟩
    have hlen := (step_minor_frame hv h hc').2
    have hmin := step_minor h hc'
    have key : n'.loc.pf.particles = [] ∧ ¬ AsksParticles (ev, env) := by
      by_cases hr : ∃ size, ev = .resize size
      · obtain ⟨size, rfl⟩ := hr
        obtain ⟨pf, h1, rfl, _⟩ := cbResize_ok h
        obtain ⟨h0, hl, _, hne, _⟩ := resizeFilter_spec hv h1
        have hz : size = 0 := hne.resolve_left fun h => h he
        subst hz
        exact ⟨List.length_eq_zero_iff.1 hl, by simp [AsksParticles]⟩
      by_cases hg : ev = .globalLocalization
      · subst hg
        refine ⟨?_, by simp [AsksParticles]⟩
        rcases cbGlobalLocalization_ok h with ⟨_, rfl, _⟩ | ⟨_, c, pf, ps, _, h1, h2, rfl, _⟩
        · exact he
        obtain ⟨_, hl, _, hne, _⟩ := resizeFilter_spec hv h1
        have hz := hne.resolve_left fun h => h he
        rw [hz] at hl
        rw [List.length_eq_zero_iff.1 hl] at h2
        simp only [place, Outcome.ok.injEq] at h2
        exact h2.symm
      · have := hlen (fun size hs => hr ⟨size, hs⟩) hg
        rw [he] at this
        refine ⟨List.length_eq_zero_iff.1 this, ?_⟩
        cases ev <;> simp [AsksParticles]
        exact absurd ⟨_, rfl⟩ hr
    refine ⟨key.1, fun x hx => ?_, key.2⟩
    have hmx := hmin x hx
    have hpub : ∀ {odo tol now}, x = publishParticles P odo tol now n'.loc.pf → x.Idle := by
      rintro odo tol now rfl
      show List.map _ n'.loc.pf.particles = []
      rw [key.1]; rfl
    have hload : ∀ {stamp pts o}, loadMapCloud P env n stamp pts = .ok (n', o) → x ∈ o → x.Idle := by
      intro stamp pts o hl hx
      obtain ⟨m, hm, _⟩ := loadMapCloud_ok hl
      exact mapTimer_idle hm x hx
    cases ev with
    | cloud header msg => exact absurd rfl (hc' header msg)
    | mapcloud stamp msg =>
      rcases cbMapcloud_ok h with ⟨_, _, rfl⟩ | ⟨_, hl⟩
      · cases hx
      · exact hload hl hx
    | mapcloudUpdate msg =>
      simp only [step, Outcome.ok.injEq, Prod.mk.injEq] at h
      rw [← h.2] at hx; cases hx
    | loadPcd file =>
      rcases cbLoadPcd_ok h with ⟨_, _, rfl⟩ | ⟨_, _, _, hl, rfl⟩
      · rw [List.mem_singleton.1 hx]; trivial
      · rcases List.mem_append.1 hx with hx | hx
        · exact hload hl hx
        · rw [List.mem_singleton.1 hx]; trivial
    | timer =>
      obtain ⟨⟨m, o'⟩, hm, h⟩ := Outcome.bind_eq_ok_iff.1 h
      simp only [Outcome.ok.injEq, Prod.mk.injEq] at h
      exact mapTimer_idle hm x (h.2 ▸ hx)
    | odom msg => rcases (sensor_frame _ h).2.2.2.2.2.2 x hx with rfl | rfl <;> trivial
    | imu msg => rcases (sensor_frame _ h).2.2.2.2.2.2 x hx with rfl | rfl <;> trivial
    | initialpose msg =>
      rcases cbPosition_ok h with ⟨_, rfl, _⟩ | ⟨_, _, _, _, _, rfl⟩
      · cases hx
      · exact hpub (List.mem_singleton.1 hx)
    | landmark msg =>
      obtain ⟨pf, _, rfl, rfl⟩ := cbLandmark_ok h
      exact hpub (List.mem_singleton.1 hx)
    | resize size =>
      obtain ⟨pf, _, rfl, rfl⟩ := cbResize_ok h
      rcases List.mem_cons.1 hx with hx | hx
      · exact hpub hx
      · rw [List.mem_singleton.1 hx]; trivial
    | expansionReset =>
      obtain ⟨pf, _, rfl, rfl⟩ := cbExpansionReset_ok h
      rcases List.mem_cons.1 hx with hx | hx
      · exact hpub hx
      · rw [List.mem_singleton.1 hx]; trivial
    | globalLocalization =>
      rcases cbGlobalLocalization_ok h with ⟨_, _, rfl⟩ | ⟨_, _, _, _, _, _, _, _, rfl⟩ <;>
        (rw [List.mem_singleton.1 hx]; trivial)
    | reconfigure w =>
      simp only [step, Outcome.ok.injEq, Prod.mk.injEq] at h
      rw [← h.2] at hx; cases hx

/-- A history of a node without particles. -/
theorem run_empty {P : Params} {lib : Lib C} {h : History} (hv : HistValid h) {n n' : Node C} {outs : List (List Out)}
    (he : n.loc.pf.particles = []) (hr : run P lib n h = .ok (n', outs)) :
    n'.loc.pf.particles = [] ∧ AllIdle outs ∧ ∀ e ∈ h, ¬ AsksParticles e := by
  induction h generalizing n outs with
  | nil =>
    simp only [run, Outcome.ok.injEq, Prod.mk.injEq] at hr
    rw [← hr.1, ← hr.2]
    exact ⟨he, by simp [AllIdle], by simp⟩
  | cons e h ih =>
    obtain ⟨ev, env⟩ := e
    obtain ⟨n1, o, os, h1, h2, rfl⟩ := run_cons_ok hr
    obtain ⟨a1, a2, a3⟩ := step_empty (show env.Valid from hv (ev, env) List.mem_cons_self) he h1
    obtain ⟨b1, b2, b3⟩ := ih (fun e he => hv e (List.mem_cons_of_mem _ he)) a1 h2
    refine ⟨b1, ?_, ?_⟩
    · intro o' ho'
      rcases List.mem_cons.1 ho' with rfl | ho'
      · exact a2
      · exact b2 o' ho'
    · intro e' he'
      rcases List.mem_cons.1 he' with rfl | he'
      · exact a3
      · exact b3 e' he'

/-- C172: after a request for zero particles, however long the node goes on and whatever it gets: it localizes nothing,
shows no particle, and no request for particles has been survived. -/
theorem C172_final {P : Params} {lib : Lib C} {n0 n : Node C} {before later : History} {env : Env}
    {outs : List (List Out)} (hv : HistValid (before ++ (.resize 0, env) :: later))
    (hr : run P lib n0 (before ++ (.resize 0, env) :: later) = .ok (n, outs)) :
    AllIdle (outs.drop before.length) ∧ n.loc.pf.particles = [] ∧ ∀ e ∈ later, ¬ AsksParticles e := by
  rw [run_append] at hr
  obtain ⟨⟨n1, o1⟩, h1, hr⟩ := Outcome.bind_eq_ok_iff.1 hr
  obtain ⟨⟨n2, o2⟩, h2, hr⟩ := Outcome.bind_eq_ok_iff.1 hr
  simp only [Outcome.ok.injEq, Prod.mk.injEq] at hr
  obtain ⟨rfl, rfl⟩ := hr
  obtain ⟨n3, o, os, h3, h4, rfl⟩ := run_cons_ok h2
  obtain ⟨n', t, h5, h6⟩ := C172_accepted P lib (show env.Valid from hv (.resize 0, env) (List.mem_append_right _ List.mem_cons_self)) n1
  rw [h3] at h5
  simp only [Outcome.ok.injEq, Prod.mk.injEq] at h5
  obtain ⟨rfl, rfl⟩ := h5
  obtain ⟨a1, a2, a3⟩ := run_empty (fun e he => hv e (List.mem_append_right _ (List.mem_cons_of_mem _ he))) (by rw [h6]; rfl) h4
  refine ⟨?_, a1, a3⟩
  have hlen : o1.length = before.length := run_length h1
  rw [List.drop_append_of_le_length (by omega), List.drop_of_length_le (by omega)]
  intro o' ho'
  rw [List.nil_append] at ho'
  rcases List.mem_cons.1 ho' with rfl | ho'
  · simp [Out.Idle]
  · exact a2 o' ho'

/-- C172: with `num_particles` 0 the node starts like that. -/
theorem C172_start {P : Params} (hP : P.numParticles = 0) {lib : Lib C} {env0 : Env} {motion0 : Motion ℝ} {n0 n : Node C}
    {h : History} (hv : HistValid h) {outs : List (List Out)} (hs : start P lib env0 motion0 = .ok n0)
    (hr : run P lib n0 h = .ok (n, outs)) :
    AllIdle outs ∧ ∀ e ∈ h, ¬ AsksParticles e := by
  obtain ⟨_, ns, _, rfl⟩ := start_ok hs
  exact (run_empty hv (by simp [hP, PF.Filter.init, PF.Filter.new]) hr).2

/-- C172: the next request for particles is undefined behaviour. -/
theorem C172_fatal_request {P : Params} {lib : Lib C} {n0 n : Node C} {before later : History} {env env' : Env}
    {outs : List (List Out)} (hv : HistValid (before ++ (.resize 0, env) :: later)) (hve : env'.Valid)
    (hr : run P lib n0 (before ++ (.resize 0, env) :: later) = .ok (n, outs)) {size : ℤ} (hpos : 0 < size) :
    (step P lib env' n (.resize size)).isUb = true := by
  have he := (C172_final hv hr).2.1
  show (cbResize P env' n size).isUb = true
  unfold cbResize resizeFilter
  rw [if_neg (by omega)]
  have hd : env'.sort (PF.accumulate 0 n.loc.pf.particles) = [] := by
    have := (hve.sort (PF.accumulate 0 n.loc.pf.particles)).length_eq
    rw [he] at this ⊢
    exact List.length_eq_zero_iff.1 this
  rw [hd]
  have := PF.resize_empty_ub State6.default env'.junk n.loc.pf size.toNat he (by omega)
  revert this
  cases PF.Filter.resize State6.default env'.junk n.loc.pf size.toNat [] <;> simp [Outcome.isUb]

/-- The preparation does not depend on the particles if there are not too many of them. -/
theorem prepare_emptied {P : Params} (hu : P.useNormalSampler = false) {lib : Lib C} {env : Env} {acc : AccSt}
    {loc : LocSt C} {header : Header} (hle : loc.pf.particles.length ≤ Params.toSize P.numParticles) :
    prepare P lib env acc { loc with pf := { loc.pf with particles := [] } } header = prepare P lib env acc loc header := by
  unfold prepare
  simp only [particleStats, hu, Bool.false_eq_true, if_false, Outcome.bind_ok, List.length_nil,
    Lidar.Beam.setGlobalLocalizationStatus, Lidar.Like.setGlobalLocalizationStatus, Lidar.globalNumPoints, if_pos hle,
    if_pos (Nat.zero_le _)]

/-- A measurement that publishes a pose is undefined without particles. -/
theorem measure_emptied {P : Params} (hu : P.useNormalSampler = false) {lib : Lib C} {env : Env} {n n' : Node C}
    {o : List Out} (hle : n.loc.pf.particles.length ≤ Params.toSize P.numParticles)
    (h : measure P lib env n = .ok (n', o)) (hp : ∃ x ∈ o, x.poseCov ≠ none) :
    (measure P lib env (emptied n)).isUb = true := by
  obtain ⟨x, hx, hxp⟩ := hp
  unfold measure at h
  obtain ⟨⟨cnt, c, loc', o'⟩, h1, h⟩ := Outcome.bind_eq_ok_iff.1 h
  simp only [Outcome.ok.injEq, Prod.mk.injEq] at h
  obtain ⟨rfl, rfl⟩ := h
  obtain ⟨hs, hcnt, hk⟩ := measureCore_ok h1
  rcases hk with ⟨_, _, _, rfl⟩ | ⟨hk, hme⟩
  · rw [List.mem_singleton.1 hx] at hxp; exact absurd rfl hxp
  cases hme with
  | noHeader _ => rw [List.mem_singleton.1 hx] at hxp; exact absurd rfl hxp
  | noTf _ _ _ => rw [List.mem_singleton.1 hx] at hxp; exact absurd rfl hxp
  | noOrigin _ _ _ _ => rw [List.mem_singleton.1 hx] at hxp; exact absurd rfl hxp
  | noPoints _ p _ _ _ =>
    exfalso
    simp only [List.mem_cons, List.not_mem_nil, or_false] at hx
    rcases hx with rfl | rfl <;> exact hxp rfl
  | localized hd p _ outs g1 g2 g3 hl =>
    have hlen : ¬ p.likePc.length = 0 := fun h => g3 (List.length_eq_zero_iff.1 h)
    rw [show measure P lib env (emptied n) =
      (measureCore P lib env n.map n.odo n.stdWarn n.acc (emptied n).loc n.cnt).bind (fun r =>
        .ok ({ emptied n with cnt := r.1, acc := { n.acc with cloud := r.2.1 }, loc := r.2.2.1 }, r.2.2.2)) from rfl]
    have key : (measureCore P lib env n.map n.odo n.stdWarn n.acc (emptied n).loc n.cnt).isUb = true := by
      unfold measureCore
      simp only
      rw [if_neg hs, if_neg (by rw [← hcnt]; simpa using hk), g1]
      simp only
      rw [show (emptied n).loc = { n.loc with pf := { n.loc.pf with particles := [] } } from rfl,
        prepare_emptied hu hle, g2, Outcome.bind_ok]
      simp only
      rw [if_neg hlen]
      have := localize_empty (P := P) (lib := lib) (env := env) (m := n.map) (odo := n.odo) (warn := n.stdWarn)
        (loc := { n.loc with pf := { n.loc.pf with particles := [] } }) (header := hd) (p := p) rfl
      revert this
      cases localize P lib env n.map n.odo n.stdWarn { n.loc with pf := { n.loc.pf with particles := [] } } hd p <;>
        simp [Outcome.isUb]
    revert key
    cases measureCore P lib env n.map n.odo n.stdWarn n.acc (emptied n).loc n.cnt <;> simp [Outcome.isUb]

/-- C172: a cloud with which the node would have published a pose is undefined behaviour after a request for zero
particles (with the uniform sampler, and not in the middle of a global localization). -/
theorem C172_fatal_cloud {P : Params} (hu : P.useNormalSampler = false) {lib : Lib C} {n0 n n1 : Node C} {h : History}
    {outs : List (List Out)} {header : Header} {msg : Conv.Msg} {env env' : Env} {o : List Out} (hv : env'.Valid)
    (hr : run P lib n0 h = .ok (n, outs)) (hle : n.loc.pf.particles.length ≤ Params.toSize P.numParticles)
    (hst : step P lib env n (.cloud header msg) = .ok (n1, o)) (hp : ∃ x ∈ o, x.poseCov ≠ none) :
    (run P lib n0 (h ++ [(.resize 0, env'), (.cloud header msg, env)])).isUb = true := by
  rw [run_append, hr, Outcome.bind_ok]
  obtain ⟨n', t, h1, h2⟩ := C172_accepted P lib hv n
  have key : (step P lib env n' (.cloud header msg)).isUb = true := by
    rw [h2]
    have hm : n.map.hasMap = true := by
      by_contra hm
      have : cbCloud P lib env n header msg = .ok (n1, o) := hst
      rw [cbCloud, if_neg hm] at this
      simp only [Outcome.ok.injEq, Prod.mk.injEq] at this
      obtain ⟨x, hx, _⟩ := hp
      rw [← this.2] at hx; cases hx
    show (cbCloud P lib env (emptied n) header msg).isUb = true
    have hst' : cbCloud P lib env n header msg = .ok (n1, o) := hst
    by_cases hP : P.accumCloud = 0
    · rw [cbCloud_form0 hm hP] at hst'
      rw [cbCloud_form0 (n := emptied n) hm hP, show (emptied n).acc = n.acc from rfl]
      obtain ⟨⟨b, a⟩, ha, hst'⟩ := Outcome.bind_eq_ok_iff.1 hst'
      simp only
      rw [ha, Outcome.bind_ok]
      cases b with
      | false =>
        simp only [Bool.false_eq_true, if_false, Outcome.ok.injEq, Prod.mk.injEq] at hst'
        obtain ⟨x, hx, _⟩ := hp
        rw [← hst'.2] at hx; cases hx
      | true =>
        simp only [if_true] at hst' ⊢
        exact measure_emptied (n := { freshen env n with acc := a }) hu hle hst' hp
    · rw [cbCloud_form hm hP] at hst'
      rw [cbCloud_form (n := emptied n) hm hP, show (emptied n).acc = n.acc from rfl]
      have hadd : ∀ k, addTo P env n header msg k ≠ .ok (n1, o) := by
        intro k hk
        unfold addTo at hk
        obtain ⟨x, hx, _⟩ := hp
        obtain ⟨a, _, hk⟩ := Outcome.bind_eq_ok_iff.1 hk
        simp only [Outcome.ok.injEq, Prod.mk.injEq] at hk
        rw [← hk.2] at hx; cases hx
      have hres : restartWith P lib env n header msg = .ok (n1, o) →
          (restartWith P lib env (emptied n) header msg).isUb
            = true := by
        intro hre
        unfold restartWith at hre
        obtain ⟨⟨n2, o2⟩, hme, hre⟩ := Outcome.bind_eq_ok_iff.1 hre
        obtain ⟨a, _, hre⟩ := Outcome.bind_eq_ok_iff.1 hre
        simp only [Outcome.ok.injEq, Prod.mk.injEq] at hre
        have := measure_emptied hu (n := freshen env n) hle hme (by rw [hre.2]; exact hp)
        unfold restartWith
        rw [show freshen env (emptied n) = emptied (freshen env n) from rfl]
        revert this
        cases measure P lib env (emptied (freshen env n)) <;> simp [Outcome.isUb]
      split_ifs at hst' ⊢
      all_goals first | exact absurd hst' (hadd _) | exact hres hst'
  rw [run, h1, Outcome.bind_ok, run]
  revert key
  cases step P lib env n' (.cloud header msg) <;> simp [Outcome.isUb]

/-- C172: a global localization in a map without a place to stand is such a request, too. -/
theorem C172_nowhere {P : Params} {lib : Lib C} {env : Env} (hv : env.Valid) {n : Node C} {c : MapCloud}
    (hm : n.map.hasMap = true) (hc : (n.map.base.bind fun b => n.map.heap[b]?) = some c)
    (hno : standingPoints P lib env c.points = []) :
    step P lib env n .globalLocalization = .ok (emptied n, [.response true]) := by
  show cbGlobalLocalization P lib env n = _
  unfold cbGlobalLocalization
  rw [if_pos hm, hc]
  simp only [hno, List.length_nil, Nat.cast_zero, zero_mul]
  rw [resize_zero hv, Outcome.bind_ok]
  rfl

/-- C172: in particular after loading a map file without points, which is accepted. -/
theorem C172_empty_map (P : Params) (lib : Lib C) {env env' : Env} (hv : env.Valid) (hv' : env'.Valid) (n : Node C) :
    ∃ n1 o, step P lib env n (.loadPcd (some [])) = .ok (n1, o) ∧ .response true ∈ o ∧
      step P lib env' n1 .globalLocalization = .ok (emptied n1, [.response true]) := by
  have hnil : ∀ {env : Env}, env.Valid → ∀ leaf, env.voxel leaf [] = [] := by
    intro env hv leaf
    cases h : env.voxel leaf [] with
    | nil => rfl
    | cons q l =>
      obtain ⟨p, hp, _⟩ := hv.voxel leaf [] q (by rw [h]; exact List.mem_cons_self)
      cases hp
  have h1 : ∃ n1 o, loadMapCloud P env n (pclStamp (env.now 1)) [] = .ok (n1, o) ∧ n1.map.hasMap = true ∧
      ∃ c, (n1.map.base.bind fun b => n1.map.heap[b]?) = some c ∧ c.points = [] := by
    unfold loadMapCloud mapTimer
    simp [hnil hv]
  obtain ⟨n1, o, h1, h2, c, h3, h4⟩ := h1
  refine ⟨n1, o ++ [.response true], ?_, by simp, C172_nowhere hv' h2 h3 ?_⟩
  · show cbLoadPcd P env n (some []) = _
    unfold cbLoadPcd
    simp only [h1, Outcome.bind_ok]
  · rw [standingPoints, h4, hnil hv']
    rfl

/-! ## A concrete case -/

/-- C172: the demo node after an odometry message, a map, a cloud and an odometry message: the next cloud gives a pose;
with a request for zero particles before it, it crashes. -/
example : ∃ n0 n n1 outs o pos rot cov, start Demo.PQ Demo.exactLib (Demo.env 0) Demo.motion0 = .ok n0 ∧
    run Demo.PQ Demo.exactLib n0 (Demo.knownHistory 3) = .ok (n, outs) ∧
    step Demo.PQ Demo.exactLib (Demo.env 4) n (.cloud ⟨"laser", 4⟩ (Demo.msg 10)) = .ok (n1, o) ∧
    .pose 2 Demo.PQ.mapFrame pos rot cov ∈ o ∧
    (run Demo.PQ Demo.exactLib n0 (Demo.knownHistory 3 ++
      [(.resize 0, Demo.env 4), (.cloud ⟨"laser", 4⟩ (Demo.msg 10), Demo.env 4)])).isUb = true := by
  obtain ⟨n0, hs, n1, os, hr⟩ := Demo.PQ_runs
    (h := Demo.knownHistory 3 ++ [(.cloud ⟨"laser", 4⟩ (Demo.msg 10), Demo.env 4)]) (fun e' he' => by
    rcases List.mem_append.1 he' with h1 | h1
    · exact Demo.known_plain 3 _ h1
    · rw [List.mem_singleton.1 h1]; exact Demo.plain_cloud _ _)
  obtain ⟨n, os1, o, g1, g2, rfl⟩ := run_snoc_ok hr
  obtain ⟨pos, rot, cov, hp⟩ := Demo.PQ_pose (Demo.known_plain 3) hs g1 g2 (s' := 2) (by
    have := Demo.batch_first 3 [] (by simp)
    rw [List.append_nil] at this
    rw [this]; exact Demo.batch_completes 4 2)
  have hcount := (run_counts (show 0 ≤ Demo.PQ.numParticles from by simp [Demo.PQ])
    (fun e he => (Demo.known_plain 3 e he).facts.1.1)
    (fun e he => by
      obtain ⟨ev, en⟩ := e
      obtain ⟨t, _, ⟨s, rfl⟩ | ⟨s, rfl⟩ | ⟨s, rfl⟩⟩ := Demo.known_plain 3 _ he <;>
        simp [keepsCount]) g1 rfl).2
  have h64 : n0.loc.pf.particles.length = 64 := by
    obtain ⟨_, ns, _, rfl⟩ := start_ok hs
    simp [PF.Filter.init, PF.Filter.new, Demo.PQ]
  rw [h64, shrink_iter_le (by simp [Demo.PQ])] at hcount
  refine ⟨n0, n, n1, os1, o, pos, rot, cov, hs, g1, g2, hp, ?_⟩
  exact C172_fatal_cloud Demo.sane_PQ.uniform (Demo.env_valid 4) g1
    (by rw [hcount]; simp [Demo.PQ, Params.toSize]) g2 ⟨_, hp, by simp [Out.poseCov]⟩

/-- C172, without clouds: the node goes on after the request, answers it and shows no particle. -/
example (n0 : Node Unit) : ∃ n outs, run Demo.P0 Demo.lib n0 ([] ++ (.resize 0, Demo.env 1) ::
      [(.expansionReset, Demo.env 2), (.resize 0, Demo.env 3)]) = .ok (n, outs) ∧ AllIdle outs ∧
    (step Demo.P0 Demo.lib (Demo.env 4) n (.resize 64)).isUb = true := by
  have hv : HistValid ([] ++ (.resize 0, Demo.env 1) :: [(.expansionReset, Demo.env 2), (.resize 0, Demo.env 3)]) := by
    intro e he
    simp only [List.nil_append, List.mem_cons, List.not_mem_nil, or_false] at he
    rcases he with rfl | rfl | rfl <;> exact Demo.env_valid _
  obtain ⟨n1, t1, h1, e1⟩ := C172_accepted Demo.P0 Demo.lib (Demo.env_valid 1) n0
  have h2 : ∃ n2 o2, step Demo.P0 Demo.lib (Demo.env 2) n1 .expansionReset = .ok (n2, o2) := by
    subst e1
    exact ⟨_, _, rfl⟩
  obtain ⟨n2, o2, h2⟩ := h2
  obtain ⟨n3, t3, h3, _⟩ := C172_accepted Demo.P0 Demo.lib (Demo.env_valid 3) n2
  have hr : run Demo.P0 Demo.lib n0 ([] ++ (.resize 0, Demo.env 1) ::
      [(.expansionReset, Demo.env 2), (.resize 0, Demo.env 3)]) =
      .ok (n3, [[.particles t1 [], .response true], o2, [.particles t3 [], .response true]]) := by
    simp only [List.nil_append, run, h1, h2, h3, Outcome.bind_ok]
  exact ⟨_, _, hr, (C172_final hv hr).1, C172_fatal_request hv (Demo.env_valid 4) hr (by norm_num)⟩

end Node
end Mcl3dl
