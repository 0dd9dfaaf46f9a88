import Verif.Props.NodeServices
import Verif.Props.NodeOut
import Verif.Props.NodeBatch
import Verif.Props.LidarBeam
import Verif.Props.Estimate

/-! # C115: the weights of the particles after any history -/

set_option linter.unusedSectionVars false

namespace Mcl3dl
namespace Node

variable {C : Type}

/-- The weights are not negative, and if there is a particle their sum is in `ok`. -/
def Weighted (ok : ℝ → Prop) (f : Filter) : Prop :=
  (∀ p ∈ f.particles, 0 ≤ p.prob) ∧ (f.particles ≠ [] → ok (f.particles.map PF.Particle.prob).sum)

theorem Weighted.same {ok : ℝ → Prop} {f f' : Filter} (h : Weighted ok f)
    (e : f'.particles.map PF.Particle.prob = f.particles.map PF.Particle.prob) : Weighted ok f' := by
  refine ⟨fun p hp => ?_, fun hne => ?_⟩
  · have : p.prob ∈ f'.particles.map PF.Particle.prob := List.mem_map_of_mem hp
    rw [e] at this
    obtain ⟨q, hq, hpq⟩ := List.mem_map.1 this
    rw [← hpq]; exact h.1 q hq
  · rw [e]
    apply h.2
    rintro hnil
    rw [hnil] at e
    simp at e
    exact hne e

theorem Weighted.mono {ok ok' : ℝ → Prop} {f : Filter} (h : Weighted ok f) (hi : ∀ x, ok x → ok' x) : Weighted ok' f :=
  ⟨h.1, fun hne => hi _ (h.2 hne)⟩

theorem uniform_weighted {ok : ℝ → Prop} (h1 : ok 1) {f : Filter} {n : ℕ} (hl : f.particles.length = n)
    (hp : ∀ p ∈ f.particles, p.prob = 1 / (n : ℝ)) : Weighted ok f := by
  refine ⟨fun p hpm => by rw [hp p hpm]; positivity, fun hne => ?_⟩
  have hpos : 0 < f.particles.length := List.length_pos_iff.2 hne
  rw [(PF.uniform_distribution f n (by omega) hl hp).2.2]
  exact h1

theorem weigh_sum (ps1 : List Particle) (hp : ∀ p ∈ ps1, 0 ≤ p.prob) (ht : 0 < PF.total ps1) :
    (∀ p ∈ ps1.map fun p => { p with prob := p.prob / PF.total ps1 }, 0 ≤ p.prob) ∧
    ((ps1.map fun p => { p with prob := p.prob / PF.total ps1 }).map PF.Particle.prob).sum = 1 := by
  constructor
  · intro p hpm
    obtain ⟨q, hq, rfl⟩ := List.mem_map.1 hpm
    exact div_nonneg (hp q hq) ht.le
  · have : (ps1.map fun p => { p with prob := p.prob / PF.total ps1 }).map PF.Particle.prob =
        (ps1.map PF.Particle.prob).map fun x => x / PF.total ps1 := by simp [Function.comp_def]
    rw [this, PF.sum_div]
    have e : (ps1.map PF.Particle.prob).sum = PF.total ps1 := (PF.total_eq ps1).symm
    rw [e]
    exact div_self ht.ne'

theorem Weighted.measure {ok : ℝ → Prop} (h1 : ok 1) {f : Filter} (h : Weighted ok f) {lik : State6 ℝ → ℝ}
    (hl : ∀ s, 0 ≤ lik s) : Weighted ok (f.measure Real.log lik) := by
  simp only [PF.Filter.measure]
  split_ifs with ht
  · obtain ⟨a, b⟩ := weigh_sum (PF.weigh lik f.particles) (by
      intro p hp
      obtain ⟨q, hq, rfl⟩ := List.mem_map.1 hp
      exact mul_nonneg (h.1 q hq) (hl _)) ht
    exact ⟨a, fun _ => by rw [b]; exact h1⟩
  · exact h

theorem zipWith_nonneg {ps : List Particle} (h : ∀ p ∈ ps, 0 ≤ p.prob) {ls : List ℝ} (hl : ∀ x ∈ ls, 0 ≤ x) :
    ∀ p ∈ List.zipWith (fun (p : Particle) l => { p with prob := p.prob * l }) ps ls, 0 ≤ p.prob := by
  induction ps generalizing ls with
  | nil => simp
  | cons q ps ih =>
    cases ls with
    | nil => simp
    | cons l ls =>
      intro p hp
      rw [List.zipWith_cons_cons] at hp
      rcases List.mem_cons.1 hp with rfl | hp
      · exact mul_nonneg (h q (by simp)) (hl l (by simp))
      · exact ih (fun p hp => h p (by simp [hp])) (fun x hx => hl x (by simp [hx])) p hp

theorem Weighted.measureWith {ok : ℝ → Prop} (h1 : ok 1) {f : Filter} (h : Weighted ok f) {ls : List ℝ}
    (hl : ∀ x ∈ ls, 0 ≤ x) : Weighted ok (measureWith f ls) := by
  simp only [Node.measureWith]
  split_ifs with ht
  · obtain ⟨a, b⟩ := weigh_sum _ (zipWith_nonneg h.1 hl) ht
    exact ⟨a, fun _ => by rw [b]; exact h1⟩
  · exact h

/-! ## Likelihoods are not negative -/

theorem normal_nonneg (σ x : ℝ) : 0 ≤ (NormalLikelihood.make σ).eval x := by
  show (0:ℝ) ≤ 1 / Real.sqrt _ * Real.exp _
  positivity

theorem landmark_nonneg (cov : Fin 36 → ℝ) (m s : State6 ℝ) : 0 ≤ landmarkLikelihood cov m s := by
  simp only [landmarkLikelihood, NormalLikelihoodNd.eval, NormalLikelihoodNd.make]
  have : 0 ≤ (2 * Real.pi) ^ ((1 / 2 : ℝ) * (6 : ℕ)) := by positivity
  positivity

theorem likeLoop_nonneg {A : Type} {p : Lidar.LikeParams} (hw : 0 ≤ p.matchWeight)
    {search : Vec3 ℝ → ℝ → Outcome (List (ℕ × ℝ))} (pts : List (Pt ℝ A)) {score : ℝ} {num : ℕ} (hs : 0 ≤ score)
    {r : ℝ × ℕ} (h : Lidar.likeLoop p search pts score num = .ok r) : 0 ≤ r.1 := by
  induction pts generalizing score num with
  | nil =>
    simp only [Lidar.likeLoop, Outcome.ok.injEq] at h
    rw [← h]; exact hs
  | cons q qs ih =>
    rw [Lidar.likeLoop] at h
    obtain ⟨l, _, h⟩ := Outcome.bind_eq_ok_iff.1 h
    cases l with
    | nil => exact ih hs h
    | cons e l =>
      simp only at h
      split_ifs at h with hd
      · exact ih hs h
      · push _root_.Not at hd
        exact ih (add_nonneg hs (mul_nonneg hd hw)) h

theorem particleLikelihood_nonneg {P : Params} (hb : 0 ≤ P.beam.likelihoodMin) (hw : 0 ≤ P.like.matchWeight)
    {lib : Lib C} {m : MapSt} {p : Prep} (h1 : p.beam.params = P.beam) (h2 : p.like.params = P.like) {s : State6 ℝ}
    {w : WeighSt C} {r : ℝ × WeighSt C} (h : particleLikelihood P lib m p s w = .ok r) : 0 ≤ r.1 := by
  rw [particleLikelihood] at h
  obtain ⟨rb, hrb, h⟩ := Outcome.bind_eq_ok_iff.1 h
  obtain ⟨rl, hrl, h⟩ := Outcome.bind_eq_ok_iff.1 h
  simp only [Outcome.ok.injEq] at h
  rw [← h]
  have e1 : 0 ≤ rb.1.likelihood := by
    simp only [Lidar.Beam.measure] at hrb
    split_ifs at hrb with h0
    · simp only [Outcome.ok.injEq] at hrb
      rw [← hrb]; exact zero_le_one
    · obtain ⟨x, _, hx⟩ := Outcome.bind_eq_ok_iff.1 hrb
      simp only [Outcome.ok.injEq] at hx
      rw [← hx]
      simp only [h1]
      split_ifs with hx
      · exact hb
      · exact le_trans hb (not_lt.1 hx)
  have e2 : 0 ≤ rl.likelihood := by
    simp only [Lidar.Like.measure] at hrl
    split_ifs at hrl with h0
    · simp only [Outcome.ok.injEq] at hrl
      rw [← hrl]; exact zero_le_one
    · obtain ⟨x, hx0, hx⟩ := Outcome.bind_eq_ok_iff.1 hrl
      simp only [Outcome.ok.injEq] at hx
      rw [← hx]
      exact likeLoop_nonneg (by rw [h2]; exact hw) _ le_rfl hx0
  have e3 := normal_nonneg P.integLinSigma s.integLin.norm
  simp only [one_mul]
  positivity

theorem weighLoop_nonneg {P : Params} (hb : 0 ≤ P.beam.likelihoodMin) (hw : 0 ≤ P.like.matchWeight)
    {lib : Lib C} {m : MapSt} {p : Prep} (h1 : p.beam.params = P.beam) (h2 : p.like.params = P.like)
    {ps : List Particle} {w : WeighSt C} {r : List ℝ × WeighSt C} (h : weighLoop P lib m p ps w = .ok r) :
    ∀ x ∈ r.1, 0 ≤ x := by
  induction ps generalizing w r with
  | nil =>
    simp only [weighLoop, Outcome.ok.injEq] at h
    rw [← h]; simp
  | cons q qs ih =>
    rw [weighLoop] at h
    obtain ⟨a, ha, h⟩ := Outcome.bind_eq_ok_iff.1 h
    obtain ⟨b, hb', h⟩ := Outcome.bind_eq_ok_iff.1 h
    simp only [Outcome.ok.injEq] at h
    rw [← h]
    intro x hx
    rcases List.mem_cons.1 hx with rfl | hx
    · exact particleLikelihood_nonneg hb hw h1 h2 ha
    · exact ih hb' x hx

/-! ## The operations of the node -/

theorem resampleFilter_uniform {env : Env} (hv : env.Valid) {call : ℕ} {sigma : State6 ℝ} {f f' : Filter}
    (h : resampleFilter env call sigma f = .ok f') :
    f'.particles.length = f.particles.length ∧ ∀ p ∈ f'.particles, p.prob = 1 / (f.particles.length : ℝ) := by
  obtain ⟨ns, _, h⟩ := Outcome.bind_eq_ok_iff.1 h
  obtain ⟨f2, h2, _, hl, _, hp⟩ := PF.resample_spec f _
    (env.unit * (PF.total f.particles / (f.particles.length : ℝ))) (pickNoise ns)
    (hv.sort (PF.accumulate 0 f.particles))
  rw [h2] at h
  simp only [Outcome.ok.injEq] at h
  exact h ▸ ⟨hl, fun p hpm => (hp p hpm).1⟩

theorem addNoise_prob {env : Env} {call : ℕ} {sigma : State6 ℝ} {f f' : Filter}
    (h : addNoise env call sigma f = .ok f') :
    f'.particles.map PF.Particle.prob = f.particles.map PF.Particle.prob := by
  obtain ⟨ns, _, h⟩ := Outcome.bind_eq_ok_iff.1 h
  simp only [Outcome.ok.injEq] at h
  rw [← h]
  apply List.ext_getElem <;> simp [PF.Filter.noise]

theorem predict_prob (f : Filter) (g : State6 ℝ → State6 ℝ) :
    (f.predict g).particles.map PF.Particle.prob = f.particles.map PF.Particle.prob := by
  simp [PF.Filter.predict, Function.comp_def]

theorem biasFilter_prob (P : Params) (prev : State6 ℝ) (f : Filter) :
    (biasFilter P prev f).particles.map PF.Particle.prob = f.particles.map PF.Particle.prob := by
  unfold biasFilter
  split_ifs <;> simp [PF.Filter.bias, Function.comp_def]

theorem driftFilter_prob (P : Params) (env : Env) (f : Filter) :
    (driftFilter P env f).particles.map PF.Particle.prob = f.particles.map PF.Particle.prob := by
  apply List.ext_getElem <;> simp [driftFilter]

/-- The weights a localization leaves are equal and sum to one. -/
theorem localize_weights {P : Params} {lib : Lib C} {env : Env} (hv : env.Valid) {m : MapSt} {odo : OdoSt}
    {warn : Vec3 ℝ} {loc loc' : LocSt C} {header : Header} {p : Prep} {outs : List Out}
    (h : localize P lib env m odo warn loc header p = .ok (loc', outs)) {ok : ℝ → Prop} (h1 : ok 1) :
    Weighted ok loc'.pf := by
  obtain ⟨r, _, _, _, _, _, _, h3, h5, h6, _, rfl, _⟩ := localize_ok h
  have w3 : Weighted ok r.pf3 := by
    obtain ⟨hl, hp⟩ := resampleFilter_uniform hv h3
    exact uniform_weighted h1 hl hp
  have w4 : Weighted ok (driftFilter P env r.pf3) := w3.same (driftFilter_prob _ _ _)
  have w5 : Weighted ok r.pf5 := by
    rw [expandFilter] at h5
    split_ifs at h5
    · exact w4.same (addNoise_prob h5)
    · simp only [Outcome.ok.injEq] at h5
      exact h5 ▸ w4
  rw [reduceFilter] at h6
  show Weighted ok r.pf6
  split_ifs at h6
  · obtain ⟨_, hl, _, _, hp⟩ := resizeFilter_spec hv h6
    exact uniform_weighted h1 hl hp
  · simp only [Outcome.ok.injEq] at h6
    exact h6 ▸ w5

theorem sensor_weights {P : Params} {env : Env} {ok : ℝ → Prop} (h1 : ok 1) (fuel : ℕ) {n n' : Node C}
    {msg : OdomMsg ⊕ ImuMsg} {outs : List Out} (h : sensor P env fuel n msg = .ok (n', outs))
    (hw : Weighted ok n.loc.pf) : Weighted ok n'.loc.pf := by
  have hodom : ∀ (n : Node C) msg, Weighted ok n.loc.pf → Weighted ok (odomCore P n msg).1.loc.pf := by
    intro n msg hw
    simp only [odomCore]
    split_ifs <;> first | exact hw | exact hw.same (predict_prob _ _)
  have himu : ∀ (n : Node C) msg, Weighted ok n.loc.pf → Weighted ok (imuCore P env n msg).1.loc.pf := by
    intro n msg hw
    simp only [imuCore]
    cases env.tf P.baseFrame msg.frame 0 with
    | none => split_ifs <;> exact hw
    | some t =>
      split_ifs <;> first | exact hw | exact hw.measure h1 fun s => normal_nonneg _ _
  induction fuel generalizing n msg outs with
  | zero => simp [sensor] at h
  | succ fuel ih =>
    cases msg with
    | inl msg =>
      have := hodom n msg hw
      rw [sensor] at h
      rcases hc : odomCore P n msg with ⟨n1, _ | im⟩
      · rw [hc] at h this
        simp only [Outcome.ok.injEq, Prod.mk.injEq] at h
        rw [← h.1]; exact this
      · rw [hc] at h this
        obtain ⟨⟨n2, o2⟩, h2, h⟩ := Outcome.bind_eq_ok_iff.1 h
        simp only [Outcome.ok.injEq, Prod.mk.injEq] at h
        obtain ⟨rfl, rfl⟩ := h; exact ih (n := n1) h2 this
    | inr msg =>
      have := himu n msg hw
      rw [sensor] at h
      rcases hc : imuCore P env n msg with ⟨n1, _ | im⟩
      · rw [hc] at h this
        simp only [Outcome.ok.injEq, Prod.mk.injEq] at h
        rw [← h.1]; exact this
      · rw [hc] at h this
        obtain ⟨⟨n2, o2⟩, h2, h⟩ := Outcome.bind_eq_ok_iff.1 h
        simp only [Outcome.ok.injEq, Prod.mk.injEq] at h
        obtain ⟨rfl, rfl⟩ := h; exact ih (n := n1) h2 this

theorem init_weighted {ok : ℝ → Prop} (h1 : ok 1) (f : Filter) (st : ℕ → State6 ℝ) : Weighted ok (f.init st) := by
  refine uniform_weighted h1 (n := f.particles.length) (by simp [PF.Filter.init]) ?_
  intro p hp
  simp only [PF.Filter.init, List.mem_mapIdx] at hp
  obtain ⟨i, hi, rfl⟩ := hp
  rfl

/-- Any callback but the global localization request keeps the weights in order. -/
theorem step_weights {P : Params} {lib : Lib C} {env : Env} (hv : env.Valid) {n n' : Node C} {ev : Event}
    {o : List Out} (h : step P lib env n ev = .ok (n', o)) (hev : ev ≠ .globalLocalization) {ok : ℝ → Prop} (h1 : ok 1)
    (hw : Weighted ok n.loc.pf) : Weighted ok n'.loc.pf := by
  cases ev with
  | mapcloud stamp msg =>
    rcases cbMapcloud_ok h with ⟨_, rfl, _⟩ | ⟨_, hl⟩
    · exact hw
    · obtain ⟨_, _, _, _, h5, _⟩ := load_frame hl
      rw [h5]; exact hw
  | mapcloudUpdate msg =>
    simp only [step, Outcome.ok.injEq, Prod.mk.injEq] at h
    rw [← h.1]
    simp only [cbMapcloudUpdate]
    rcases Conv.fromROSMsg msg [] with ⟨_ | _, pts⟩ <;> exact hw
  | loadPcd file =>
    rcases cbLoadPcd_ok h with ⟨_, rfl, _⟩ | ⟨_, _, _, hl, _⟩
    · exact hw
    · obtain ⟨_, _, _, _, h5, _⟩ := load_frame hl
      rw [h5]; exact hw
  | timer =>
    obtain ⟨r, _, h⟩ := Outcome.bind_eq_ok_iff.1 h
    simp only [Outcome.ok.injEq, Prod.mk.injEq] at h
    rw [← h.1]; exact hw
  | cloud header msg =>
    obtain ⟨_, _, _, _, hcase⟩ := cbCloud_loc h
    rcases hcase with ⟨hl, _, _⟩ | ⟨_, acc, c, hcore⟩
    · rw [hl]; exact hw
    obtain ⟨_, _, ⟨_, _, hk, _⟩ | ⟨_, hme⟩⟩ := measureCore_ok hcore
    · rw [hk]; exact hw
    generalize n'.loc = loc2 at hme
    cases hme with
    | noHeader _ => exact hw
    | noTf _ _ _ => exact hw
    | noOrigin _ _ _ _ => exact hw
    | noPoints _ _ _ _ _ => exact hw
    | localized _ _ _ _ _ _ _ hl => exact localize_weights hv hl h1
  | odom msg => exact sensor_weights h1 _ h hw
  | imu msg => exact sensor_weights h1 _ h hw
  | initialpose msg =>
    rcases cbPosition_ok h with ⟨rfl, _⟩ | ⟨_, t, st, _, rfl, _⟩
    · exact hw
    · exact (init_weighted h1 _ _).same (predict_prob _ _)
  | landmark msg =>
    obtain ⟨pf, h2, rfl, _⟩ := cbLandmark_ok h
    obtain ⟨hl, hp⟩ := resampleFilter_uniform hv h2
    exact uniform_weighted h1 hl hp
  | resize size =>
    obtain ⟨pf, h2, rfl, _⟩ := cbResize_ok h
    obtain ⟨_, hl, _, _, hp⟩ := resizeFilter_spec hv h2
    exact uniform_weighted h1 hl hp
  | expansionReset =>
    obtain ⟨pf, h2, rfl, _⟩ := cbExpansionReset_ok h
    exact hw.same (addNoise_prob h2)
  | globalLocalization => exact absurd rfl hev
  | reconfigure w =>
    simp only [step, Outcome.ok.injEq, Prod.mk.injEq] at h
    rw [← h.1]; exact hw

/-- The global localization request: the sum of the weights is `div_yaw`. -/
theorem global_weights {P : Params} (hd : 0 < P.divYaw) {lib : Lib C} {env : Env} (hv : env.Valid) {n n' : Node C}
    {o : List Out} (h : step P lib env n .globalLocalization = .ok (n', o)) {ok : ℝ → Prop} (hk : ok P.divYaw)
    (hw : Weighted ok n.loc.pf) : Weighted ok n'.loc.pf := by
  rcases cbGlobalLocalization_ok h with ⟨_, rfl, _⟩ | ⟨_, c, pf, ps, _, h1, h2, rfl, _⟩
  · exact hw
  obtain ⟨_, hl, _⟩ := resizeFilter_spec hv h1
  obtain ⟨dn, hdn⟩ : ∃ d : ℕ, P.divYaw = (d : ℤ) := ⟨P.divYaw.toNat, (Int.toNat_of_nonneg hd.le).symm⟩
  rw [hdn] at h2 hl hd hk
  have hd' : 0 < dn := by exact_mod_cast hd
  obtain ⟨hl2, hp⟩ := place_spec pf.particles 0 hd' _ (by exact_mod_cast h2)
  generalize standingPoints P lib env c.points = sp at *
  have hlen : ps.length = sp.length * dn := by
    rw [hl2, hl]
    have : ((sp.length : ℤ) * (dn : ℤ)) = ((sp.length * dn : ℕ) : ℤ) := by push_cast; ring
    rw [this, Int.toNat_natCast]
  have hprob : ∀ p ∈ ps, p.prob = 1 / (sp.length : ℝ) := by
    intro p hpm
    obtain ⟨k, hk1, rfl⟩ := List.mem_iff_getElem.1 hpm
    obtain ⟨_, q, _, e, _, e2, _⟩ := hp k (by omega)
    rw [List.getElem?_eq_getElem hk1] at e
    simp only [Option.some.injEq] at e
    rw [e, e2]
  refine ⟨fun p hpm => by rw [hprob p hpm]; positivity, fun hne => ?_⟩
  have hpos : 0 < ps.length := List.length_pos_iff.2 hne
  have hsp : (sp.length : ℝ) ≠ 0 := by
    have : sp.length ≠ 0 := by intro h0; rw [hlen, h0] at hpos; simp at hpos
    exact_mod_cast this
  show ok (ps.map PF.Particle.prob).sum
  rw [PF.sum_const ps _ hprob, hlen]
  have : ((sp.length * dn : ℕ) : ℝ) * (1 / (sp.length : ℝ)) = ((dn : ℤ) : ℝ) := by
    push_cast; field_simp
  rw [this]
  exact_mod_cast hk

theorem run_weights {P : Params} (hd : 0 < P.divYaw) {lib : Lib C} {h : History} (hv : HistValid h) {n n' : Node C}
    {outs : List (List Out)} (hr : run P lib n h = .ok (n', outs)) {ok : ℝ → Prop} (h1 : ok 1)
    (hk : (∃ e ∈ h, e.1 = .globalLocalization) → ok P.divYaw) (hw : Weighted ok n.loc.pf) :
    Weighted ok n'.loc.pf := by
  induction h generalizing n outs with
  | nil =>
    simp only [run, Outcome.ok.injEq, Prod.mk.injEq] at hr
    rw [← hr.1]; exact hw
  | cons e h ih =>
    obtain ⟨ev, env⟩ := e
    obtain ⟨n1, o, os, hs, hr', rfl⟩ := run_cons_ok hr
    have hve : env.Valid := hv (ev, env) (by simp)
    refine ih (fun e he => hv e (by simp [he])) hr' (fun ⟨e, he, hg⟩ => hk ⟨e, by simp [he], hg⟩) ?_
    by_cases hg : ev = .globalLocalization
    · subst hg
      exact global_weights hd hve hs (hk ⟨_, List.mem_cons_self, rfl⟩) hw
    · exact step_weights hve hs hg h1 hw

/-- C115: after any history no weight is negative; and, if there is a particle, the weights sum to one unless
global localization has been requested, in which case they may sum to `div_yaw`. -/
theorem C115_weights {P : Params} (hd : 0 < P.divYaw) {lib : Lib C} {env0 : Env} {motion0 : Motion ℝ} {h : History}
    (hv : HistValid h) {n0 n : Node C} {outs : List (List Out)} (hs : start P lib env0 motion0 = .ok n0)
    (hr : run P lib n0 h = .ok (n, outs)) :
    (∀ p ∈ n.loc.pf.particles, 0 ≤ p.prob) ∧ (n.loc.pf.particles ≠ [] →
      weightSum n = 1 ∨ (∃ e ∈ h, e.1 = .globalLocalization) ∧ weightSum n = P.divYaw) := by
  obtain ⟨_, ns, _, rfl⟩ := start_ok hs
  refine run_weights hd hv hr (ok := fun x => x = 1 ∨ (∃ e ∈ h, e.1 = .globalLocalization) ∧ x = P.divYaw)
    (.inl rfl) (fun hg => .inr ⟨hg, rfl⟩) (init_weighted (.inl rfl) _ _)

theorem same_prob {f f' : Filter} {x : ℝ} (e : f'.particles.map PF.Particle.prob = f.particles.map PF.Particle.prob)
    (h : ∀ p ∈ f.particles, p.prob = x) : ∀ p ∈ f'.particles, p.prob = x := by
  intro p hp
  have : p.prob ∈ f'.particles.map PF.Particle.prob := List.mem_map_of_mem hp
  rw [e] at this
  obtain ⟨q, hq, hpq⟩ := List.mem_map.1 this
  rw [← hpq]; exact h q hq

/-- A localization leaves equal weights. -/
theorem localize_equal {P : Params} {lib : Lib C} {env : Env} (hv : env.Valid) {m : MapSt} {odo : OdoSt}
    {warn : Vec3 ℝ} {loc loc' : LocSt C} {header : Header} {p : Prep} {outs : List Out}
    (h : localize P lib env m odo warn loc header p = .ok (loc', outs)) :
    ∀ q ∈ loc'.pf.particles, q.prob = 1 / (loc'.pf.particles.length : ℝ) := by
  obtain ⟨r, _, _, _, _, _, _, h3, h5, h6, _, rfl, _⟩ := localize_ok h
  show ∀ q ∈ r.pf6.particles, q.prob = 1 / (r.pf6.particles.length : ℝ)
  obtain ⟨hl3, hp3⟩ := resampleFilter_uniform hv h3
  rw [← hl3] at hp3
  have h4 := same_prob (driftFilter_prob P env r.pf3) hp3
  have hl4 : (driftFilter P env r.pf3).particles.length = r.pf3.particles.length := by simp [driftFilter]
  have w5 : r.pf5.particles.length = r.pf3.particles.length ∧
      ∀ q ∈ r.pf5.particles, q.prob = 1 / (r.pf3.particles.length : ℝ) := by
    rw [expandFilter] at h5
    split_ifs at h5
    · have e := addNoise_prob h5
      refine ⟨?_, same_prob e h4⟩
      have := congrArg List.length e
      simp only [List.length_map] at this
      rw [this, hl4]
    · simp only [Outcome.ok.injEq] at h5
      exact h5 ▸ ⟨hl4, h4⟩
  rw [reduceFilter] at h6
  split_ifs at h6
  · obtain ⟨_, hl, _, _, hp⟩ := resizeFilter_spec hv h6
    rw [← hl] at hp
    exact hp
  · simp only [Outcome.ok.injEq] at h6
    rw [← h6]
    intro q hq
    rw [w5.2 q hq, w5.1]

/-- C115: a callback that publishes a pose leaves equal weights summing to one. -/
theorem C115_after_pose {P : Params} {lib : Lib C} {env : Env} (hv : env.Valid) {n n' : Node C} {ev : Event}
    {o : List Out} (h : step P lib env n ev = .ok (n', o)) {stamp : ℝ} {frame : String} {pos : Vec3 ℝ} {rot : Quat ℝ}
    {cov : ℕ → ℕ → ℝ} (hp : .pose stamp frame pos rot cov ∈ o) (hne : n'.loc.pf.particles ≠ []) :
    weightSum n' = 1 ∧ ∀ q ∈ n'.loc.pf.particles, q.prob = 1 / (n'.loc.pf.particles.length : ℝ) := by
  rcases step_cases h with ⟨_, h4 | ⟨b, rfl | ⟨rfl, _⟩⟩⟩ | ⟨_, _, hd, p, acc, outs', _, _, _, _, hl, rfl⟩
  · exact absurd (h4 _ hp) id
  · simp at hp
  · simp [publishStatus] at hp
  exact ⟨(localize_weights hv hl (ok := fun x => x = 1) rfl).2 hne, localize_equal hv hl⟩

/-! ## The estimate of a callback is a proper average -/

theorem biasFilter_pos (P : Params) (prev : State6 ℝ) (f : Filter) :
    ∀ p ∈ (biasFilter P prev f).particles, 0 < p.bias := by
  intro p hp
  unfold biasFilter at hp
  split_ifs at hp
  · obtain ⟨q, _, rfl⟩ := List.mem_map.1 hp
    exact one_pos
  · obtain ⟨q, _, rfl⟩ := List.mem_map.1 hp
    have h1 := normal_nonneg P.biasVarDist ((q.state.pos - prev.pos).norm)
    have h2 := normal_nonneg P.biasVarAng ((q.state.rot * prev.rot.inv).getAxisAng.2)
    simp only
    positivity

theorem sum_pos_of_pos {l : List Particle} (hw : ∀ p ∈ l, 0 ≤ p.prob) (hb : ∀ p ∈ l, 0 < p.bias)
    (h : 0 < (l.map PF.Particle.prob).sum) : 0 < (l.map fun p => p.prob * p.bias).sum := by
  induction l with
  | nil => simp at h
  | cons p l ih =>
    simp only [List.map_cons, List.sum_cons] at h ⊢
    have hl : 0 ≤ (l.map fun p => p.prob * p.bias).sum := by
      apply List.sum_nonneg
      intro x hx
      obtain ⟨q, hq, rfl⟩ := List.mem_map.1 hx
      exact mul_nonneg (hw q (by simp [hq])) (hb q (by simp [hq])).le
    rcases (hw p (by simp)).lt_or_eq with h0 | h0
    · have := mul_pos h0 (hb p (by simp))
      linarith
    · rw [← h0, zero_add] at h
      rw [← h0, zero_mul, zero_add]
      exact ih (fun q hq => hw q (by simp [hq])) (fun q hq => hb q (by simp [hq])) h

/-- Weighting and bias leave the states alone. -/
theorem pf1_states {P : Params} {prev : State6 ℝ} {f : Filter} {ls : List ℝ} (hl : ls.length = f.particles.length) :
    (biasFilter P prev (measureWith f ls)).particles.map PF.Particle.state = f.particles.map PF.Particle.state := by
  have h1 : ∀ g : Filter, (biasFilter P prev g).particles.map PF.Particle.state = g.particles.map PF.Particle.state := by
    intro g
    unfold biasFilter
    split_ifs <;> simp [PF.Filter.bias, Function.comp_def]
  rw [h1]
  unfold measureWith
  simp only
  split_ifs
  · apply List.ext_getElem
    · simp [hl]
    · intro i h1 h2
      simp
  · rfl

/-- The votes after weighting are not negative and have a positive sum. -/
theorem weigh_votes {P : Params} (hb : 0 ≤ P.beam.likelihoodMin) (hw : 0 ≤ P.like.matchWeight) {lib : Lib C} {m : MapSt}
    {p : Prep} (hpb : p.beam.params = P.beam) (hpl : p.like.params = P.like) {f : Filter} {w0 : WeighSt C}
    {r : List ℝ × WeighSt C} (hwl : weighLoop P lib m p f.particles w0 = .ok r) (hnn : ∀ q ∈ f.particles, 0 ≤ q.prob)
    (hsum : 0 < (f.particles.map PF.Particle.prob).sum) (hne : f.particles ≠ []) (prev : State6 ℝ) :
    (∀ q ∈ (biasFilter P prev (measureWith f r.1)).particles, 0 ≤ q.prob * q.bias) ∧
      0 < ((biasFilter P prev (measureWith f r.1)).particles.map fun q => q.prob * q.bias).sum := by
  have hls := weighLoop_nonneg hb hw hpb hpl hwl
  have hlen := weighLoop_length hwl
  have hW : Weighted (fun x => 0 < x) (measureWith f r.1) :=
    Weighted.measureWith one_pos ⟨hnn, fun _ => hsum⟩ hls
  have hW1 : Weighted (fun x => 0 < x) (biasFilter P prev (measureWith f r.1)) := hW.same (biasFilter_prob _ _ _)
  have hb1 : ∀ p ∈ (biasFilter P prev (measureWith f r.1)).particles, 0 < p.bias := biasFilter_pos _ _ _
  have hst := pf1_states (P := P) (prev := prev) hlen
  refine ⟨fun p hp => mul_nonneg (hW1.1 p hp) (hb1 p hp).le, sum_pos_of_pos hW1.1 hb1 (hW1.2 ?_)⟩
  intro hnil
  rw [hnil] at hst
  simp at hst
  exact hne hst

/-- When a callback publishes a pose, the estimate in it (`n'.loc.statePrev`) is the mean of the particles
before the callback with non-negative votes of positive sum. -/
theorem pose_votes {P : Params} (hd : 0 < P.divYaw) (hb : 0 ≤ P.beam.likelihoodMin) (hw : 0 ≤ P.like.matchWeight)
    {lib : Lib C} {env0 env : Env} (hv0 : env0.Valid) {motion0 : Motion ℝ} {h : History} (hv : HistValid h) {n0 n n' : Node C}
    {outs : List (List Out)} {ev : Event} {o : List Out} (hs : start P lib env0 motion0 = .ok n0)
    (hr : run P lib n0 h = .ok (n, outs)) (hst : step P lib env n ev = .ok (n', o)) {stamp : ℝ} {frame : String}
    {pos : Vec3 ℝ} {rot : Quat ℝ} {cov : ℕ → ℕ → ℝ} (hp : .pose stamp frame pos rot cov ∈ o) :
    ∃ f : Filter, n'.loc.statePrev = estimate f ∧ (∀ p ∈ f.particles, 0 ≤ p.prob * p.bias) ∧
      0 < (f.particles.map fun p => p.prob * p.bias).sum ∧
      f.particles.map PF.Particle.state = n.loc.pf.particles.map PF.Particle.state := by
  rcases step_cases hst with ⟨_, h4 | ⟨b, rfl | ⟨rfl, _⟩⟩⟩ | ⟨_, _, hdr, p, acc, outs', _, _, hpr, _, hl, rfl⟩
  · exact absurd (h4 _ hp) id
  · simp at hp
  · simp [publishStatus] at hp
  have hreach : Reachable P lib n := ⟨env0, motion0, n0, h, _, hv0, hv, hs, hr⟩
  obtain ⟨hlk, hbm⟩ := reachable_models hreach
  obtain ⟨r, hwl, hmax, _, _, _, _, _, _, _, _, hloc, _⟩ := localize_ok hl
  obtain ⟨_, _, _, _, _, _, _, _, hb1, hl1, _⟩ := prepare_ready hpr
  have hpb : p.beam.params = P.beam := by
    have : Lidar.Beam.Reach P.beam p.beam := by rw [hb1]; exact .set _ _ hbm
    exact this.facts.1
  have hpl : p.like.params = P.like := by
    have : Lidar.Like.Reach P.like p.like := by rw [hl1]; exact .set _ _ hlk
    exact (like_fields this).1
  have hlen := weighLoop_length hwl
  obtain ⟨hnn, hsum⟩ := C115_weights hd hv hs hr
  have hne : n.loc.pf.particles ≠ [] := by
    intro hnil
    have : (r.pf1 P (freshen env n).loc).particles = [] := by
      apply List.length_eq_zero_iff.1
      rw [LocRun.pf1, (biasFilter_spec _ _ _).1, measureWith_length _ _ hlen]
      show n.loc.pf.particles.length = 0
      rw [hnil]; rfl
    rw [PF.Filter.max, this] at hmax
    simp at hmax
  obtain ⟨h1, h2⟩ := weigh_votes (f := n.loc.pf) hb hw hpb hpl hwl hnn (by
    rcases hsum hne with e | ⟨_, e⟩
    · rw [show (n.loc.pf.particles.map PF.Particle.prob).sum = 1 from e]; exact one_pos
    · rw [show (n.loc.pf.particles.map PF.Particle.prob).sum = P.divYaw from e]; exact_mod_cast hd) hne
    (freshen env n).loc.statePrev
  exact ⟨r.pf1 P (freshen env n).loc, by rw [hloc]; rfl, h1, h2, pf1_states hlen⟩

/-- C113 for the node: the position estimated by a callback that publishes a pose lies in every half space
that contained the particles.  (The two bias variances are not 0; for 0 see C141.) -/
theorem C113_node {P : Params} (hd : 0 < P.divYaw) (hb : 0 ≤ P.beam.likelihoodMin) (hw : 0 ≤ P.like.matchWeight)
    (_ : P.biasVarDist ≠ 0) (_ : P.biasVarAng ≠ 0)
    {lib : Lib C} {env0 env : Env} (hv0 : env0.Valid) {motion0 : Motion ℝ} {h : History} (hv : HistValid h) {n0 n n' : Node C}
    {outs : List (List Out)} {ev : Event} {o : List Out} (hs : start P lib env0 motion0 = .ok n0)
    (hr : run P lib n0 h = .ok (n, outs)) (hst : step P lib env n ev = .ok (n', o)) {stamp : ℝ} {frame : String}
    {pos : Vec3 ℝ} {rot : Quat ℝ} {cov : ℕ → ℕ → ℝ} (hp : .pose stamp frame pos rot cov ∈ o) (a : Vec3 ℝ) (c : ℝ)
    (hc : ∀ p ∈ n.loc.pf.particles, a.dot p.state.pos ≤ c) : a.dot n'.loc.statePrev.pos ≤ c := by
  obtain ⟨f, he, h1, h2, h3⟩ := pose_votes hd hb hw hv0 hv hs hr hst hp
  rw [he]
  refine C113_hull f h1 h2 a c fun p hpm => ?_
  have : p.state ∈ f.particles.map PF.Particle.state := List.mem_map_of_mem hpm
  rw [h3] at this
  obtain ⟨q, hq, e⟩ := List.mem_map.1 this
  rw [← e]
  exact hc q hq

/-- C114 for the node: if all particles have the same pose, a callback that publishes a pose estimates that
position, and that orientation unless it is a half turn about an axis with components of mixed signs.
(The two bias variances are not 0; for 0 see C141.) -/
theorem C114_node {P : Params} (hd : 0 < P.divYaw) (hb : 0 ≤ P.beam.likelihoodMin) (hw : 0 ≤ P.like.matchWeight)
    (_ : P.biasVarDist ≠ 0) (_ : P.biasVarAng ≠ 0)
    {lib : Lib C} {env0 env : Env} (hv0 : env0.Valid) {motion0 : Motion ℝ} {h : History} (hv : HistValid h) {n0 n n' : Node C}
    {outs : List (List Out)} {ev : Event} {o : List Out} (hs : start P lib env0 motion0 = .ok n0)
    (hr : run P lib n0 h = .ok (n, outs)) (hst : step P lib env n ev = .ok (n', o)) {stamp : ℝ} {frame : String}
    {pos : Vec3 ℝ} {rot : Quat ℝ} {cov : ℕ → ℕ → ℝ} (hp : .pose stamp frame pos rot cov ∈ o) (x : Vec3 ℝ) (q : Quat ℝ)
    (hu : q.dot q = 1)
    (hc : ∀ p ∈ n.loc.pf.particles, p.state.pos = x ∧ Quat.SameRotation p.state.rot q) :
    n'.loc.statePrev.pos = x ∧
      (Quat.SameRotation n'.loc.statePrev.rot q ↔ ¬ Quat.MixedHalfTurn q) := by
  obtain ⟨f, he, h1, h2, h3⟩ := pose_votes hd hb hw hv0 hv hs hr hst hp
  rw [he]
  refine C114_unanimous f h2 x q hu fun p hpm _ => ?_
  have : p.state ∈ f.particles.map PF.Particle.state := List.mem_map_of_mem hpm
  rw [h3] at this
  obtain ⟨p', hp', e⟩ := List.mem_map.1 this
  rw [← e]
  exact hc p' hp'

end Node
end Mcl3dl
