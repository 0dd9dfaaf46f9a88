import Verif.Proofs.NodeNoise
import Verif.Props.NodeWeights

/-! # Invariants of the states of the particles -/

set_option linter.unusedSectionVars false

namespace Mcl3dl
namespace Node

variable {C : Type}

/-- A property of states that everything the node does to particles keeps; `good` is a property of the
orientations in odometry and IMU messages, `tfOk` one of the rotations of frames. -/
structure Closed (P : Params) (tfOk good : Quat ℝ → Prop) (I : State6 ℝ → Prop) : Prop where
  one : good 1
  turn : ∀ t q, tfOk t → good q → good (Quat.ofAxisAng (t.rotate q.getAxisAng.1) q.getAxisAng.2)
  default : I State6.default
  made : ∀ pos rpy lin ang, I { (State6.default : State6 ℝ) with
    pos := pos, rot := Quat.ofRPY rpy, integLin := lin, integAng := ang }
  add : ∀ s a, I s → I a → I (s.add a)
  normalize : ∀ s, I s → I s.normalize
  predict : ∀ (m : Motion ℝ) (prev cur : State6 ℝ) dt s, good prev.rot → good cur.rot → I s →
    I ((m.setOdoms prev cur dt).predict s)
  reset : ∀ s, I s → I (resetInteg s)
  drift : ∀ (a b c d : ℝ) s, I s → I { s with
    noiseLL := a * P.errLinLin, noiseLA := b * P.errLinAng, noiseAA := c * P.errAngAng, noiseAL := d * P.errAngLin }
  stand : ∀ pos yaw q, good q → I (State6.ofQuat pos (Quat.ofRPY ⟨0, 0, yaw⟩ * q).normalized)

/-- All particles have the property, and the orientations the node keeps are good. -/
structure Kept (good : Quat ℝ → Prop) (I : State6 ℝ → Prop) (n : Node C) : Prop where
  states : ∀ p ∈ n.loc.pf.particles, I p.state
  odom : good n.odo.prev.rot
  imu : good n.imu.quat

/-- The messages are good. -/
def GoodMsgs (tfOk good : Quat ℝ → Prop) (e : Event × Env) : Prop :=
  (∀ msg, e.1 = .odom msg → good msg.rot) ∧ (∀ msg, e.1 = .imu msg → good msg.rot) ∧
  ∀ a b s t, e.2.tf a b s = some t → tfOk t.rot

section
variable {P : Params} {tfOk good : Quat ℝ → Prop} {I : State6 ℝ → Prop} (hc : Closed P tfOk good I)
include hc

theorem Closed.pick {env : Env} {call : ℕ} {mean sigma : State6 ℝ} {n : ℕ} {ns : List (State6 ℝ)}
    (h : env.noiseStates call mean sigma n = .ok ns) (k : ℕ) : I (pickNoise ns k) := by
  obtain ⟨hl, idx, _, hp⟩ := noiseStates_spec h
  by_cases hk : k < n
  · rw [hp k hk]
    exact hc.made _ _ _ _
  · have : pickNoise ns k = State6.default := by
      unfold pickNoise
      simp [List.getD, List.getElem?_eq_none (show ns.length ≤ k by omega)]
    rw [this]
    exact hc.default

theorem Closed.generate {E : Type} {gen : NoiseGen ℝ E} {n : ℕ} {e e' : E} {ss : List (State6 ℝ)}
    (h : State6.generateN gen n e = .ok (ss, e')) : ∀ s ∈ ss, I s := by
  induction n generalizing e e' ss with
  | zero =>
    simp only [State6.generateN, Outcome.ok.injEq, Prod.mk.injEq] at h
    rw [← h.1]; simp
  | succ n ih =>
    rw [State6.generateN] at h
    obtain ⟨⟨s, e1⟩, h1, h⟩ := Outcome.bind_eq_ok_iff.1 h
    obtain ⟨⟨ss', e2⟩, h2, h⟩ := Outcome.bind_eq_ok_iff.1 h
    simp only [Outcome.ok.injEq, Prod.mk.injEq] at h
    rw [← h.1]
    intro x hx
    rcases List.mem_cons.1 hx with rfl | hx
    · rw [State6.generateNoise] at h1
      obtain ⟨⟨org, e3⟩, _, h1⟩ := Outcome.bind_eq_ok_iff.1 h1
      obtain ⟨s', h3, h1⟩ := Outcome.bind_eq_ok_iff.1 h1
      simp only [Outcome.ok.injEq, Prod.mk.injEq] at h1
      rw [← h1.1]
      unfold State6.ofNoise at h3
      split at h3
      · simp only [Outcome.ok.injEq] at h3
        rw [← h3]
        exact hc.made _ _ _ _
      · cases h3
    · exact ih h2 x hx

theorem Closed.resampled {env : Env} (hv : env.Valid) {call : ℕ} {sigma : State6 ℝ} {f f' : Filter}
    (h : resampleFilter env call sigma f = .ok f') (hf : ∀ p ∈ f.particles, I p.state) :
    ∀ p ∈ f'.particles, I p.state := by
  obtain ⟨ns, hns, h⟩ := Outcome.bind_eq_ok_iff.1 h
  obtain ⟨f2, h2, _, _, _, hp⟩ := PF.resample_spec f _
    (env.unit * (PF.total f.particles / (f.particles.length : ℝ))) (pickNoise ns)
    (hv.sort (PF.accumulate 0 f.particles))
  rw [h2] at h
  simp only [Outcome.ok.injEq] at h
  subst h
  intro p hpm
  obtain ⟨_, q, hq, e | ⟨k, e⟩⟩ := hp p hpm
  · rw [e]; exact hf q hq
  · rw [e]
    exact hc.normalize _ (hc.add _ _ (hf q hq) (hc.pick hns k))

theorem Closed.noised {env : Env} {call : ℕ} {sigma : State6 ℝ} {f f' : Filter}
    (h : addNoise env call sigma f = .ok f') (hf : ∀ p ∈ f.particles, I p.state) :
    ∀ p ∈ f'.particles, I p.state := by
  obtain ⟨ns, hns, h⟩ := Outcome.bind_eq_ok_iff.1 h
  simp only [Outcome.ok.injEq] at h
  subst h
  intro p hp
  simp only [PF.Filter.noise, List.mem_mapIdx] at hp
  obtain ⟨i, hi, rfl⟩ := hp
  exact hc.add _ _ (hf _ (List.getElem_mem hi)) (hc.pick hns i)

theorem Closed.resized {env : Env} (hv : env.Valid) {f f' : Filter} {k : ℤ}
    (h : resizeFilter env f k = .ok f') (hf : ∀ p ∈ f.particles, I p.state) :
    ∀ p ∈ f'.particles, I p.state := by
  obtain ⟨_, _, _, hne, _⟩ := resizeFilter_spec hv h
  rw [resizeFilter] at h
  split_ifs at h with h0
  obtain ⟨f2, h2, _, _, hp⟩ := PF.resize_spec State6.default env.junk f k.toNat _ (hv.sort (PF.accumulate 0 f.particles))
    (hne.imp id fun h => by simp [h])
  rw [h2] at h
  simp only [Outcome.ok.injEq] at h
  subst h
  intro p hpm
  obtain ⟨_, q, hq, e⟩ := hp p hpm
  rw [e]; exact hf q hq

theorem Closed.localized {lib : Lib C} {env : Env} (hv : env.Valid) {m : MapSt} {odo : OdoSt}
    {warn : Vec3 ℝ} {loc loc' : LocSt C} {header : Header} {p : Prep} {outs : List Out}
    (h : localize P lib env m odo warn loc header p = .ok (loc', outs)) (hf : ∀ p ∈ loc.pf.particles, I p.state) :
    ∀ p ∈ loc'.pf.particles, I p.state := by
  obtain ⟨r, hw, _, _, _, _, _, h3, h5, h6, _, rfl, _⟩ := localize_ok h
  have hs1 : (r.pf1 P loc).particles.map PF.Particle.state = loc.pf.particles.map PF.Particle.state :=
    pf1_states (weighLoop_length hw)
  have w1 : ∀ p ∈ (r.pf1 P loc).particles, I p.state := by
    intro p hp
    have : p.state ∈ (r.pf1 P loc).particles.map PF.Particle.state := List.mem_map_of_mem hp
    rw [hs1] at this
    obtain ⟨q, hq, e⟩ := List.mem_map.1 this
    rw [← e]; exact hf q hq
  have w2 : ∀ p ∈ (r.pf2 P loc).particles, I p.state := by
    unfold LocRun.pf2
    split_ifs
    · intro p hp
      simp only [PF.Filter.predict, List.mem_map] at hp
      obtain ⟨q, hq, rfl⟩ := hp
      exact hc.reset _ (w1 q hq)
    · exact w1
  have w3 := hc.resampled hv h3 w2
  have w4 : ∀ p ∈ (driftFilter P env r.pf3).particles, I p.state := by
    intro p hp
    simp only [driftFilter, List.mem_mapIdx] at hp
    obtain ⟨i, hi, rfl⟩ := hp
    exact hc.drift _ _ _ _ _ (w3 _ (List.getElem_mem hi))
  have w5 : ∀ p ∈ r.pf5.particles, I p.state := by
    rw [expandFilter] at h5
    split_ifs at h5
    · exact hc.noised h5 w4
    · simp only [Outcome.ok.injEq] at h5
      exact h5 ▸ w4
  rw [reduceFilter] at h6
  show ∀ p ∈ r.pf6.particles, I p.state
  split_ifs at h6
  · exact hc.resized hv h6 w5
  · simp only [Outcome.ok.injEq] at h6
    exact h6 ▸ w5

theorem Closed.odom {n : Node C} {msg : OdomMsg} (hg : good msg.rot) (hk : Kept good I n) :
    Kept good I (odomCore P n msg).1 ∧ ∀ im, (odomCore P n msg).2 = some im → good im.rot := by
  have hpred : ∀ motion : Motion ℝ, (∃ dt, motion = n.odo.motion.setOdoms n.odo.prev (State6.ofQuat msg.pos msg.rot) dt) →
      ∀ p ∈ (n.loc.pf.predict motion.predict).particles, I p.state := by
    rintro _ ⟨dt, rfl⟩ p hp
    simp only [PF.Filter.predict, List.mem_map] at hp
    obtain ⟨q, hq, rfl⟩ := hp
    exact hc.predict _ _ _ _ _ hk.odom hg (hk.states q hq)
  simp only [odomCore]
  split_ifs with h1 h2 h3 h4 h4
  · exact ⟨⟨hk.states, hk.odom, hk.imu⟩, by simp⟩
  · refine ⟨⟨hpred _ ⟨_, rfl⟩, hg, hk.imu⟩, fun im h => ?_⟩
    simp only [Option.some.injEq] at h
    rw [← h]; exact hg
  · exact ⟨⟨hpred _ ⟨_, rfl⟩, hg, hk.imu⟩, by simp⟩
  · refine ⟨⟨hk.states, hk.odom, hk.imu⟩, fun im h => ?_⟩
    simp only [Option.some.injEq] at h
    rw [← h]; exact hg
  · exact ⟨⟨hk.states, hk.odom, hk.imu⟩, by simp⟩
  · exact ⟨⟨hk.states, hg, hk.imu⟩, by simp⟩

theorem Closed.measured (f : Filter) (l : State6 ℝ → ℝ) (hf : ∀ p ∈ f.particles, I p.state) :
    ∀ p ∈ (f.measure Real.log l).particles, I p.state := by
  intro p hp
  simp only [PF.Filter.measure] at hp
  split_ifs at hp
  · simp only [PF.weigh, List.mem_map] at hp
    obtain ⟨_, ⟨q, hq, rfl⟩, rfl⟩ := hp
    exact hf q hq
  · exact hf p hp

theorem Closed.imuMsg {env : Env} (hte : ∀ a b s t, env.tf a b s = some t → tfOk t.rot) {n : Node C} {msg : ImuMsg}
    (hg : good msg.rot) (hk : Kept good I n) :
    Kept good I (imuCore P env n msg).1 ∧ ∀ om, (imuCore P env n msg).2 = some om → good om.rot := by
  simp only [imuCore]
  cases ht : env.tf P.baseFrame msg.frame 0 with
  | none => split_ifs <;> exact ⟨⟨hk.states, hk.odom, hk.imu⟩, by simp⟩
  | some t =>
    have hq := hc.turn t.rot msg.rot (hte _ _ _ _ ht) hg
    split_ifs with h1 h2 h3 h4
    · exact ⟨⟨hk.states, hk.odom, hk.imu⟩, by simp⟩
    · refine ⟨⟨hc.measured _ _ hk.states, hk.odom, hq⟩, fun om h => ?_⟩
      simp only [Option.some.injEq] at h
      rw [← h]; exact hq
    · exact ⟨⟨hc.measured _ _ hk.states, hk.odom, hq⟩, by simp⟩
    · exact ⟨⟨hk.states, hk.odom, hk.imu⟩, by simp⟩
    · exact ⟨⟨hk.states, hk.odom, hk.imu⟩, by simp⟩

theorem Closed.sensor {env : Env} (hte : ∀ a b s t, env.tf a b s = some t → tfOk t.rot) (fuel : ℕ) {n n' : Node C}
    {msg : OdomMsg ⊕ ImuMsg} (hg : good (msg.elim OdomMsg.rot ImuMsg.rot)) {outs : List Out}
    (h : sensor P env fuel n msg = .ok (n', outs)) (hk : Kept good I n) : Kept good I n' := by
  induction fuel generalizing n msg outs with
  | zero => simp [Node.sensor] at h
  | succ fuel ih =>
    cases msg with
    | inl msg =>
      obtain ⟨this, him⟩ := hc.odom (msg := msg) hg hk
      rw [Node.sensor] at h
      rcases hcore : odomCore P n msg with ⟨n1, _ | im⟩
      · rw [hcore] at h this
        simp only [Outcome.ok.injEq, Prod.mk.injEq] at h
        rw [← h.1]; exact this
      · rw [hcore] at h this him
        obtain ⟨⟨n2, o2⟩, h2, h⟩ := Outcome.bind_eq_ok_iff.1 h
        simp only [Outcome.ok.injEq, Prod.mk.injEq] at h
        obtain ⟨rfl, rfl⟩ := h
        exact ih (n := n1) (msg := .inr im) (him im rfl) h2 this
    | inr msg =>
      obtain ⟨this, him⟩ := hc.imuMsg hte (msg := msg) hg hk
      rw [Node.sensor] at h
      rcases hcore : imuCore P env n msg with ⟨n1, _ | im⟩
      · rw [hcore] at h this
        simp only [Outcome.ok.injEq, Prod.mk.injEq] at h
        rw [← h.1]; exact this
      · rw [hcore] at h this him
        obtain ⟨⟨n2, o2⟩, h2, h⟩ := Outcome.bind_eq_ok_iff.1 h
        simp only [Outcome.ok.injEq, Prod.mk.injEq] at h
        obtain ⟨rfl, rfl⟩ := h
        exact ih (n := n1) (msg := .inl im) (him im rfl) h2 this

theorem Closed.placed {d : ℤ} {prob : ℝ} {imu : Quat ℝ} (hi : good imu) (ps : List Particle) (c : ℤ) (pts : List Point)
    {r : List Particle} (h : place d prob imu ps c pts = .ok r) : ∀ p ∈ r, I p.state := by
  induction ps generalizing c pts r with
  | nil =>
    unfold place at h
    simp only [Outcome.ok.injEq] at h
    subst h; simp
  | cons a ps ih =>
    cases pts with
    | nil => simp [place] at h
    | cons pt pts =>
      rw [place] at h
      obtain ⟨rest, h1, h⟩ := Outcome.bind_eq_ok_iff.1 h
      simp only [Outcome.ok.injEq] at h
      rw [← h]
      intro p hp
      rcases List.mem_cons.1 hp with rfl | hp
      · exact hc.stand _ _ _ hi
      · split_ifs at h1
        · exact ih _ _ h1 p hp
        · exact ih _ _ h1 p hp

theorem Closed.init {f : Filter} {st : ℕ → State6 ℝ} (h : ∀ k, I (st k)) : ∀ p ∈ (f.init st).particles, I p.state := by
  intro p hp
  simp only [PF.Filter.init, List.mem_mapIdx] at hp
  obtain ⟨i, hi, rfl⟩ := hp
  exact h i

theorem Closed.step {lib : Lib C} {env : Env} (hv : env.Valid) {n n' : Node C} {ev : Event} {o : List Out}
    (hg : GoodMsgs tfOk good (ev, env)) (h : Node.step P lib env n ev = .ok (n', o)) (hk : Kept good I n) :
    Kept good I n' := by
  cases ev with
  | mapcloud stamp msg =>
    rcases cbMapcloud_ok h with ⟨_, rfl, _⟩ | ⟨_, hl⟩
    · exact ⟨hk.states, hk.odom, hk.imu⟩
    · obtain ⟨h3, h4, _, _, h5, _⟩ := load_frame hl
      exact ⟨by rw [h5]; exact hk.states, by rw [h3]; exact hk.odom, by rw [h4]; exact hk.imu⟩
  | mapcloudUpdate msg =>
    simp only [Node.step, Outcome.ok.injEq, Prod.mk.injEq] at h
    rw [← h.1]
    simp only [cbMapcloudUpdate]
    rcases Conv.fromROSMsg msg [] with ⟨_ | _, pts⟩ <;> exact ⟨hk.states, hk.odom, hk.imu⟩
  | loadPcd file =>
    rcases cbLoadPcd_ok h with ⟨_, rfl, _⟩ | ⟨_, _, _, hl, _⟩
    · exact ⟨hk.states, hk.odom, hk.imu⟩
    · obtain ⟨h3, h4, _, _, h5, _⟩ := load_frame hl
      exact ⟨by rw [h5]; exact hk.states, by rw [h3]; exact hk.odom, by rw [h4]; exact hk.imu⟩
  | timer =>
    obtain ⟨r, _, h⟩ := Outcome.bind_eq_ok_iff.1 h
    simp only [Outcome.ok.injEq, Prod.mk.injEq] at h
    rw [← h.1]; exact ⟨hk.states, hk.odom, hk.imu⟩
  | cloud header msg =>
    obtain ⟨_, ho, hi, _, hcase⟩ := cbCloud_loc h
    refine ⟨?_, by rw [ho]; exact hk.odom, by rw [hi]; exact hk.imu⟩
    rcases hcase with ⟨hl, _, _⟩ | ⟨_, acc, c, hcore⟩
    · rw [hl]; exact hk.states
    obtain ⟨_, _, ⟨_, _, hk', _⟩ | ⟨_, hme⟩⟩ := measureCore_ok hcore
    · rw [hk']; exact hk.states
    generalize n'.loc = loc2 at hme
    cases hme with
    | noHeader _ => exact hk.states
    | noTf _ _ _ => exact hk.states
    | noOrigin _ _ _ _ => exact hk.states
    | noPoints _ _ _ _ _ => exact hk.states
    | localized _ _ _ _ _ _ _ hl => exact hc.localized hv hl hk.states
  | odom msg => exact hc.sensor hg.2.2 _ (msg := .inl msg) (hg.1 msg rfl) h hk
  | imu msg => exact hc.sensor hg.2.2 _ (msg := .inr msg) (hg.2.1 msg rfl) h hk
  | initialpose msg =>
    have h' : cbPosition P lib env n msg = .ok (n', o) := h
    rw [cbPosition] at h'
    split_ifs at h' with h0
    · simp only [Outcome.ok.injEq, Prod.mk.injEq] at h'
      rw [← h'.1]; exact hk
    cases ht : env.tf P.mapFrame msg.frame msg.stamp with
    | none =>
      rw [ht] at h'
      simp only [Outcome.ok.injEq, Prod.mk.injEq] at h'
      rw [← h'.1]; exact hk
    | some t =>
      rw [ht] at h'
      obtain ⟨r, hr, h'⟩ := Outcome.bind_eq_ok_iff.1 h'
      simp only [Outcome.ok.injEq, Prod.mk.injEq] at h'
      rw [← h'.1]
      refine ⟨?_, hk.odom, hk.imu⟩
      intro p hp
      simp only [PF.Filter.predict, List.mem_map] at hp
      obtain ⟨q, hq, rfl⟩ := hp
      refine hc.reset _ (hc.init (fun k => ?_) q hq)
      by_cases hk' : k < r.1.length
      · have : pickNoise r.1 k = r.1[k] := by simp [pickNoise, List.getD, hk']
        rw [this]
        exact hc.generate hr _ (List.getElem_mem hk')
      · have : pickNoise r.1 k = State6.default := by
          simp [pickNoise, List.getD, List.getElem?_eq_none (not_lt.1 hk')]
        rw [this]
        exact hc.default
  | landmark msg =>
    obtain ⟨pf, h2, rfl, _⟩ := cbLandmark_ok h
    exact ⟨hc.resampled hv h2 (hc.measured _ _ hk.states), hk.odom, hk.imu⟩
  | resize size =>
    obtain ⟨pf, h2, rfl, _⟩ := cbResize_ok h
    exact ⟨hc.resized hv h2 hk.states, hk.odom, hk.imu⟩
  | expansionReset =>
    obtain ⟨pf, h2, rfl, _⟩ := cbExpansionReset_ok h
    exact ⟨hc.noised h2 hk.states, hk.odom, hk.imu⟩
  | globalLocalization =>
    rcases cbGlobalLocalization_ok h with ⟨_, rfl, _⟩ | ⟨_, c, pf, ps, _, h1, h2, rfl, _⟩
    · exact hk
    · exact ⟨hc.placed hk.imu _ _ _ h2, hk.odom, hk.imu⟩
  | reconfigure w =>
    simp only [Node.step, Outcome.ok.injEq, Prod.mk.injEq] at h
    rw [← h.1]; exact ⟨hk.states, hk.odom, hk.imu⟩

theorem Closed.runFrom {lib : Lib C} {h : History} (hv : HistValid h)
    (hg : ∀ e ∈ h, GoodMsgs tfOk good e) {n0 n : Node C} {outs : List (List Out)}
    (hr : Node.run P lib n0 h = .ok (n, outs)) (h0 : Kept good I n0) : Kept good I n := by
  induction h generalizing n0 outs with
  | nil =>
    simp only [Node.run, Outcome.ok.injEq, Prod.mk.injEq] at hr
    rw [← hr.1]; exact h0
  | cons e h ih =>
    obtain ⟨ev, env⟩ := e
    obtain ⟨n1, o, os, hst, hr', rfl⟩ := run_cons_ok hr
    exact ih (fun e he => hv e (by simp [he])) (fun e he => hg e (by simp [he])) hr'
      (hc.step (hv (ev, env) (by simp)) (hg _ (by simp)) hst h0)

/-- After any history with good messages. -/
theorem Closed.run {lib : Lib C} {env0 : Env} {motion0 : Motion ℝ} {h : History} (hv : HistValid h)
    (hg : ∀ e ∈ h, GoodMsgs tfOk good e) {n0 n : Node C} {outs : List (List Out)}
    (hs : start P lib env0 motion0 = .ok n0) (hr : Node.run P lib n0 h = .ok (n, outs)) : Kept good I n := by
  refine hc.runFrom hv hg hr ?_
  obtain ⟨_, ns, hns, rfl⟩ := start_ok hs
  exact ⟨hc.init (hc.pick hns), hc.one, hc.one⟩

end
end Node
end Mcl3dl
