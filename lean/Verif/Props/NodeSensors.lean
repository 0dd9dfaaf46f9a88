import Verif.Proofs.NodeDemo
import Verif.Proofs.NodeTotal
import Verif.Props.Motion
import Verif.Spec.NodeSensors

/-!
# C86, C87, C88: odometry and IMU
-/

set_option linter.unusedSectionVars false

namespace Mcl3dl
namespace Node

variable {C : Type}

/-! ## C88 -/

theorem odomCore_synth {P : Params} {n : Node C} {m : OdomMsg} {n' : Node C} {im : ImuMsg}
    (h : odomCore P n m = (n', some im)) : P.fakeImu = true ∧ im.stamp = m.stamp ∧ n'.imu = n.imu := by
  unfold odomCore at h
  simp only at h
  split_ifs at h <;> simp only [Prod.mk.injEq, Option.some.injEq, reduceCtorEq, and_false] at h
  all_goals
    obtain ⟨rfl, rfl⟩ := h
    exact ⟨by assumption, rfl, rfl⟩

theorem imuCore_synth {P : Params} {env : Env} {n : Node C} {m : ImuMsg} {n' : Node C} {om : OdomMsg}
    (h : imuCore P env n m = (n', some om)) :
    P.fakeOdom = true ∧ om.stamp = m.stamp ∧ n'.imu.has = true ∧ n'.imu.last = m.stamp := by
  unfold imuCore at h
  simp only at h
  cases ht : env.tf P.baseFrame m.frame 0 with
  | none =>
    rw [ht] at h
    split_ifs at h <;> simp only [Prod.mk.injEq, reduceCtorEq, and_false] at h
  | some t =>
    rw [ht] at h
    simp only at h
    split_ifs at h with h1 h2 h3 h4 <;>
      simp only [Prod.mk.injEq, Option.some.injEq, reduceCtorEq, and_false] at h
    obtain ⟨rfl, rfl⟩ := h
    exact ⟨h4, rfl, h1, rfl⟩

theorem imuCore_repeat {P : Params} {env : Env} {n : Node C} {m : ImuMsg} (h1 : n.imu.has = true)
    (h2 : n.imu.last = m.stamp) : (imuCore P env n m).2 = none := by
  unfold imuCore
  simp only [h1, if_true, h2, sub_self]
  rw [if_neg (by norm_num), if_neg (by norm_num)]

theorem sensor_imu_repeat {P : Params} {env : Env} {n : Node C} {m : ImuMsg} (fuel : ℕ)
    (h1 : n.imu.has = true) (h2 : n.imu.last = m.stamp) :
    sensor P env (fuel + 1) n (.inr m) = .ok ((imuCore P env n m).1, []) := by
  have := imuCore_repeat (P := P) (env := env) h1 h2
  unfold sensor
  rcases hc : imuCore P env n m with ⟨n', _ | om⟩
  · rfl
  · rw [hc] at this; cases this

/-- C88: handling an odometry or IMU message always comes to an end, for all parameters (even with
both flags set, which `Parameters::load` refuses). -/
theorem C88_terminates (P : Params) (lib : Lib C) (env : Env) (n : Node C) (ev : Event)
    (hev : (∃ m, ev = .odom m) ∨ ∃ m, ev = .imu m) : ∃ n' o, step P lib env n ev = .ok (n', o) := by
  -- an odometry message just after an IMU message of the same stamp
  have h2 : ∀ (n : Node C) (m : OdomMsg), n.imu.has = true → n.imu.last = m.stamp →
      ∃ n' o, sensor P env 2 n (.inl m) = .ok (n', o) := by
    intro n m h1 h2
    unfold sensor
    rcases hc : odomCore P n m with ⟨n', _ | im⟩
    · exact ⟨_, _, rfl⟩
    · obtain ⟨_, e1, e2⟩ := odomCore_synth hc
      simp only
      rw [sensor_imu_repeat 0 (by rw [e2]; exact h1) (by rw [e2, e1]; exact h2)]
      exact ⟨_, _, rfl⟩
  have h3 : ∀ (n : Node C) (m : ImuMsg), ∃ n' o, sensor P env 3 n (.inr m) = .ok (n', o) := by
    intro n m
    unfold sensor
    rcases hc : imuCore P env n m with ⟨n', _ | om⟩
    · exact ⟨_, _, rfl⟩
    · obtain ⟨_, e1, e2, e3⟩ := imuCore_synth hc
      obtain ⟨n2, o2, h⟩ := h2 n' om e2 (by rw [e3, e1])
      simp only
      rw [h]
      exact ⟨_, _, rfl⟩
  rcases hev with ⟨m, rfl⟩ | ⟨m, rfl⟩
  · show ∃ n' o, sensor P env 4 n (.inl m) = .ok (n', o)
    unfold sensor
    rcases hc : odomCore P n m with ⟨n', _ | im⟩
    · exact ⟨_, _, rfl⟩
    · obtain ⟨n2, o2, h⟩ := h3 n' im
      simp only
      rw [h]
      exact ⟨_, _, rfl⟩
  · show ∃ n' o, sensor P env 4 n (.inr m) = .ok (n', o)
    unfold sensor
    rcases hc : imuCore P env n m with ⟨n', _ | om⟩
    · exact ⟨_, _, rfl⟩
    · obtain ⟨_, e1, e2, e3⟩ := imuCore_synth hc
      have : ∃ n2 o, sensor P env 3 n' (.inl om) = .ok (n2, o) := by
        unfold sensor
        rcases hc2 : odomCore P n' om with ⟨n2, _ | im⟩
        · exact ⟨_, _, rfl⟩
        · obtain ⟨_, e4, e5⟩ := odomCore_synth hc2
          simp only
          rw [sensor_imu_repeat 1 (by rw [e5]; exact e2) (by rw [e5, e4, e3, e1])]
          exact ⟨_, _, rfl⟩
      obtain ⟨n2, o2, h⟩ := this
      simp only
      rw [h]
      exact ⟨_, _, rfl⟩

/-- C88: with any accepted parameters, handling one message triggers at most one synthetic message. -/
theorem C88_at_most_one {junk : String → ℝ} {srv : Server} {P : Params} (hP : Params.load junk srv = some P)
    {lib : Lib C} {env : Env} {n n' : Node C} {ev : Event} {o : List Out}
    (hev : (∃ m, ev = .odom m) ∨ ∃ m, ev = .imu m) (h : step P lib env n ev = .ok (n', o)) :
    o = [] ∨ o = [.synthImu] ∨ o = [.synthOdom] := by
  have hnb : ¬ (P.fakeImu = true ∧ P.fakeOdom = true) := by
    rw [Params.load] at hP
    split_ifs at hP with hb
    simp only [Option.some.injEq] at hP
    rw [← hP]
    simpa [Params.loadFrom] using hb
  rcases hev with ⟨m, rfl⟩ | ⟨m, rfl⟩
  · change sensor P env 4 n (.inl m) = .ok (n', o) at h
    rw [sensor] at h
    rcases hc : odomCore P n m with ⟨n1, _ | im⟩
    · rw [hc] at h
      simp only [Outcome.ok.injEq, Prod.mk.injEq] at h
      exact .inl h.2.symm
    · rw [hc] at h
      obtain ⟨hf, _⟩ := odomCore_synth hc
      unfold sensor at h
      simp only at h
      rcases hc2 : imuCore P env n1 im with ⟨n2, _ | om⟩
      · rw [hc2] at h
        simp only [Outcome.bind_ok, Outcome.ok.injEq, Prod.mk.injEq] at h
        exact .inr (.inl h.2.symm)
      · exact absurd ⟨hf, (imuCore_synth hc2).1⟩ hnb
  · change sensor P env 4 n (.inr m) = .ok (n', o) at h
    rw [sensor] at h
    rcases hc : imuCore P env n m with ⟨n1, _ | om⟩
    · rw [hc] at h
      simp only [Outcome.ok.injEq, Prod.mk.injEq] at h
      exact .inl h.2.symm
    · rw [hc] at h
      obtain ⟨hf, _⟩ := imuCore_synth hc
      unfold sensor at h
      simp only at h
      rcases hc2 : odomCore P n1 om with ⟨n2, _ | im⟩
      · rw [hc2] at h
        simp only [Outcome.bind_ok, Outcome.ok.injEq, Prod.mk.injEq] at h
        exact .inr (.inr h.2.symm)
      · exact absurd ⟨(odomCore_synth hc2).1, hf⟩ hnb

/-- C88: parameters enabling both are rejected. -/
theorem C88_both_rejected (junk : String → ℝ) (srv : Server) (h1 : srv.getBool "fake_imu" = some true)
    (h2 : srv.getBool "fake_odom" = some true) : Params.load junk srv = none := by
  simp [Params.load, Server.boolD, h1, h2]

/-! ## C86 -/

theorem measure_states (f : Filter) (lik : State6 ℝ → ℝ) :
    (f.measure Real.log lik).particles.map PF.Particle.state = f.particles.map PF.Particle.state := by
  simp only [PF.Filter.measure]
  split_ifs <;> simp [PF.weigh, Function.comp_def]

theorem imuCore_keeps (P : Params) (env : Env) (n : Node C) (m : ImuMsg) :
    (imuCore P env n m).1.odo = n.odo ∧ states (imuCore P env n m).1 = states n := by
  unfold imuCore states
  simp only
  cases env.tf P.baseFrame m.frame 0 with
  | none => split_ifs <;> exact ⟨rfl, rfl⟩
  | some t => split_ifs <;> first | exact ⟨rfl, rfl⟩ | exact ⟨rfl, measure_states _ _⟩

/-- The relation between the members of the node and the reference. -/
def OdoInv (P : Params) (o : OdoSt) (r : Option OdomMsg) : Prop :=
  o.has = r.isSome ∧ (∀ m, r = some m → o.last = m.stamp ∧ o.prev = m.pose) ∧
  o.motion.linTc = P.integLinTc ∧ o.motion.angTc = P.integAngTc

theorem stepParticle_congr {M M' : Motion ℝ} (h1 : M.linTc = M'.linTc) (h2 : M.angTc = M'.angTc)
    (p c : State6 ℝ) (dt : ℝ) (s : State6 ℝ) : M.stepParticle p c dt s = M'.stepParticle p c dt s := by
  simp only [Motion.stepParticle, Motion.predict, Motion.setOdoms, h1, h2]

/-- The particles after an odometry message when `r` is the reference. -/
noncomputable def moved (M : Motion ℝ) (r : Option OdomMsg) (m : OdomMsg) (l : List (State6 ℝ)) :
    List (State6 ℝ) :=
  match r with
  | some r =>
    if useOf (some r.stamp) m.stamp = .use then l.map (M.stepParticle r.pose m.pose (m.stamp - r.stamp)) else l
  | none => l

theorem odomCore_spec {P : Params} {n : Node C} {r : Option OdomMsg} (hi : OdoInv P n.odo r) (m : OdomMsg)
    {M : Motion ℝ} (hM : M.linTc = P.integLinTc ∧ M.angTc = P.integAngTc) :
    OdoInv P (odomCore P n m).1.odo (odomRefStep r m) ∧
    states (odomCore P n m).1 = moved M r m (states n) ∧
    (odomCore P n m).1.loc.pf.particles.map PF.Particle.prob = n.loc.pf.particles.map PF.Particle.prob := by
  obtain ⟨h1, h2, h3, h4⟩ := hi
  cases r with
  | none =>
    simp only [Option.isSome_none] at h1
    simp only [odomCore, h1, Bool.false_eq_true, if_false, moved, odomRefStep, useOf, Option.map_none]
    exact ⟨⟨rfl, fun m' hm' => by cases hm'; exact ⟨rfl, rfl⟩, h3, h4⟩, rfl, trivial⟩
  | some r =>
    simp only [Option.isSome_some] at h1
    obtain ⟨hl, hp⟩ := h2 r rfl
    simp only [odomCore, h1, if_true, moved, odomRefStep, useOf, Option.map_some, hl]
    by_cases hj : m.stamp < r.stamp ∨ r.stamp + 5 < m.stamp
    · have hj' : m.stamp - r.stamp < 0 ∨ 5 < m.stamp - r.stamp := by
        rcases hj with hj | hj
        · exact .inl (by linarith)
        · exact .inr (by linarith)
      simp only [if_pos hj, if_pos hj', reduceCtorEq, if_false]
      exact ⟨⟨rfl, by simp, h3, h4⟩, rfl, trivial⟩
    · have hj' : ¬ (m.stamp - r.stamp < 0 ∨ 5 < m.stamp - r.stamp) := by
        push Not at hj ⊢
        exact ⟨by linarith, by linarith⟩
      simp only [if_neg hj, if_neg hj']
      by_cases hu : r.stamp + 1 / 20 < m.stamp
      · have hu' : 1 / 20 < m.stamp - r.stamp := by linarith
        simp only [if_pos hu, if_pos hu', if_true]
        refine ⟨⟨rfl, fun m' hm' => by cases hm'; exact ⟨rfl, rfl⟩, h3, h4⟩, ?_, ?_⟩
        · simp only [states, PF.Filter.predict, List.map_map, hp]
          apply List.map_congr_left
          intro a _
          exact stepParticle_congr (h3.trans hM.1.symm) (h4.trans hM.2.symm) r.pose m.pose (m.stamp - r.stamp) a.state
        · simp [PF.Filter.predict, Function.comp_def]
      · have hu' : ¬ 1 / 20 < m.stamp - r.stamp := by linarith
        simp only [if_neg hu, if_neg hu', reduceCtorEq, if_false]
        exact ⟨⟨rfl, fun m' hm' => by cases hm'; exact ⟨rfl, hp⟩, h3, h4⟩, rfl, trivial⟩

/-- An odometry message when odometry is not faked. -/
theorem step_odom {P : Params} (hf : P.fakeOdom = false) {lib : Lib C} {env : Env} {n n' : Node C}
    {m : OdomMsg} {o : List Out} (h : step P lib env n (.odom m) = .ok (n', o)) :
    n'.odo = (odomCore P n m).1.odo ∧ states n' = states (odomCore P n m).1 ∧
      (P.fakeImu = false → n' = (odomCore P n m).1) := by
  change sensor P env 4 n (.inl m) = .ok (n', o) at h
  rw [sensor] at h
  rcases hc : odomCore P n m with ⟨n1, _ | im⟩
  · rw [hc] at h
    simp only [Outcome.ok.injEq, Prod.mk.injEq] at h
    rw [← h.1]; exact ⟨rfl, rfl, fun _ => rfl⟩
  · rw [hc] at h
    unfold sensor at h
    simp only at h
    have hk := imuCore_keeps P env n1 im
    rcases hc2 : imuCore P env n1 im with ⟨n2, _ | om⟩
    · rw [hc2] at h hk
      simp only [Outcome.bind_ok, Outcome.ok.injEq, Prod.mk.injEq] at h
      rw [← h.1]
      exact ⟨hk.1, hk.2, fun hi => by rw [(odomCore_synth hc).1] at hi; cases hi⟩
    · rw [(imuCore_synth hc2).1] at hf; cases hf

/-- An IMU message when odometry is not faked. -/
theorem step_imu_keeps {P : Params} (hf : P.fakeOdom = false) {lib : Lib C} {env : Env} {n n' : Node C}
    {m : ImuMsg} {o : List Out} (h : step P lib env n (.imu m) = .ok (n', o)) :
    n' = (imuCore P env n m).1 ∧ n'.odo = n.odo ∧ states n' = states n := by
  change sensor P env 4 n (.inr m) = .ok (n', o) at h
  rw [sensor] at h
  have hk := imuCore_keeps P env n m
  rcases hc : imuCore P env n m with ⟨n1, _ | om⟩
  · rw [hc] at h hk
    simp only [Outcome.ok.injEq, Prod.mk.injEq] at h
    rw [← h.1]; exact ⟨rfl, hk⟩
  · rw [(imuCore_synth hc).1] at hf; cases hf

/-- Every callback but odometry and IMU leaves the odometry members alone. -/
theorem step_odo {P : Params} {lib : Lib C} {env : Env} {n n' : Node C} {ev : Event} {o : List Out}
    (h : step P lib env n ev = .ok (n', o)) (h1 : ∀ m, ev ≠ .odom m) (h2 : ∀ m, ev ≠ .imu m) :
    n'.odo = n.odo ∧ n'.imu = n.imu ∧ (keepsStates ev = true → states n' = states n) := by
  cases ev with
  | mapcloud stamp msg =>
    rcases cbMapcloud_ok h with ⟨_, rfl, _⟩ | ⟨_, hl⟩
    · exact ⟨rfl, rfl, fun _ => rfl⟩
    · obtain ⟨a, b, _, _, h5, _⟩ := load_frame hl
      exact ⟨a, b, fun _ => by simp only [states, h5]⟩
  | mapcloudUpdate msg =>
    simp only [step, Outcome.ok.injEq, Prod.mk.injEq] at h
    rw [← h.1]
    simp only [cbMapcloudUpdate]
    rcases Conv.fromROSMsg msg [] with ⟨_ | _, pts⟩ <;> exact ⟨rfl, rfl, fun _ => rfl⟩
  | loadPcd file =>
    rcases cbLoadPcd_ok h with ⟨_, rfl, _⟩ | ⟨_, _, _, hl, _⟩
    · exact ⟨rfl, rfl, fun _ => rfl⟩
    · obtain ⟨a, b, _, _, h5, _⟩ := load_frame hl
      exact ⟨a, b, fun _ => by simp only [states, h5]⟩
  | timer =>
    obtain ⟨r, _, h⟩ := Outcome.bind_eq_ok_iff.1 h
    simp only [Outcome.ok.injEq, Prod.mk.injEq] at h
    rw [← h.1]; exact ⟨rfl, rfl, fun _ => rfl⟩
  | cloud header msg =>
    obtain ⟨_, a, b, _⟩ := cbCloud_loc h
    exact ⟨a, b, fun hk => by cases hk⟩
  | odom msg => exact absurd rfl (h1 msg)
  | imu msg => exact absurd rfl (h2 msg)
  | initialpose msg =>
    rcases cbPosition_ok h with ⟨rfl, _⟩ | ⟨_, t, st, _, rfl, _⟩ <;> exact ⟨rfl, rfl, fun hk => by cases hk⟩
  | landmark msg =>
    obtain ⟨pf, _, rfl, _⟩ := cbLandmark_ok h; exact ⟨rfl, rfl, fun hk => by cases hk⟩
  | resize size =>
    obtain ⟨pf, _, rfl, _⟩ := cbResize_ok h; exact ⟨rfl, rfl, fun hk => by cases hk⟩
  | expansionReset =>
    obtain ⟨pf, _, rfl, _⟩ := cbExpansionReset_ok h; exact ⟨rfl, rfl, fun hk => by cases hk⟩
  | globalLocalization =>
    rcases cbGlobalLocalization_ok h with ⟨_, rfl, _⟩ | ⟨_, c, pf, ps, _, _, _, rfl, _⟩ <;>
      exact ⟨rfl, rfl, fun hk => by cases hk⟩
  | reconfigure w =>
    simp only [step, Outcome.ok.injEq, Prod.mk.injEq] at h
    rw [← h.1]; exact ⟨rfl, rfl, fun _ => rfl⟩

theorem odomMsgs_cons_other {ev : Event} {env : Env} {h : History} (h1 : ∀ m, ev ≠ .odom m) :
    odomMsgs ((ev, env) :: h) = odomMsgs h := by
  unfold odomMsgs
  rw [List.filterMap_cons]
  cases ev <;> first | rfl | exact absurd rfl (h1 _)

theorem odomMsgs_cons_odom {m : OdomMsg} {env : Env} {h : History} :
    odomMsgs ((.odom m, env) :: h) = m :: odomMsgs h := rfl

theorem run_odo {P : Params} (hf : P.fakeOdom = false) {lib : Lib C} {h : History} {n n' : Node C}
    {outs : List (List Out)} {r : Option OdomMsg} (hi : OdoInv P n.odo r)
    (hr : run P lib n h = .ok (n', outs)) : OdoInv P n'.odo ((odomMsgs h).foldl odomRefStep r) := by
  induction h generalizing n outs r with
  | nil =>
    simp only [run, Outcome.ok.injEq, Prod.mk.injEq] at hr
    rw [← hr.1]; exact hi
  | cons e h ih =>
    obtain ⟨ev, env⟩ := e
    obtain ⟨n1, o, os, h1, h2, _⟩ := run_cons_ok hr
    by_cases ho : ∃ m, ev = .odom m
    · obtain ⟨m, rfl⟩ := ho
      rw [odomMsgs_cons_odom, List.foldl_cons]
      refine ih ?_ h2
      rw [(step_odom hf h1).1]
      exact (odomCore_spec hi m ⟨rfl, rfl⟩ (M := ⟨P.integLinTc, P.integAngTc, 0, 1, 0, 0, 0⟩)).1
    · push Not at ho
      rw [odomMsgs_cons_other ho]
      refine ih ?_ h2
      by_cases him : ∃ m, ev = .imu m
      · obtain ⟨m, rfl⟩ := him
        rw [(step_imu_keeps hf h1).2.1]; exact hi
      · push Not at him
        rw [(step_odo h1 ho him).1]; exact hi

theorem odoInv_start {P : Params} {lib : Lib C} {env0 : Env} {motion0 : Motion ℝ} {n0 : Node C}
    (hs : start P lib env0 motion0 = .ok n0) : OdoInv P n0.odo none := by
  obtain ⟨_, ns, _, rfl⟩ := start_ok hs
  exact ⟨rfl, by simp, rfl, rfl⟩

/-- When a message is used. -/
theorem useOf_use (l t : ℝ) : useOf (some l) t = .use ↔ l + 1 / 20 < t ∧ t ≤ l + 5 := by
  simp only [useOf]
  split_ifs with h1 h2
  · simp only [false_iff, not_and, not_le]
    intro h; rcases h1 with h1 | h1
    · linarith
    · exact h1
  · push Not at h1
    simp only [true_iff]
    exact ⟨h2, h1.2⟩
  · simp only [false_iff, not_and]
    intro h; exact absurd h h2

/-- C86: after any history, an odometry message moves the particles exactly if there is a reference and
the message is more than 0.05 s and at most 5 s newer; the motion is then the one from the reference to the
message.  The message never changes a weight (unless the IMU is faked from it). -/
theorem C86_gate {P : Params} (hf : P.fakeOdom = false) {lib : Lib C} {env0 env : Env} {motion0 : Motion ℝ}
    {n0 n n' : Node C} {h : History} {outs : List (List Out)} {m : OdomMsg} {o : List Out}
    (hs : start P lib env0 motion0 = .ok n0) (hr : run P lib n0 h = .ok (n, outs))
    (hst : step P lib env n (.odom m) = .ok (n', o)) :
    (∀ r, odomRef h = some r → r.stamp + 1 / 20 < m.stamp → m.stamp ≤ r.stamp + 5 →
      ∀ M : Motion ℝ, M.linTc = P.integLinTc → M.angTc = P.integAngTc →
      states n' = (states n).map (M.stepParticle r.pose m.pose (m.stamp - r.stamp))) ∧
    ((∀ r, odomRef h = some r → m.stamp ≤ r.stamp + 1 / 20 ∨ r.stamp + 5 < m.stamp) → states n' = states n) ∧
    (P.fakeImu = false →
      n'.loc.pf.particles.map PF.Particle.prob = n.loc.pf.particles.map PF.Particle.prob) := by
  have hi := run_odo hf (odoInv_start hs) hr
  obtain ⟨_, h2, h3⟩ := step_odom hf hst
  refine ⟨fun r hr1 hlo hhi M hM1 hM2 => ?_, fun hno => ?_, fun hfi => ?_⟩
  · rw [h2, (odomCore_spec hi m ⟨hM1, hM2⟩).2.1]
    change moved M (odomRef h) m _ = _
    rw [hr1]
    simp only [moved]
    rw [if_pos ((useOf_use _ _).2 ⟨hlo, hhi⟩)]
  · rw [h2, (odomCore_spec hi m ⟨rfl, rfl⟩ (M := ⟨P.integLinTc, P.integAngTc, 0, 1, 0, 0, 0⟩)).2.1]
    change moved _ (odomRef h) m _ = _
    cases hr1 : odomRef h with
    | none => rfl
    | some r =>
      simp only [moved]
      rw [if_neg]
      rw [useOf_use]
      rintro ⟨hlo, hhi⟩
      rcases hno r hr1 with h | h <;> linarith
  · rw [h3 hfi, (odomCore_spec hi m ⟨rfl, rfl⟩ (M := ⟨P.integLinTc, P.integAngTc, 0, 1, 0, 0, 0⟩)).2.2]

/-- C86: consecutive motions telescope.  Let `r` be the reference after any history `h0`, and `r'` the one
after more odometry messages (with other events that do not move particles between them), none of which is
a time jump.  Then a particle without noise moves exactly as odometry moved from `r` to `r'`: points that
are the same according to the odometry are the same according to the particle. -/
theorem C86_telescopes {P : Params} (hf : P.fakeOdom = false) {lib : Lib C} {env0 : Env} {motion0 : Motion ℝ}
    {n0 n n' : Node C} {h0 h : History} {outs outs' : List (List Out)} {r r' : OdomMsg}
    (hs : start P lib env0 motion0 = .ok n0) (hr0 : run P lib n0 h0 = .ok (n, outs))
    (hr : run P lib n h = .ok (n', outs')) (hk : ∀ e ∈ h, keepsStates e.1 = true)
    (hj : NoJump (odomRef h0) (odomMsgs h)) (hu : ∀ m ∈ odomMsgs h, m.rot.dot m.rot = 1)
    (hru : r.rot.dot r.rot = 1) (h1 : odomRef h0 = some r) (h2 : odomRef (h0 ++ h) = some r')
    (i : ℕ) (s s' : State6 ℝ) (hs1 : (states n)[i]? = some s) (hs2 : (states n')[i]? = some s')
    (hsu : Motion.UnitPose s) (hsn : Motion.NoNoise s) (u v : Vec3 ℝ)
    (huv : Motion.act r.pose u = Motion.act r'.pose v) : Motion.act s' v = Motion.act s u := by
  have hi := run_odo hf (odoInv_start hs) hr0
  have h2' : (odomMsgs h).foldl odomRefStep (some r) = some r' := by
    rw [← h1, odomRef, ← List.foldl_append, ← h2, odomRef, odomMsgs, odomMsgs, odomMsgs, List.filterMap_append]
  rw [h1] at hj
  change OdoInv P n.odo (odomRef h0) at hi
  rw [h1] at hi
  clear hr0 hs h1 h2
  induction h generalizing n outs' r s u with
  | nil =>
    simp only [run, Outcome.ok.injEq, Prod.mk.injEq] at hr
    simp only [odomMsgs, List.filterMap_nil, List.foldl_nil, Option.some.injEq] at h2'
    obtain ⟨rfl, rfl⟩ := hr
    subst h2'
    rw [hs1] at hs2
    obtain rfl := Option.some.inj hs2
    have := Motion.C77_sequence [] (⟨0, 0, 0, 1, 0, 0, 0⟩ : Motion ℝ) r.pose _ hru (by simp) hsu hsn u v huv
    exact this
  | cons e h ih =>
    obtain ⟨ev, env⟩ := e
    obtain ⟨n1, o, os, hst, hrest, _⟩ := run_cons_ok hr
    have hke := hk (ev, env) List.mem_cons_self
    have hk' : ∀ e ∈ h, keepsStates e.1 = true := fun e he => hk e (List.mem_cons_of_mem _ he)
    by_cases ho : ∃ m, ev = .odom m
    · obtain ⟨m, rfl⟩ := ho
      rw [odomMsgs_cons_odom] at hu hj h2'
      obtain ⟨hj1, hj2⟩ := hj
      have hmu : m.rot.dot m.rot = 1 := hu m List.mem_cons_self
      obtain ⟨a, b, _⟩ := step_odom hf hst
      obtain ⟨hi1, hst1, _⟩ := odomCore_spec hi m ⟨rfl, rfl⟩ (M := ⟨P.integLinTc, P.integAngTc, 0, 1, 0, 0, 0⟩)
      rw [← a] at hi1
      rw [← b] at hst1
      have hu' : ∀ m ∈ odomMsgs h, m.rot.dot m.rot = 1 := fun m hm => hu m (List.mem_cons_of_mem _ hm)
      simp only [List.foldl_cons] at h2'
      simp only [Option.map_some] at hj1
      by_cases huse : useOf (some r.stamp) m.stamp = .use
      · have hstep : odomRefStep (some r) m = some m := by simp [odomRefStep, huse]
        rw [hstep] at hi1 hj2 h2'
        simp only [moved, if_pos huse] at hst1
        have hs1' : (states n1)[i]? = some ((⟨P.integLinTc, P.integAngTc, 0, 1, 0, 0, 0⟩ : Motion ℝ).stepParticle
            r.pose m.pose (m.stamp - r.stamp) s) := by rw [hst1]; simp [hs1]
        obtain ⟨hu1, hn1, hn2, hn3, hn4⟩ := Motion.C78_unit ⟨P.integLinTc, P.integAngTc, 0, 1, 0, 0, 0⟩ r.pose m.pose s
          (m.stamp - r.stamp) hru hmu hsu
        have hne : m.rot.dot m.rot ≠ 0 := by rw [hmu]; norm_num
        have hw : ∃ w, Motion.act m.pose w = Motion.act r.pose u := by
          refine ⟨m.rot.inv.rotate (Motion.act r.pose u - m.pos), ?_⟩
          change m.rot.rotate (m.rot.inv.rotate _) + m.pos = _
          rw [(Quat.C30_inv_rotate m.rot hne _).2]
          ext
          · simp only [Vec3.add_x, Vec3.sub_x]; ring
          · simp only [Vec3.add_y, Vec3.sub_y]; ring
          · simp only [Vec3.add_z, Vec3.sub_z]; ring
        obtain ⟨w, hw⟩ := hw
        rw [ih hrest hk' hj2 hu' hmu _ hs1' hu1 ?_ w (hw.trans huv) h2' hi1]
        · exact Motion.C77_step _ r.pose m.pose s _ hru hmu hsu hsn u w hw.symm
        · obtain ⟨e1, e2, e3, e4⟩ := hsn
          exact ⟨hn1.trans e1, hn2.trans e2, hn3.trans e3, hn4.trans e4⟩
      · have hskip : useOf (some r.stamp) m.stamp = .skip := by
          cases hx : useOf (some r.stamp) m.stamp with
          | skip => rfl
          | use => exact absurd hx huse
          | jump => exact absurd hx hj1
          | reference =>
            simp only [useOf] at hx
            split_ifs at hx
        have hstep : odomRefStep (some r) m = some r := by simp [odomRefStep, hskip]
        rw [hstep] at hi1 hj2 h2'
        simp only [moved, if_neg huse] at hst1
        exact ih hrest hk' hj2 hu' hru s (by rw [hst1]; exact hs1) hsu hsn u huv h2' hi1
    · push Not at ho
      rw [odomMsgs_cons_other ho] at hu hj h2'
      by_cases him : ∃ m, ev = .imu m
      · obtain ⟨m, rfl⟩ := him
        obtain ⟨_, a, b⟩ := step_imu_keeps hf hst
        exact ih hrest hk' hj hu hru s (by rw [b]; exact hs1) hsu hsn u huv h2' (by rw [a]; exact hi)
      · push Not at him
        obtain ⟨a, _, b⟩ := step_odo hst ho him
        exact ih hrest hk' hj hu hru s (by rw [b hke]; exact hs1) hsu hsn u huv h2' (by rw [a]; exact hi)

/-! ## C87 -/

/-- The relation between the members of the node and the user's view of the IMU. -/
def ImuInv (s : ImuSt) (v : ImuView) : Prop :=
  s.has = v.last.isSome ∧ (∀ t, v.last = some t → s.last = t) ∧ s.facc = v.filter

/-- What a message does to the filter when `v` is the view of the IMU. -/
noncomputable def imuWeighed (P : Params) (v : ImuView) (e : ImuMsg × Env) (f : Filter) : Filter :=
  match useOf v.last e.1.stamp, e.2.tf P.baseFrame e.1.frame 0 with
  | .use, some t =>
    f.measure Real.log (GravityModel.make P.accVar (t.rot.rotate (v.filter.input e.1.acc).x.normalized)).measure
  | _, _ => f

theorem imuCore_spec {P : Params} {env : Env} {n : Node C} {v : ImuView} (hi : ImuInv n.imu v) (m : ImuMsg) :
    ImuInv (imuCore P env n m).1.imu (accStep P v (m, env)) ∧
    (imuCore P env n m).1.loc.pf = imuWeighed P v (m, env) n.loc.pf := by
  obtain ⟨h1, h2, h3⟩ := hi
  unfold imuWeighed
  rcases hl : v.last with _ | l
  · rw [hl] at h1
    simp only [Option.isSome_none] at h1
    simp only [imuCore, h1, Bool.false_eq_true, if_false, accStep, imuRefStep, useOf, hl, if_true]
    refine ⟨⟨rfl, fun t ht => ?_, ?_⟩, trivial⟩
    · simpa using ht
    · simp [h3]
  · rw [hl] at h1
    simp only [Option.isSome_some] at h1
    have h2l := h2 l hl
    simp only [imuCore, h1, if_true, h2l, accStep, imuRefStep, useOf, hl, h3]
    by_cases hj : m.stamp < l ∨ l + 5 < m.stamp
    · have hj' : m.stamp - l < 0 ∨ 5 < m.stamp - l := by
        rcases hj with hj | hj
        · exact .inl (by linarith)
        · exact .inr (by linarith)
      simp only [if_pos hj, if_pos hj', reduceCtorEq, if_false]
      exact ⟨⟨rfl, by simp, rfl⟩, trivial⟩
    · have hj' : ¬ (m.stamp - l < 0 ∨ 5 < m.stamp - l) := by
        push Not at hj ⊢
        exact ⟨by linarith, by linarith⟩
      simp only [if_neg hj, if_neg hj']
      by_cases hu : l + 1 / 20 < m.stamp
      · have hu' : 1 / 20 < m.stamp - l := by linarith
        simp only [if_pos hu, if_pos hu', reduceCtorEq, if_false]
        cases ht : env.tf P.baseFrame m.frame 0 with
        | none =>
          simp only [Option.isSome_none, Bool.false_eq_true, if_false]
          exact ⟨⟨rfl, fun t ht => by simpa using ht, rfl⟩, trivial⟩
        | some t =>
          simp only [Option.isSome_some, if_true]
          exact ⟨⟨rfl, fun t ht => by simpa using ht, rfl⟩, trivial⟩
      · have hu' : ¬ 1 / 20 < m.stamp - l := by linarith
        simp only [if_neg hu, if_neg hu', reduceCtorEq, if_false]
        exact ⟨⟨rfl, fun t ht => by simpa using ht, rfl⟩, trivial⟩

theorem odomCore_imu (P : Params) (n : Node C) (m : OdomMsg) : (odomCore P n m).1.imu = n.imu := by
  unfold odomCore
  simp only
  split_ifs <;> rfl

theorem odomCore_imu_none {P : Params} (hf : P.fakeImu = false) (n : Node C) (m : OdomMsg) :
    (odomCore P n m).2 = none := by
  rcases hc : odomCore P n m with ⟨n1, _ | im⟩
  · rfl
  · rw [(odomCore_synth hc).1] at hf; cases hf

/-- Odometry and IMU messages when the IMU is not faked: members of the IMU. -/
theorem step_imu {P : Params} (hf : P.fakeImu = false) {lib : Lib C} {env : Env} {n n' : Node C}
    {o : List Out} :
    (∀ m, step P lib env n (.odom m) = .ok (n', o) → n'.imu = n.imu) ∧
    (∀ m, step P lib env n (.imu m) = .ok (n', o) → n'.imu = (imuCore P env n m).1.imu ∧
      n'.loc.pf.particles.map PF.Particle.prob =
        (imuCore P env n m).1.loc.pf.particles.map PF.Particle.prob ∧
      (P.fakeOdom = false → n' = (imuCore P env n m).1)) := by
  constructor
  · intro m h
    change sensor P env 4 n (.inl m) = .ok (n', o) at h
    rw [sensor] at h
    have h1 := odomCore_imu P n m
    have h2 := odomCore_imu_none hf n m
    rcases hc : odomCore P n m with ⟨n1, x⟩
    rw [hc] at h h1 h2
    simp only at h2
    subst h2
    simp only [Outcome.ok.injEq, Prod.mk.injEq] at h
    rw [← h.1]; exact h1
  · intro m h
    change sensor P env 4 n (.inr m) = .ok (n', o) at h
    rw [sensor] at h
    rcases hc : imuCore P env n m with ⟨n1, _ | om⟩
    · rw [hc] at h
      simp only [Outcome.ok.injEq, Prod.mk.injEq] at h
      rw [← h.1]; exact ⟨rfl, rfl, fun _ => rfl⟩
    · rw [hc] at h
      unfold sensor at h
      simp only at h
      have h1 := odomCore_imu P n1 om
      have h2 := odomCore_imu_none hf n1 om
      have h3 : (odomCore P n1 om).1.loc.pf.particles.map PF.Particle.prob =
          n1.loc.pf.particles.map PF.Particle.prob := by
        simp only [odomCore]
        split_ifs <;> simp [PF.Filter.predict, Function.comp_def]
      rcases hc2 : odomCore P n1 om with ⟨n2, x⟩
      rw [hc2] at h h1 h2 h3
      simp only at h2
      subst h2
      simp only [Outcome.bind_ok, Outcome.ok.injEq, Prod.mk.injEq] at h
      rw [← h.1]
      exact ⟨h1, h3, fun hx => by rw [(imuCore_synth hc).1] at hx; cases hx⟩

theorem imuMsgs_cons_other {ev : Event} {env : Env} {h : History} (h1 : ∀ m, ev ≠ .imu m) :
    imuMsgs ((ev, env) :: h) = imuMsgs h := by
  unfold imuMsgs
  rw [List.filterMap_cons]
  cases ev <;> first | rfl | exact absurd rfl (h1 _)

theorem imuMsgs_cons_imu {m : ImuMsg} {env : Env} {h : History} :
    imuMsgs ((.imu m, env) :: h) = (m, env) :: imuMsgs h := rfl

theorem run_imu {P : Params} (hf : P.fakeImu = false) {lib : Lib C} {h : History} {n n' : Node C}
    {outs : List (List Out)} {v : ImuView} (hi : ImuInv n.imu v)
    (hr : run P lib n h = .ok (n', outs)) : ImuInv n'.imu ((imuMsgs h).foldl (accStep P) v) := by
  induction h generalizing n outs v with
  | nil =>
    simp only [run, Outcome.ok.injEq, Prod.mk.injEq] at hr
    rw [← hr.1]; exact hi
  | cons e h ih =>
    obtain ⟨ev, env⟩ := e
    obtain ⟨n1, o, os, h1, h2, _⟩ := run_cons_ok hr
    by_cases ho : ∃ m, ev = .imu m
    · obtain ⟨m, rfl⟩ := ho
      rw [imuMsgs_cons_imu, List.foldl_cons]
      refine ih ?_ h2
      rw [((step_imu hf).2 m h1).1]
      exact (imuCore_spec hi m).1
    · push Not at ho
      rw [imuMsgs_cons_other ho]
      refine ih ?_ h2
      by_cases him : ∃ m, ev = .odom m
      · obtain ⟨m, rfl⟩ := him
        rw [(step_imu hf).1 m h1]; exact hi
      · push Not at him
        rw [(step_odo h1 him ho).2.1]; exact hi

theorem imuView_last (P : Params) (h : History) : (imuView P h).last = imuRef P h := by
  have key : ∀ (l : List (ImuMsg × Env)) (v : ImuView),
      (l.foldl (accStep P) v).last = l.foldl (imuRefStep P) v.last := by
    intro l
    induction l with
    | nil => intro v; rfl
    | cons e l ih => intro v; exact ih (accStep P v e)
  exact key _ _

/-- C87: after any history, an IMU message is applied to the weights exactly if there is a reference, the
message is more than 0.05 s and at most 5 s newer, and the transform from its frame is available.  The
likelihood is then that of the filtered acceleration turned into the robot frame. -/
theorem C87_gate {P : Params} (hf : P.fakeImu = false) {lib : Lib C} {env0 env : Env} {motion0 : Motion ℝ}
    {n0 n n' : Node C} {h : History} {outs : List (List Out)} {m : ImuMsg} {o : List Out}
    (hs : start P lib env0 motion0 = .ok n0) (hr : run P lib n0 h = .ok (n, outs))
    (hst : step P lib env n (.imu m) = .ok (n', o)) :
    (∀ l t, imuRef P h = some l → l + 1 / 20 < m.stamp → m.stamp ≤ l + 5 →
      env.tf P.baseFrame m.frame 0 = some t →
      n'.loc.pf.particles.map PF.Particle.prob =
        (n.loc.pf.measure Real.log (GravityModel.make P.accVar
          (t.rot.rotate ((imuView P h).filter.input m.acc).x.normalized)).measure).particles.map PF.Particle.prob) ∧
    ((∀ l t, imuRef P h = some l → env.tf P.baseFrame m.frame 0 = some t →
        m.stamp ≤ l + 1 / 20 ∨ l + 5 < m.stamp) →
      n'.loc.pf.particles.map PF.Particle.prob = n.loc.pf.particles.map PF.Particle.prob) ∧
    (P.fakeOdom = false → states n' = states n) := by
  have h0 : ImuInv n0.imu ⟨none, FiltVec3.new .lpf ⟨P.accLpfStep, P.accLpfStep, P.accLpfStep⟩ 0 false⟩ := by
    obtain ⟨_, ns, _, rfl⟩ := start_ok hs
    exact ⟨rfl, by simp, rfl⟩
  have hi : ImuInv n.imu (imuView P h) := run_imu hf h0 hr
  obtain ⟨_, h2⟩ := imuCore_spec (P := P) (env := env) hi m
  obtain ⟨_, hp, _⟩ := (step_imu hf).2 m hst
  rw [← imuView_last]
  refine ⟨fun l t hl hlo hhi ht => ?_, fun hno => ?_, fun hfo => (step_imu_keeps hfo hst).2.2⟩
  · rw [hp, h2]
    unfold imuWeighed
    rw [hl, (useOf_use l m.stamp).2 ⟨hlo, hhi⟩]
    simp only [ht]
  · rw [hp, h2]
    unfold imuWeighed
    cases hl : (imuView P h).last with
    | none => rfl
    | some l =>
      cases ht : env.tf P.baseFrame m.frame 0 with
      | none => cases useOf (some l) m.stamp <;> rfl
      | some t =>
        have hx : useOf (some l) m.stamp ≠ .use := by
          rw [Ne, useOf_use]
          rintro ⟨hlo, hhi⟩
          rcases hno l t hl ht with h | h <;> linarith
        cases hu : useOf (some l) m.stamp <;> first | rfl | exact absurd hu hx

/-! ## The hypotheses are met -/

/-- Any sequence of odometry and IMU messages can be run from any state. -/
theorem run_sensors (P : Params) (lib : Lib C) (n : Node C) (h : History)
    (hh : ∀ e ∈ h, (∃ m, e.1 = .odom m) ∨ ∃ m, e.1 = .imu m) : ∃ n' outs, run P lib n h = .ok (n', outs) := by
  induction h generalizing n with
  | nil => exact ⟨n, [], rfl⟩
  | cons e h ih =>
    obtain ⟨ev, env⟩ := e
    obtain ⟨n1, o, h1⟩ := C88_terminates P lib env n ev (hh (ev, env) List.mem_cons_self)
    obtain ⟨n2, os, h2⟩ := ih n1 fun e he => hh e (List.mem_cons_of_mem _ he)
    exact ⟨n2, o :: os, by simp only [run, h1, h2, Outcome.bind_ok]⟩

/-- An odometry message at time `t` at position `(t, 0, 0)`. -/
noncomputable def exOdom (t : ℝ) : OdomMsg := ⟨t, "odom", ⟨t, 0, 0⟩, 1⟩

/-- C86, C88: a reference at time 0, an unused message, a used one. -/
example : ∃ (n0 n n1 n2 : Node Unit) (outs : List (List Out)) (o o2 : List Out),
    start Demo.P0 Demo.lib (Demo.env 0) Demo.motion0 = .ok n0 ∧ Demo.P0.fakeOdom = false ∧
    run Demo.P0 Demo.lib n0 [(.odom (exOdom 0), Demo.env 0)] = .ok (n, outs) ∧
    odomRef [(.odom (exOdom 0), Demo.env 0)] = some (exOdom 0) ∧
    step Demo.P0 Demo.lib (Demo.env 1) n (.odom (exOdom (1 / 100))) = .ok (n1, o) ∧
    step Demo.P0 Demo.lib (Demo.env 1) n1 (.odom (exOdom 1)) = .ok (n2, o2) ∧
    NoJump (odomRef [(.odom (exOdom 0), Demo.env 0)]) [exOdom (1 / 100), exOdom 1] ∧
    odomRef [(.odom (exOdom 0), Demo.env 0), (.odom (exOdom (1 / 100)), Demo.env 1),
      (.odom (exOdom 1), Demo.env 1)] = some (exOdom 1) := by
  obtain ⟨n0, hs⟩ := start_total Demo.P0 Demo.lib (Demo.env 0) Demo.motion0 (by simp)
  obtain ⟨n, outs, hr⟩ := run_sensors Demo.P0 Demo.lib n0 [(.odom (exOdom 0), Demo.env 0)]
    (by simp)
  obtain ⟨n1, o, h1⟩ := C88_terminates Demo.P0 Demo.lib (Demo.env 1) n (.odom (exOdom (1 / 100))) (.inl ⟨_, rfl⟩)
  obtain ⟨n2, o2, h2⟩ := C88_terminates Demo.P0 Demo.lib (Demo.env 1) n1 (.odom (exOdom 1)) (.inl ⟨_, rfl⟩)
  have u1 : useOf (some 0) (1 / 100) = .skip := by simp only [useOf]; norm_num
  have u2 : useOf (some 0) 1 = .use := by rw [useOf_use]; norm_num
  refine ⟨n0, n, n1, n2, outs, o, o2, hs, rfl, hr, rfl, h1, h2, ?_, ?_⟩
  · refine ⟨?_, ?_, trivial⟩
    · show useOf (some 0) (1 / 100) ≠ .jump
      rw [u1]; simp
    · have : odomRefStep (odomRef [(.odom (exOdom 0), Demo.env 0)]) (exOdom (1 / 100)) = some (exOdom 0) := by
        show (match useOf (some 0) (1 / 100) with
          | .reference | .use => some (exOdom (1 / 100))
          | .jump => none
          | .skip => some (exOdom 0)) = _
        rw [u1]
      rw [this]
      show useOf (some 0) 1 ≠ .jump
      rw [u2]; simp
  · show odomRefStep (odomRefStep (some (exOdom 0)) (exOdom (1 / 100))) (exOdom 1) = _
    have : odomRefStep (some (exOdom 0)) (exOdom (1 / 100)) = some (exOdom 0) := by
      simp only [odomRefStep, Option.map_some]
      have : useOf (some (exOdom 0).stamp) (exOdom (1 / 100)).stamp = .skip := u1
      rw [this]
    rw [this]
    simp only [odomRefStep, Option.map_some]
    have : useOf (some (exOdom 0).stamp) (exOdom 1).stamp = .use := u2
    rw [this]

/-- C86: the particles of the example can be unit and without noise: the default state is. -/
example : Motion.UnitPose (State6.ofQuat 0 1 : State6 ℝ) ∧ Motion.NoNoise (State6.ofQuat 0 1 : State6 ℝ) := by
  refine ⟨?_, rfl, rfl, rfl, rfl⟩
  show (1 : Quat ℝ).dot 1 = 1
  simp [Quat.dot]

/-- C87: a reference at time 0 and a message at time 1. -/
example : ∃ (n0 n n1 : Node Unit) (outs : List (List Out)) (o : List Out),
    start Demo.P0 Demo.lib (Demo.env 0) Demo.motion0 = .ok n0 ∧ Demo.P0.fakeImu = false ∧
    run Demo.P0 Demo.lib n0 [(.imu ⟨0, "imu", ⟨0, 0, 1⟩, 1⟩, Demo.env 0)] = .ok (n, outs) ∧
    imuRef Demo.P0 [(.imu ⟨0, "imu", ⟨0, 0, 1⟩, 1⟩, Demo.env 0)] = some 0 ∧
    (Demo.env 1).tf Demo.P0.baseFrame "imu" 0 = some Demo.tf0 ∧
    step Demo.P0 Demo.lib (Demo.env 1) n (.imu ⟨1, "imu", ⟨0, 0, 1⟩, 1⟩) = .ok (n1, o) := by
  obtain ⟨n0, hs⟩ := start_total Demo.P0 Demo.lib (Demo.env 0) Demo.motion0 (by simp)
  obtain ⟨n, outs, hr⟩ := run_sensors Demo.P0 Demo.lib n0 [(.imu ⟨0, "imu", ⟨0, 0, 1⟩, 1⟩, Demo.env 0)]
    (by simp)
  obtain ⟨n1, o, h1⟩ := C88_terminates Demo.P0 Demo.lib (Demo.env 1) n
    (.imu ⟨1, "imu", ⟨0, 0, 1⟩, 1⟩) (.inr ⟨_, rfl⟩)
  exact ⟨n0, n, n1, outs, o, hs, rfl, hr, rfl, rfl, h1⟩

/-- C88: there are accepted parameters. -/
example : ∃ P, Params.load (fun _ => 0) (fun _ => none) = some P := ⟨_, Demo.load_P0⟩

end Node
end Mcl3dl
