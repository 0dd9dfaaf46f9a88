import Verif.Props.NodeSmooth
import Verif.Props.NodeOdomError
import Verif.Spec.NodeFake

/-! # C135, C136: fake IMU and fake odometry -/

set_option linter.unusedSectionVars false

namespace Mcl3dl
namespace Node

variable {C : Type}

/-- The parameters with other `fake_imu` and `fake_odom`. -/
def withFakes (P : Params) (a b : Bool) : Params := { P with fakeImu := a, fakeOdom := b }

theorem originsOf_withFakes (P : Params) (a b : Bool) (env : Env) (stamp : ℝ) (hs : List Header) :
    originsOf (withFakes P a b) env stamp hs = originsOf P env stamp hs := by
  induction hs with
  | nil => rfl
  | cons h hs ih => rw [originsOf, originsOf, ih]; rfl

theorem prepare_withFakes (P : Params) (a b : Bool) (lib : Lib C) (env : Env) (acc : AccSt) (loc : LocSt C) (header : Header) :
    prepare (withFakes P a b) lib env acc loc header = prepare P lib env acc loc header := by
  unfold prepare
  rw [originsOf_withFakes]
  rfl

theorem weighLoop_withFakes (P : Params) (a b : Bool) (lib : Lib C) (m : MapSt) (p : Prep) (qs : List Particle) :
    weighLoop (withFakes P a b) lib m p qs = weighLoop P lib m p qs := by
  induction qs with
  | nil => rfl
  | cons q qs ih => funext w; rw [weighLoop, weighLoop, ih]; rfl

theorem splitMatch_withFakes (P : Params) (a b : Bool) (lib : Lib C) (m : MapSt) (pts : List Point) :
    splitMatch (withFakes P a b) lib m pts = splitMatch P lib m pts := by
  induction pts with
  | nil => rfl
  | cons q qs ih => rw [splitMatch, splitMatch, ih]; rfl

theorem matchOutput_withFakes (P : Params) (a b : Bool) (lib : Lib C) (env : Env) (m : MapSt) (stamp last : ℝ) (pts : List Point) :
    matchOutput (withFakes P a b) lib env m stamp last pts = matchOutput P lib env m stamp last pts := by
  unfold matchOutput
  rw [splitMatch_withFakes]
  rfl

theorem localize_withFakes (P : Params) (a b : Bool) (lib : Lib C) (env : Env) (m : MapSt) (odo : OdoSt) (warn : Vec3 ℝ)
    (loc : LocSt C) (header : Header) (p : Prep) :
    localize (withFakes P a b) lib env m odo warn loc header p = localize P lib env m odo warn loc header p := by
  unfold localize
  simp only [weighLoop_withFakes, matchOutput_withFakes]
  rfl

theorem measure_withFakes (P : Params) (a b : Bool) (lib : Lib C) (env : Env) :
    measure (withFakes P a b) lib env = measure P lib env := by
  funext n
  unfold measure measureCore
  simp only [prepare_withFakes, localize_withFakes]
  rfl

theorem step_withFakes (P : Params) (a b : Bool) (lib : Lib C) (env : Env) (n : Node C) (e : Event)
    (h1 : ∀ m, e ≠ .odom m) (h2 : ∀ m, e ≠ .imu m) : step (withFakes P a b) lib env n e = step P lib env n e := by
  cases e with
  | cloud header msg =>
    show cbCloud (withFakes P a b) lib env n header msg = cbCloud P lib env n header msg
    unfold cbCloud
    have hc : callbacks (withFakes P a b) lib env header = callbacks P lib env header := by
      unfold callbacks
      rw [measure_withFakes]
      rfl
    rw [hc]
    rfl
  | odom m => exact absurd rfl (h1 m)
  | imu m => exact absurd rfl (h2 m)
  | _ => rfl

/-- The parameters without the fake IMU. -/
def realImu (P : Params) : Params := { P with fakeImu := false }

/-- The parameters without the fake odometry. -/
def realOdom (P : Params) : Params := { P with fakeOdom := false }

theorem step_realImu (P : Params) (lib : Lib C) (env : Env) (n : Node C) (e : Event) (h1 : ∀ m, e ≠ .odom m)
    (h2 : ∀ m, e ≠ .imu m) : step (realImu P) lib env n e = step P lib env n e :=
  step_withFakes P false P.fakeOdom lib env n e h1 h2

theorem step_realOdom (P : Params) (lib : Lib C) (env : Env) (n : Node C) (e : Event) (h1 : ∀ m, e ≠ .odom m)
    (h2 : ∀ m, e ≠ .imu m) : step (realOdom P) lib env n e = step P lib env n e :=
  step_withFakes P P.fakeImu false lib env n e h1 h2

theorem odomCore_realImu (P : Params) (n : Node C) (m : OdomMsg) :
    odomCore (realImu P) n m = ((odomCore P n m).1, none) := by
  unfold odomCore
  by_cases h1 : n.odo.has = true
  · simp only [if_pos h1]
    by_cases h2 : m.stamp - n.odo.last < 0 ∨ 5 < m.stamp - n.odo.last
    · simp only [if_pos h2]
    · simp only [if_neg h2]
      rfl
  · simp only [if_neg h1]

theorem odomCore_fake {P : Params} (hf : P.fakeImu = true) {n : Node C} {r : Option OdomMsg} (hi : OdoInv P n.odo r)
    (m : OdomMsg) : (odomCore P n m).2 =
      if useOf (r.map OdomMsg.stamp) m.stamp = .use ∨ useOf (r.map OdomMsg.stamp) m.stamp = .skip then
        some (fakeImuMsg m) else none := by
  obtain ⟨h1, h2, h3, h4⟩ := hi
  cases r with
  | none =>
    simp only [Option.isSome_none] at h1
    simp [odomCore, h1, useOf]
  | some r =>
    simp only [Option.isSome_some] at h1
    have hl := (h2 r rfl).1
    simp only [odomCore, h1, if_true, Option.map_some, useOf, hl]
    by_cases hj : m.stamp < r.stamp ∨ r.stamp + 5 < m.stamp
    · have hj' : m.stamp - r.stamp < 0 ∨ 5 < m.stamp - r.stamp := by
        rcases hj with hj | hj
        · exact .inl (by linarith)
        · exact .inr (by linarith)
      simp only [if_pos hj, if_pos hj', reduceCtorEq, or_self, if_false]
    · have hj' : ¬ (m.stamp - r.stamp < 0 ∨ 5 < m.stamp - r.stamp) := by
        push _root_.Not at hj ⊢
        exact ⟨by linarith, by linarith⟩
      simp only [if_neg hj, if_neg hj', hf, if_true]
      by_cases hu : r.stamp + 1 / 20 < m.stamp
      · simp only [if_pos hu, true_or, if_true]
        rfl
      · simp only [if_neg hu, or_true, if_true]
        rfl

/-- One callback with the fake IMU. -/
theorem step_fakeImu {P : Params} (hf : P.fakeImu = true) (hO : P.fakeOdom = false) {lib : Lib C} {env : Env}
    {n n' : Node C} {r : Option OdomMsg} (hi : OdoInv P n.odo r) {m : OdomMsg} {o : List Out}
    (h : step P lib env n (.odom m) = .ok (n', o)) :
    ∃ outs, run (realImu P) lib n ((.odom m, env) ::
      (if useOf (r.map OdomMsg.stamp) m.stamp = .use ∨ useOf (r.map OdomMsg.stamp) m.stamp = .skip then
        [(.imu (fakeImuMsg m), env)] else [])) = .ok (n', outs) ∧ published outs = [] ∧ published [o] = [] := by
  change sensor P env 4 n (.inl m) = .ok (n', o) at h
  have hc := odomCore_fake hf hi m
  have hs1 : step (realImu P) lib env n (.odom m) = .ok ((odomCore P n m).1, []) := by
    show sensor (realImu P) env 4 n (.inl m) = _
    rw [sensor, odomCore_realImu]
  rw [sensor] at h
  split_ifs at hc ⊢ with hu
  · rcases hcc : odomCore P n m with ⟨n1, x⟩
    rw [hcc] at hc h hs1
    simp only at hc hs1
    subst hc
    simp only at h
    unfold sensor at h
    have hnone : (imuCore P env n1 (fakeImuMsg m)).2 = none := by
      rcases hci : imuCore P env n1 (fakeImuMsg m) with ⟨n2, _ | om⟩
      · rfl
      · rw [(imuCore_synth hci).1] at hO; cases hO
    rcases hci : imuCore P env n1 (fakeImuMsg m) with ⟨n2, y⟩
    rw [hci] at h hnone
    simp only at hnone
    subst hnone
    simp only [Outcome.bind_ok, Outcome.ok.injEq, Prod.mk.injEq] at h
    obtain ⟨rfl, rfl⟩ := h
    have hs2 : step (realImu P) lib env n1 (.imu (fakeImuMsg m)) = .ok (n2, []) := by
      show sensor (realImu P) env 4 n1 (.inr (fakeImuMsg m)) = _
      have : imuCore (realImu P) env n1 (fakeImuMsg m) = imuCore P env n1 (fakeImuMsg m) := rfl
      rw [sensor, this, hci]
    refine ⟨[[], []], ?_, rfl, by simp [published, Out.isFake]⟩
    simp only [run, hs1, hs2, Outcome.bind_ok]
  · rcases hcc : odomCore P n m with ⟨n1, x⟩
    rw [hcc] at hc h hs1
    simp only at hc hs1
    subst hc
    simp only [Outcome.ok.injEq, Prod.mk.injEq] at h
    obtain ⟨rfl, rfl⟩ := h
    refine ⟨[[]], ?_, rfl, rfl⟩
    simp only [run, hs1, Outcome.bind_ok]

theorem published_cons (o : List Out) (outs : List (List Out)) : published (o :: outs) = published [o] ++ published outs := by
  simp [published]

theorem published_append (a b : List (List Out)) : published (a ++ b) = published a ++ published b := by
  simp [published]

theorem run_append_ok {P : Params} {lib : Lib C} {a b : History} {n n1 n2 : Node C} {oa ob : List (List Out)}
    (ha : run P lib n a = .ok (n1, oa)) (hb : run P lib n1 b = .ok (n2, ob)) :
    run P lib n (a ++ b) = .ok (n2, oa ++ ob) := by
  induction a generalizing n oa with
  | nil =>
    simp only [run, Outcome.ok.injEq, Prod.mk.injEq] at ha
    obtain ⟨rfl, rfl⟩ := ha
    exact hb
  | cons e a ih =>
    obtain ⟨nm, o, ot, h1, h2, rfl⟩ := run_cons_ok ha
    have := ih h2
    simp only [List.cons_append, run, h1, Outcome.bind_ok, this]

theorem imuCore_real (P : Params) (env : Env) (n : Node C) (m : ImuMsg) :
    imuCore (realImu P) env n m = imuCore P env n m := rfl

theorem imuCore_nosynth {P : Params} (hO : P.fakeOdom = false) (env : Env) (n : Node C) (m : ImuMsg) :
    (imuCore P env n m).2 = none := by
  rcases hci : imuCore P env n m with ⟨n2, _ | om⟩
  · rfl
  · rw [(imuCore_synth hci).1] at hO; cases hO

theorem run_fakeImu {P : Params} (hf : P.fakeImu = true) (hO : P.fakeOdom = false) {lib : Lib C} {h : History}
    {n n' : Node C} {outs : List (List Out)} {r : Option OdomMsg} (hi : OdoInv P n.odo r)
    (hr : run P lib n h = .ok (n', outs)) :
    ∃ outs', run (realImu P) lib n (withFakeImu r h) = .ok (n', outs') ∧ published outs' = published outs := by
  induction h generalizing n r outs with
  | nil =>
    simp only [run, Outcome.ok.injEq, Prod.mk.injEq] at hr
    obtain ⟨rfl, rfl⟩ := hr
    exact ⟨[], rfl, rfl⟩
  | cons e h ih =>
    obtain ⟨n1, o, ot, h1, h2, rfl⟩ := run_cons_ok hr
    rcases e with ⟨ev, env⟩
    have hrun1 : run P lib n [(ev, env)] = .ok (n1, [o]) := by simp only [run, h1, Outcome.bind_ok]
    by_cases hod : ∃ m, ev = .odom m
    · obtain ⟨m, rfl⟩ := hod
      have hi1 : OdoInv P n1.odo (odomRefStep r m) := run_odo hO hi hrun1
      obtain ⟨oa, hra, hpa, hpo⟩ := step_fakeImu hf hO hi h1
      obtain ⟨ob, hrb, hpb⟩ := ih hi1 h2
      refine ⟨oa ++ ob, ?_, ?_⟩
      · have := run_append_ok hra hrb
        rw [List.cons_append] at this
        exact this
      · rw [published_append, published_cons, hpa, hpo, hpb]
    · have hi1 : OdoInv P n1.odo r := by
        have := run_odo hO hi hrun1
        rw [odomMsgs_cons_other (fun m hm => hod ⟨m, hm⟩)] at this
        exact this
      obtain ⟨ob, hrb, hpb⟩ := ih hi1 h2
      have hs : step (realImu P) lib env n ev = .ok (n1, o) := by
        by_cases him : ∃ m, ev = .imu m
        · obtain ⟨m, rfl⟩ := him
          rw [← h1]
          show sensor (realImu P) env 4 n (.inr m) = sensor P env 4 n (.inr m)
          have hn := imuCore_nosynth hO env n m
          rcases hci : imuCore P env n m with ⟨n2, y⟩
          rw [hci] at hn
          simp only at hn
          subst hn
          rw [sensor, sensor, imuCore_real, hci]
        · rw [step_realImu P lib env n ev (fun m hm => hod ⟨m, hm⟩) (fun m hm => him ⟨m, hm⟩)]
          exact h1
      have hw : withFakeImu r ((ev, env) :: h) = (ev, env) :: withFakeImu r h := by
        cases ev with
        | odom m => exact absurd ⟨m, rfl⟩ hod
        | _ => rfl
      refine ⟨o :: ob, ?_, ?_⟩
      · rw [hw]
        simp only [run, hs, Outcome.bind_ok, hrb]
      · rw [published_cons, published_cons o ot, hpb]

/-- C135: a node with `fake_imu` behaves as a node without it that receives, after each odometry message which
neither becomes the reference without being used nor is a time jump, an IMU message made of it. -/
theorem C135_as_received {P : Params} (hf : P.fakeImu = true) (hO : P.fakeOdom = false) {lib : Lib C} {env0 : Env}
    {motion0 : Motion ℝ} {n0 n : Node C} {h : History} {outs : List (List Out)}
    (hs : start P lib env0 motion0 = .ok n0) (hr : run P lib n0 h = .ok (n, outs)) :
    start { P with fakeImu := false } lib env0 motion0 = .ok n0 ∧
    ∃ outs', run { P with fakeImu := false } lib n0 (withFakeImu none h) = .ok (n, outs') ∧
      published outs' = published outs :=
  ⟨hs, run_fakeImu hf hO (odoInv_start hs) hr⟩

/-! ## Constant acceleration -/

/-- The filter of the acceleration has seen only multiples of `a`: nothing since it was set to 0, or a positive
multiple. -/
def AlongAcc (T : ℝ) (a : Vec3 ℝ) (f : FiltVec3 ℝ) : Prop :=
  ∃ c d : ℝ, f.fx = lpf T false (c * a.x, d * a.x) ∧ f.fy = lpf T false (c * a.y, d * a.y) ∧
    f.fz = lpf T false (c * a.z, d * a.z) ∧ ((c = 0 ∧ d = 0) ∨ (d = 1 ∧ 0 < c ∧ c < 2))

theorem lpf_input_plain {T : ℝ} (hT : 0 ≤ T) (s : ℝ × ℝ) (v : ℝ) :
    (lpf T false s).input v = lpf T false (lowPass T s.1 s.2 v, v) := by
  rw [lpf_input hT]
  rfl

theorem AlongAcc.input {T : ℝ} (hT : 0 ≤ T) {a : Vec3 ℝ} {f : FiltVec3 ℝ} (h : AlongAcc T a f) :
    AlongAcc T a (f.input a) ∧ ∃ c : ℝ, 0 < c ∧ (f.input a).x = a.smul c := by
  obtain ⟨c, d, hx, hy, hz, hcd⟩ := h
  have hp : (0 : ℝ) < 2 * T + 1 := by positivity
  -- the new multiple
  have hlin : ∀ u : ℝ, lowPass T (c * u) (d * u) u = lowPass T c d 1 * u := fun u => by unfold lowPass; ring
  have hc : 0 < lowPass T c d 1 ∧ lowPass T c d 1 < 2 := by
    unfold lowPass
    rcases hcd with ⟨rfl, rfl⟩ | ⟨rfl, h0, h2⟩
    · constructor
      · have : 0 < (6 * T + 1) / (2 * T + 1) ^ 2 := by positivity
        nlinarith
      · have : (6 * T + 1) / (2 * T + 1) ^ 2 < 2 := by
          rw [div_lt_iff₀ (by positivity)]; nlinarith [sq_nonneg T]
        nlinarith
    · have e : (2 * T - 1) / (2 * T + 1) * c + (6 * T + 1) / (2 * T + 1) ^ 2 * 1 - (2 * T - 1) / (2 * T + 1) ^ 2 * 1 =
          ((2 * T - 1) * c + 2) / (2 * T + 1) := by field_simp; ring
      rw [e]
      constructor
      · apply div_pos _ hp; nlinarith
      · rw [div_lt_iff₀ hp]; nlinarith
  have ex : f.fx.input a.x = lpf T false (lowPass T c d 1 * a.x, 1 * a.x) := by
    rw [hx, lpf_input_plain hT, hlin, one_mul]
  have ey : f.fy.input a.y = lpf T false (lowPass T c d 1 * a.y, 1 * a.y) := by
    rw [hy, lpf_input_plain hT, hlin, one_mul]
  have ez : f.fz.input a.z = lpf T false (lowPass T c d 1 * a.z, 1 * a.z) := by
    rw [hz, lpf_input_plain hT, hlin, one_mul]
  refine ⟨⟨_, _, ex, ey, ez, .inr ⟨rfl, hc⟩⟩, _, hc.1, ?_⟩
  simp only [FiltVec3.input, ex, ey, ez, Vec3.smul]
  ext <;> simp [lpf, mul_comm]

theorem AlongAcc.set {T : ℝ} (hT : 0 ≤ T) {a : Vec3 ℝ} {f : FiltVec3 ℝ} (h : AlongAcc T a f) : AlongAcc T a (f.set 0) := by
  obtain ⟨c, d, hx, hy, hz, _⟩ := h
  refine ⟨0, 0, ?_, ?_, ?_, .inl ⟨rfl, rfl⟩⟩
  · simp only [FiltVec3.set, hx, zero_mul]; exact lpf_set hT _ _ _
  · simp only [FiltVec3.set, hy, zero_mul]; exact lpf_set hT _ _ _
  · simp only [FiltVec3.set, hz, zero_mul]; exact lpf_set hT _ _ _

theorem imuView_along {P : Params} (hT : 0 ≤ P.accLpfStep) {a : Vec3 ℝ} {h : History}
    (ha : ∀ e ∈ imuMsgs h, e.1.acc = a) : AlongAcc P.accLpfStep a (imuView P h).filter := by
  have key : ∀ (l : List (ImuMsg × Env)) (v : ImuView), (∀ e ∈ l, e.1.acc = a) → AlongAcc P.accLpfStep a v.filter →
      AlongAcc P.accLpfStep a (l.foldl (accStep P) v).filter := by
    intro l
    induction l with
    | nil => intro v _ hv; exact hv
    | cons e l ih =>
      intro v hl hv
      refine ih _ (fun e he => hl e (List.mem_cons_of_mem _ he)) ?_
      have := (hv.input hT).1
      simp only [accStep, hl e (List.mem_cons_self ..)]
      split_ifs
      · exact this.set hT
      · exact this
  refine key _ _ ha ⟨0, 0, ?_, ?_, ?_, .inl ⟨rfl, rfl⟩⟩ <;> simp only [FiltVec3.new, zero_mul] <;> exact lpf_new _

theorem normalized_smul {a : Vec3 ℝ} {c : ℝ} (hc : 0 < c) : (a.smul c).normalized = a.normalized := by
  have hd : (a.smul c).dot (a.smul c) = c ^ 2 * a.dot a := by simp only [Vec3.dot, Vec3.smul]; ring
  have hn : (a.smul c).norm = c * a.norm := by
    simp only [Vec3.norm, Transc.sqrt_real]
    rw [hd, Real.sqrt_mul (sq_nonneg c), Real.sqrt_sq hc.le]
  rw [Vec3.normalized, hn, Vec3.normalized]
  simp only [Vec3.sdiv, Vec3.smul]
  by_cases h0 : a.norm = 0
  · simp [h0]
  · ext <;> simp <;> field_simp

/-- The direction used for the likelihood when all accelerations so far were the same. -/
theorem const_direction {P : Params} (hT : 0 ≤ P.accLpfStep) {a : Vec3 ℝ} {h : History}
    (ha : ∀ e ∈ imuMsgs h, e.1.acc = a) : ((imuView P h).filter.input a).x.normalized = a.normalized := by
  obtain ⟨_, c, hc, hx⟩ := (imuView_along hT ha).input hT
  rw [hx, normalized_smul hc]

theorem imuMsgs_withFakeImu {h : History} (r : Option OdomMsg) (hno : imuMsgs h = []) :
    ∀ e ∈ imuMsgs (withFakeImu r h), ∃ m ∈ odomMsgs h, e.1 = fakeImuMsg m := by
  induction h generalizing r with
  | nil => simp [withFakeImu, imuMsgs]
  | cons e h ih =>
    obtain ⟨ev, env⟩ := e
    by_cases hod : ∃ m, ev = .odom m
    · obtain ⟨m, rfl⟩ := hod
      rw [imuMsgs_cons_other (by simp)] at hno
      intro e he
      rw [withFakeImu, imuMsgs_cons_other (by simp)] at he
      rw [odomMsgs_cons_odom]
      split_ifs at he with hu
      · rw [List.singleton_append, imuMsgs_cons_imu] at he
        rcases List.mem_cons.1 he with rfl | he
        · exact ⟨m, List.mem_cons_self .., rfl⟩
        · obtain ⟨m', hm', h'⟩ := ih _ hno e he
          exact ⟨m', List.mem_cons_of_mem _ hm', h'⟩
      · obtain ⟨m', hm', h'⟩ := ih _ hno e he
        exact ⟨m', List.mem_cons_of_mem _ hm', h'⟩
    · have hw : withFakeImu r ((ev, env) :: h) = (ev, env) :: withFakeImu r h := by
        cases ev with
        | odom m => exact absurd ⟨m, rfl⟩ hod
        | _ => rfl
      have him : ∀ m, ev ≠ .imu m := by
        rintro m rfl
        simp [imuMsgs_cons_imu] at hno
      rw [imuMsgs_cons_other him] at hno
      rw [hw, imuMsgs_cons_other him, odomMsgs_cons_other (fun m hm => hod ⟨m, hm⟩)]
      exact ih r hno

/-- C87, a constant acceleration: if all IMU messages so far had the same acceleration, the direction used is exactly
that of the acceleration, whatever the time constant of the filter and the number of messages. -/
theorem C87_constant {P : Params} (hf : P.fakeImu = false) (hT : 0 ≤ P.accLpfStep) {lib : Lib C} {env0 env : Env}
    {motion0 : Motion ℝ} {n0 n n' : Node C} {h : History} {outs : List (List Out)} {m : ImuMsg} {o : List Out}
    (hs : start P lib env0 motion0 = .ok n0) (hr : run P lib n0 h = .ok (n, outs))
    (hst : step P lib env n (.imu m) = .ok (n', o)) (ha : ∀ e ∈ imuMsgs h, e.1.acc = m.acc) {l : ℝ} {t : Tf}
    (hl : imuRef P h = some l) (h1 : l + 1 / 20 < m.stamp) (h2 : m.stamp ≤ l + 5)
    (ht : env.tf P.baseFrame m.frame 0 = some t) :
    n'.loc.pf.particles.map PF.Particle.prob =
      (n.loc.pf.measure Real.log (GravityModel.make P.accVar
        (t.rot.rotate m.acc.normalized)).measure).particles.map PF.Particle.prob := by
  rw [(C87_gate hf hs hr hst).1 l t hl h1 h2 ht, const_direction hT ha]

/-- C135, what the fake IMU measures: if the odometry has always had the same orientation, and the transform from the
frame of the odometry to the robot is the inverse of that orientation, the particles are weighed as if the robot
were level, whatever the orientation. -/
theorem C135_level {P : Params} (hf : P.fakeImu = true) (hO : P.fakeOdom = false) (hT : 0 ≤ P.accLpfStep)
    {lib : Lib C} {env0 env : Env} {motion0 : Motion ℝ} {n0 n n' : Node C} {h : History} {outs : List (List Out)}
    {m r : OdomMsg} {o : List Out} (hs : start P lib env0 motion0 = .ok n0) (hr : run P lib n0 h = .ok (n, outs))
    (hst : step P lib env n (.odom m) = .ok (n', o)) (hno : imuMsgs h = [])
    (hrot : ∀ m' ∈ odomMsgs h, m'.rot = m.rot) (hq : m.rot.dot m.rot = 1)
    (hor : odomRef h = some r) (ho1 : r.stamp ≤ m.stamp) (ho2 : m.stamp ≤ r.stamp + 5)
    {l : ℝ} {t : Tf} (hl : imuRef P (withFakeImu none h) = some l) (h1 : l + 1 / 20 < m.stamp) (h2 : m.stamp ≤ l + 5)
    (ht : env.tf P.baseFrame m.frame 0 = some t) (htr : t.rot = m.rot.inv) :
    ∃ n1, step { P with fakeImu := false } lib env n (.odom m) = .ok (n1, []) ∧
      n'.loc.pf.particles.map PF.Particle.prob =
        (n1.loc.pf.measure Real.log (GravityModel.make P.accVar ⟨0, 0, 1⟩).measure).particles.map PF.Particle.prob := by
  obtain ⟨_, outs', hr', _⟩ := C135_as_received hf hO hs hr
  have hi : OdoInv P n.odo (odomRef h) := run_odo hO (odoInv_start hs) hr
  have hu : useOf ((odomRef h).map OdomMsg.stamp) m.stamp = .use ∨ useOf ((odomRef h).map OdomMsg.stamp) m.stamp = .skip := by
    rw [hor, Option.map_some]
    simp only [useOf]
    rw [if_neg (by push _root_.Not; exact ⟨ho1, ho2⟩)]
    by_cases hx : r.stamp + 1 / 20 < m.stamp
    · exact .inl (if_pos hx)
    · exact .inr (if_neg hx)
  obtain ⟨oo, hro, _, _⟩ := step_fakeImu hf hO hi hst
  rw [if_pos hu] at hro
  obtain ⟨n1, o1, ot, hs1, hr1, rfl⟩ := run_cons_ok hro
  obtain ⟨n2, o2, ot2, hs2, hr2, rfl⟩ := run_cons_ok hr1
  simp only [run, Outcome.ok.injEq, Prod.mk.injEq] at hr2
  obtain ⟨rfl, -⟩ := hr2
  have ho1 : o1 = [] := by
    change sensor (realImu P) env 4 n (.inl m) = _ at hs1
    rw [sensor, odomCore_realImu] at hs1
    simp only [Outcome.ok.injEq, Prod.mk.injEq] at hs1
    exact hs1.2.symm
  subst ho1
  refine ⟨n1, hs1, ?_⟩
  have hrun1 : run (realImu P) lib n0 (withFakeImu none h ++ [(.odom m, env)]) = .ok (n1, outs' ++ [[]]) :=
    run_append_ok hr' (by simp only [run, hs1, Outcome.bind_ok])
  have hms : imuMsgs (withFakeImu none h ++ [(.odom m, env)]) = imuMsgs (withFakeImu none h) := by
    simp [imuMsgs]
  have hacc : (fakeImuMsg m).acc.normalized = m.rot.rotate ⟨0, 0, 1⟩ := by
    have hd : (m.rot.rotate ⟨0, 0, 1⟩).dot (m.rot.rotate ⟨0, 0, 1⟩) = 1 := by
      have := Quat.C28_rotate_dot m.rot (⟨0, 0, 1⟩ : Vec3 ℝ) ⟨0, 0, 1⟩
      rw [this, hq]; simp [Vec3.dot]
    simp only [fakeImuMsg, Vec3.normalized, Vec3.norm, hd, Transc.sqrt_real, Real.sqrt_one, Vec3.sdiv, div_one]
  have := C87_constant (P := realImu P) rfl hT hs hrun1 hs2 (by
      rw [hms]
      intro e he
      obtain ⟨m', hm', he'⟩ := imuMsgs_withFakeImu none hno e he
      rw [he', fakeImuMsg, fakeImuMsg, hrot m' hm']) (l := l) (t := t) (by
      show imuRef (realImu P) (withFakeImu none h ++ _) = _
      unfold imuRef
      rw [hms]
      exact hl) h1 h2 ht
  rw [this, hacc, htr, (Quat.C30_inv_rotate m.rot (by rw [hq]; exact one_ne_zero) _).1]
  rfl

/-- C135, what that means: weighed by a level robot, every orientation that is not level is less likely than every
level one, even if it is the orientation of the odometry. -/
theorem C135_tilt {var : ℝ} (hv : var ≠ 0) {s s' : State6 ℝ} (hs : s.rot.dot s.rot = 1) (hs' : s'.rot.dot s'.rot = 1)
    (hlev : s.rot.rotate ⟨0, 0, 1⟩ = ⟨0, 0, 1⟩) (htilt : s'.rot.rotate ⟨0, 0, 1⟩ ≠ ⟨0, 0, 1⟩) :
    (GravityModel.make var ⟨0, 0, 1⟩).measure s' < (GravityModel.make var ⟨0, 0, 1⟩).measure s := by
  have hne : ∀ {u : State6 ℝ}, u.rot.dot u.rot = 1 → u.rot ≠ ⟨0, 0, 0, 0⟩ := by
    intro u hu h0
    rw [h0] at hu
    simp [Quat.dot] at hu
  have hz : (⟨0, 0, 1⟩ : Vec3 ℝ) ≠ ⟨0, 0, 0⟩ := by simp
  refine (GravityModel.C81_wellDefined var hv ⟨0, 0, 1⟩ hz s (hne hs)).2.2.2 s' ?_
  have hp : GravityModel.predicted s = ⟨0, 0, 1⟩ := by
    rw [GravityModel.predicted, ← hlev, (Quat.C30_inv_rotate s.rot (by rw [hs]; exact one_ne_zero) _).1, hlev]
  have hinv : s'.rot.inv.dot s'.rot.inv = 1 := by
    rw [Quat.C30_inv_unit _ hs']
    simpa [Quat.dot, Quat.conj] using hs'
  have hd : (GravityModel.predicted s').dot (GravityModel.predicted s') = 1 := by
    rw [GravityModel.predicted, Quat.C28_rotate_dot, hinv]; simp [Vec3.dot]
  have hz1 : (⟨0, 0, 1⟩ : Vec3 ℝ).norm = 1 := by simp [Vec3.norm, Vec3.dot]
  have hn1 : (GravityModel.predicted s').norm = 1 := by simp [Vec3.norm, hd]
  have hlt : (GravityModel.predicted s').z < 1 := by
    have hx : (GravityModel.predicted s').x ^ 2 + (GravityModel.predicted s').y ^ 2 + (GravityModel.predicted s').z ^ 2 = 1 := by
      rw [← hd, Vec3.dot]; ring
    by_contra hge
    push _root_.Not at hge
    apply htilt
    have hzz : (GravityModel.predicted s').z = 1 := by nlinarith [sq_nonneg (GravityModel.predicted s').x, sq_nonneg (GravityModel.predicted s').y]
    have hxx : (GravityModel.predicted s').x = 0 := by
      rw [hzz] at hx
      have : (GravityModel.predicted s').x ^ 2 = 0 := by nlinarith [sq_nonneg (GravityModel.predicted s').x, sq_nonneg (GravityModel.predicted s').y]
      exact pow_eq_zero_iff (two_ne_zero) |>.1 this
    have hyy : (GravityModel.predicted s').y = 0 := by
      rw [hzz, hxx] at hx
      have : (GravityModel.predicted s').y ^ 2 = 0 := by linarith
      exact pow_eq_zero_iff (two_ne_zero) |>.1 this
    have e : GravityModel.predicted s' = ⟨0, 0, 1⟩ := by ext <;> assumption
    have := (Quat.C30_inv_rotate s'.rot (by rw [hs']; exact one_ne_zero) ⟨0, 0, 1⟩).2
    rw [GravityModel.predicted] at e
    rw [e] at this
    exact this
  rw [hp, GravityModel.angle, GravityModel.angle, hn1, hz1]
  have e1 : (⟨0, 0, 1⟩ : Vec3 ℝ).dot ⟨0, 0, 1⟩ = 1 := by simp [Vec3.dot]
  have e2 : (GravityModel.predicted s').dot ⟨0, 0, 1⟩ = (GravityModel.predicted s').z := by simp [Vec3.dot]
  rw [e1, e2, mul_one, div_one, div_one, Real.arccos_one]
  exact Real.arccos_pos.2 hlt

/-! ## Fake odometry -/

theorem imuCore_realOdom (P : Params) (env : Env) (n : Node C) (m : ImuMsg) :
    imuCore (realOdom P) env n m = ((imuCore P env n m).1, none) := by
  unfold imuCore
  by_cases h1 : n.imu.has = true
  · simp only [if_pos h1]
    by_cases h2 : m.stamp - n.imu.last < 0 ∨ 5 < m.stamp - n.imu.last
    · simp only [if_pos h2]
    · simp only [if_neg h2]
      by_cases h3 : 1 / 20 < m.stamp - n.imu.last
      · simp only [if_pos h3]
        cases ht : env.tf P.baseFrame m.frame 0 with
        | none =>
          have : env.tf (realOdom P).baseFrame m.frame 0 = none := ht
          simp only [this]
        | some t =>
          have : env.tf (realOdom P).baseFrame m.frame 0 = some t := ht
          simp only [this]
          rfl
      · simp only [if_neg h3]
  · simp only [if_neg h1]

/-- The events the odometry made of an IMU message stands for. -/
noncomputable def fakeOdomEvents (P : Params) (r : Option ℝ) (m : ImuMsg) (env : Env) : History :=
  match useOf r m.stamp, env.tf P.baseFrame m.frame 0 with
  | .use, some t => [(.odom (fakeOdomMsg P m t), env)]
  | _, _ => []

theorem imuCore_fake {P : Params} (hf : P.fakeOdom = true) {env : Env} {n : Node C} {v : ImuView} (hi : ImuInv n.imu v)
    (m : ImuMsg) : (match (imuCore P env n m).2 with
      | some om => [(Event.odom om, env)]
      | none => []) = fakeOdomEvents P v.last m env := by
  obtain ⟨h1, h2, h3⟩ := hi
  unfold fakeOdomEvents
  rcases hl : v.last with _ | l
  · rw [hl] at h1
    simp only [Option.isSome_none] at h1
    simp only [imuCore, h1, Bool.false_eq_true, if_false, useOf]
  · rw [hl] at h1
    simp only [Option.isSome_some] at h1
    have h2l := h2 l hl
    simp only [imuCore, h1, if_true, h2l, useOf, h3]
    by_cases hj : m.stamp < l ∨ l + 5 < m.stamp
    · have hj' : m.stamp - l < 0 ∨ 5 < m.stamp - l := by
        rcases hj with hj | hj
        · exact .inl (by linarith)
        · exact .inr (by linarith)
      simp only [if_pos hj, if_pos hj']
    · have hj' : ¬ (m.stamp - l < 0 ∨ 5 < m.stamp - l) := by
        push _root_.Not at hj ⊢
        exact ⟨by linarith, by linarith⟩
      simp only [if_neg hj, if_neg hj']
      by_cases hu : l + 1 / 20 < m.stamp
      · have hu' : 1 / 20 < m.stamp - l := by linarith
        simp only [if_pos hu, if_pos hu']
        cases ht : env.tf P.baseFrame m.frame 0 with
        | none => rfl
        | some t =>
          simp only [hf, if_true]
          rfl
      · have hu' : ¬ 1 / 20 < m.stamp - l := by linarith
        simp only [if_neg hu, if_neg hu']

theorem step_fakeOdom {P : Params} (hf : P.fakeOdom = true) (hI : P.fakeImu = false) {lib : Lib C} {env : Env}
    {n n' : Node C} {v : ImuView} (hi : ImuInv n.imu v) {m : ImuMsg} {o : List Out}
    (h : step P lib env n (.imu m) = .ok (n', o)) :
    ∃ outs, run (realOdom P) lib n ((.imu m, env) :: fakeOdomEvents P v.last m env) = .ok (n', outs) ∧
      published outs = [] ∧ published [o] = [] := by
  change sensor P env 4 n (.inr m) = .ok (n', o) at h
  have hc := imuCore_fake hf (env := env) hi m
  have hs1 : step (realOdom P) lib env n (.imu m) = .ok ((imuCore P env n m).1, []) := by
    show sensor (realOdom P) env 4 n (.inr m) = _
    rw [sensor, imuCore_realOdom]
  rw [sensor] at h
  rcases hcc : imuCore P env n m with ⟨n1, x⟩
  rw [hcc] at hc h hs1
  rw [← hc]
  cases x with
  | none =>
    simp only [Outcome.ok.injEq, Prod.mk.injEq] at h
    obtain ⟨rfl, rfl⟩ := h
    refine ⟨[[]], ?_, rfl, rfl⟩
    simp only [run, hs1, Outcome.bind_ok]
  | some om =>
    simp only at h
    unfold sensor at h
    have hnone := odomCore_imu_none hI n1 om
    rcases hco : odomCore P n1 om with ⟨n2, y⟩
    rw [hco] at h hnone
    simp only at hnone
    subst hnone
    simp only [Outcome.bind_ok, Outcome.ok.injEq, Prod.mk.injEq] at h
    obtain ⟨rfl, rfl⟩ := h
    have hs2 : step (realOdom P) lib env n1 (.odom om) = .ok (n2, []) := by
      show sensor (realOdom P) env 4 n1 (.inl om) = _
      have : odomCore (realOdom P) n1 om = odomCore P n1 om := rfl
      rw [sensor, this, hco]
    refine ⟨[[], []], ?_, rfl, by simp [published, Out.isFake]⟩
    simp only [run, hs1, hs2, Outcome.bind_ok]

theorem run_fakeOdom {P : Params} (hf : P.fakeOdom = true) (hI : P.fakeImu = false) {lib : Lib C} {h : History}
    {n n' : Node C} {outs : List (List Out)} {v : ImuView} (hi : ImuInv n.imu v)
    (hr : run P lib n h = .ok (n', outs)) :
    ∃ outs', run (realOdom P) lib n (withFakeOdom P v.last h) = .ok (n', outs') ∧ published outs' = published outs := by
  induction h generalizing n v outs with
  | nil =>
    simp only [run, Outcome.ok.injEq, Prod.mk.injEq] at hr
    obtain ⟨rfl, rfl⟩ := hr
    exact ⟨[], rfl, rfl⟩
  | cons e h ih =>
    obtain ⟨n1, o, ot, h1, h2, rfl⟩ := run_cons_ok hr
    rcases e with ⟨ev, env⟩
    have hrun1 : run P lib n [(ev, env)] = .ok (n1, [o]) := by simp only [run, h1, Outcome.bind_ok]
    by_cases him : ∃ m, ev = .imu m
    · obtain ⟨m, rfl⟩ := him
      have hi1 : ImuInv n1.imu (accStep P v (m, env)) := run_imu hI hi hrun1
      obtain ⟨oa, hra, hpa, hpo⟩ := step_fakeOdom hf hI hi h1
      obtain ⟨ob, hrb, hpb⟩ := ih hi1 h2
      refine ⟨oa ++ ob, ?_, ?_⟩
      · have := run_append_ok hra hrb
        rw [List.cons_append] at this
        exact this
      · rw [published_append, published_cons, hpa, hpo, hpb]
    · have hi1 : ImuInv n1.imu v := by
        have := run_imu hI hi hrun1
        rw [imuMsgs_cons_other (fun m hm => him ⟨m, hm⟩)] at this
        exact this
      obtain ⟨ob, hrb, hpb⟩ := ih hi1 h2
      have hs : step (realOdom P) lib env n ev = .ok (n1, o) := by
        by_cases hod : ∃ m, ev = .odom m
        · obtain ⟨m, rfl⟩ := hod
          rw [← h1]
          show sensor (realOdom P) env 4 n (.inl m) = sensor P env 4 n (.inl m)
          have hn := odomCore_imu_none hI n m
          have he : odomCore (realOdom P) n m = odomCore P n m := rfl
          rcases hci : odomCore P n m with ⟨n2, y⟩
          rw [hci] at hn
          simp only at hn
          subst hn
          rw [sensor, sensor, he, hci]
        · rw [step_realOdom P lib env n ev (fun m hm => hod ⟨m, hm⟩) (fun m hm => him ⟨m, hm⟩)]
          exact h1
      have hw : withFakeOdom P v.last ((ev, env) :: h) = (ev, env) :: withFakeOdom P v.last h := by
        cases ev with
        | imu m => exact absurd ⟨m, rfl⟩ him
        | _ => rfl
      refine ⟨o :: ob, ?_, ?_⟩
      · rw [hw]
        simp only [run, hs, Outcome.bind_ok, hrb]
      · rw [published_cons, published_cons o ot, hpb]

/-- C136: a node with `fake_odom` behaves as a node without it that receives, after each IMU message that is used, an
odometry message without motion with the orientation of the IMU. -/
theorem C136_as_received {P : Params} (hf : P.fakeOdom = true) (hI : P.fakeImu = false) {lib : Lib C} {env0 : Env}
    {motion0 : Motion ℝ} {n0 n : Node C} {h : History} {outs : List (List Out)}
    (hs : start P lib env0 motion0 = .ok n0) (hr : run P lib n0 h = .ok (n, outs)) :
    start { P with fakeOdom := false } lib env0 motion0 = .ok n0 ∧
    ∃ outs', run { P with fakeOdom := false } lib n0 (withFakeOdom P none h) = .ok (n, outs') ∧
      published outs' = published outs := by
  refine ⟨hs, run_fakeOdom (v := ⟨none, FiltVec3.new .lpf ⟨P.accLpfStep, P.accLpfStep, P.accLpfStep⟩ 0 false⟩) hf hI ?_ hr⟩
  obtain ⟨_, ns, _, rfl⟩ := start_ok hs
  exact ⟨rfl, by simp, rfl⟩

/-! ## The hypotheses are met -/

/-- A rolled orientation. -/
noncomputable def exRoll : Quat ℝ := ⟨3 / 5, 0, 0, 4 / 5⟩

/-- An odometry message of a rolled robot. -/
noncomputable def exRolled (t : ℝ) : OdomMsg := ⟨t, "odom", 0, exRoll⟩

/-- The environment with the transform of that robot. -/
noncomputable def exRolledEnv (t : ℝ) : Env := { Demo.env t with tf := fun _ _ _ => some ⟨0, exRoll.inv⟩ }

theorem exRolled_ref {t l : ℝ} (h1 : l + 1 / 20 < t) (h2 : t ≤ l + 5) :
    odomRefStep (some (exRolled l)) (exRolled t) = some (exRolled t) := by
  have hu : useOf (Option.map OdomMsg.stamp (some (exRolled l))) (exRolled t).stamp = .use := (useOf_use l t).2 ⟨h1, h2⟩
  unfold odomRefStep
  rw [hu]

/-- C135: a rolled robot with fake IMU: the message at time 0 is the reference of the odometry, the fake message at
time 1 that of the IMU, and the one at time 2 weighs the particles; the odometry's orientation is not level, an
identity orientation is. -/
example : ∃ (P : Params) (n0 n n' : Node Unit) (h : History) (outs : List (List Out)) (o : List Out),
    P.fakeImu = true ∧ P.fakeOdom = false ∧ 0 ≤ P.accLpfStep ∧ P.accVar ≠ 0 ∧
    start P Demo.lib (Demo.env 0) Demo.motion0 = .ok n0 ∧ run P Demo.lib n0 h = .ok (n, outs) ∧
    step P Demo.lib (exRolledEnv 2) n (.odom (exRolled 2)) = .ok (n', o) ∧ imuMsgs h = [] ∧
    (∀ m ∈ odomMsgs h, m.rot = (exRolled 2).rot) ∧ (exRolled 2).rot.dot (exRolled 2).rot = 1 ∧
    odomRef h = some (exRolled 1) ∧ imuRef P (withFakeImu none h) = some 1 ∧
    (exRolledEnv 2).tf P.baseFrame (exRolled 2).frame 0 = some ⟨0, exRoll.inv⟩ ∧
    exRoll.rotate ⟨0, 0, 1⟩ ≠ (⟨0, 0, 1⟩ : Vec3 ℝ) ∧ (1 : Quat ℝ).rotate ⟨0, 0, 1⟩ = (⟨0, 0, 1⟩ : Vec3 ℝ) := by
  obtain ⟨n0, hs⟩ := start_total { Demo.P0 with fakeImu := true } Demo.lib (Demo.env 0) Demo.motion0 (by simp)
  obtain ⟨n, outs, hr⟩ := run_sensors { Demo.P0 with fakeImu := true } Demo.lib n0
    [(.odom (exRolled 0), exRolledEnv 0), (.odom (exRolled 1), exRolledEnv 1)] (by simp)
  obtain ⟨n', o, hst⟩ := C88_terminates { Demo.P0 with fakeImu := true } Demo.lib (exRolledEnv 2) n (.odom (exRolled 2))
    (.inl ⟨_, rfl⟩)
  have hu : useOf (Option.map OdomMsg.stamp (some (exRolled 0))) (exRolled 1).stamp = .use := by
    show useOf (some 0) 1 = .use
    rw [useOf_use]; norm_num
  refine ⟨_, n0, n, n', _, outs, o, rfl, rfl, ?_, ?_, hs, hr, hst, rfl, ?_, ?_, ?_, ?_, rfl, ?_, (Quat.C29_one 1 _).2.2⟩
  · show 0 ≤ Demo.P0.accLpfStep
    norm_num [Demo.P0, Params.loadFrom, Server.dblD, Server.getDouble]
  · show Demo.P0.accVar ≠ 0
    norm_num [Demo.P0, Params.loadFrom, Server.dblD, Server.getDouble, Real.pi_ne_zero]
  · intro m hm
    simp only [odomMsgs, List.filterMap_cons, List.filterMap_nil, List.mem_cons, List.not_mem_nil, or_false] at hm
    rcases hm with rfl | rfl <;> rfl
  · norm_num [exRolled, exRoll, Quat.dot]
  · show odomRefStep (some (exRolled 0)) (exRolled 1) = _
    exact exRolled_ref (by norm_num) (by norm_num)
  · have e : withFakeImu none [(.odom (exRolled 0), exRolledEnv 0), (.odom (exRolled 1), exRolledEnv 1)] =
        [(.odom (exRolled 0), exRolledEnv 0), (.odom (exRolled 1), exRolledEnv 1),
          (.imu (fakeImuMsg (exRolled 1)), exRolledEnv 1)] := by
      have e1 : odomRefStep none (exRolled 0) = some (exRolled 0) := rfl
      simp only [withFakeImu, e1, hu]
      simp [useOf]
    rw [e]
    rfl
  · intro he
    have := congrArg Vec3.z he
    rw [Quat.rotate_z] at this
    norm_num [exRoll] at this

/-- C136: a node with fake odometry that used an IMU message. -/
example : ∃ (P : Params) (n0 n : Node Unit) (h : History) (outs : List (List Out)),
    P.fakeOdom = true ∧ P.fakeImu = false ∧ start P Demo.lib (Demo.env 0) Demo.motion0 = .ok n0 ∧
    run P Demo.lib n0 h = .ok (n, outs) ∧ (odomMsgs (withFakeOdom P none h)).length = 1 := by
  obtain ⟨n0, hs⟩ := start_total { Demo.P0 with fakeOdom := true } Demo.lib (Demo.env 0) Demo.motion0 (by simp)
  obtain ⟨n, outs, hr⟩ := run_sensors { Demo.P0 with fakeOdom := true } Demo.lib n0
    [(.imu ⟨0, "imu", ⟨0, 0, 1⟩, 1⟩, Demo.env 0), (.imu ⟨1, "imu", ⟨0, 0, 1⟩, 1⟩, Demo.env 1)] (by simp)
  refine ⟨_, n0, n, _, outs, rfl, rfl, hs, hr, ?_⟩
  have hu : useOf (some 0) 1 = .use := by rw [useOf_use]; norm_num
  have e1 : imuRefStep { Demo.P0 with fakeOdom := true } none (⟨0, "imu", ⟨0, 0, 1⟩, 1⟩, Demo.env 0) = some 0 := rfl
  have ht : (Demo.env 1).tf Demo.P0.baseFrame "imu" 0 = some Demo.tf0 := rfl
  simp only [withFakeOdom, e1, hu, ht]
  simp [useOf, odomMsgs]

end Node
end Mcl3dl
