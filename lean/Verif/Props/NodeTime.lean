import Verif.Model.NodeTime
import Verif.Proofs.NodeCloud
import Verif.Proofs.NodeOut
import Verif.Props.NodeOut
import Verif.Props.NodeDemoPose

/-! # C159: computations with times -/

set_option linter.unusedSectionVars false

namespace Mcl3dl
namespace Node

variable {C : Type}

/-- The times the node remembers lie before 2038. -/
structure TimeInv (n : Node C) : Prop where
  odo : Before2038 n.odo.last
  imu : Before2038 n.imu.last
  loc : Before2038 n.loc.localizedLast
  out : Before2038 n.loc.matchLast
  headers : ∀ h ∈ n.acc.headers, Before2038 h.stamp

theorem zero_before : Before2038 0 := ⟨le_refl _, by norm_num⟩

theorem start_time {P : Params} {lib : Lib C} {env : Env} {motion0 : Motion ℝ} {n : Node C}
    (h : start P lib env motion0 = .ok n) : TimeInv n := by
  obtain ⟨_, ns, _, rfl⟩ := start_ok h
  exact ⟨zero_before, zero_before, zero_before, zero_before, by simp⟩

/-- The stamp of a sensor message. -/
def sensorStamp : OdomMsg ⊕ ImuMsg → ℝ
  | .inl m => m.stamp
  | .inr m => m.stamp

theorem odomCore_times {P : Params} {n : Node C} {msg : OdomMsg} (ho : Before2038 n.odo.last) (hi : Before2038 n.imu.last)
    (hm : Before2038 msg.stamp) : Before2038 (odomCore P n msg).1.odo.last ∧ Before2038 (odomCore P n msg).1.imu.last ∧
      ∀ im, (odomCore P n msg).2 = some im → Before2038 im.stamp := by
  simp only [odomCore]
  split_ifs <;> refine ⟨?_, ?_, ?_⟩ <;> first | exact ho | exact hi | exact hm | (intro im he; simp at he)
  all_goals (rw [← he]; exact hm)

theorem imuCore_times {P : Params} {env : Env} {n : Node C} {msg : ImuMsg} (ho : Before2038 n.odo.last) (hi : Before2038 n.imu.last)
    (hm : Before2038 msg.stamp) : Before2038 (imuCore P env n msg).1.odo.last ∧ Before2038 (imuCore P env n msg).1.imu.last ∧
      ∀ om, (imuCore P env n msg).2 = some om → Before2038 om.stamp := by
  simp only [imuCore]
  cases env.tf P.baseFrame msg.frame 0 with
  | none =>
    split_ifs <;> refine ⟨?_, ?_, ?_⟩ <;> first | exact ho | exact hi | exact hm | (intro im he; simp at he)
  | some t =>
    split_ifs <;> refine ⟨?_, ?_, ?_⟩ <;> first | exact ho | exact hi | exact hm | (intro im he; simp at he)
    all_goals (rw [← he]; exact hm)

theorem diff_fits {a b : ℝ} (ha : Before2038 a) (hb : Before2038 b) : (TimeOp.diff a b).Fits := by
  obtain ⟨a1, a2⟩ := ha
  obtain ⟨b1, b2⟩ := hb
  exact ⟨by norm_num at *; linarith, by linarith⟩

theorem sensor_times {P : Params} {env : Env} (fuel : ℕ) {n : Node C} {msg : OdomMsg ⊕ ImuMsg}
    (ho : Before2038 n.odo.last) (hi : Before2038 n.imu.last) (hm : Before2038 (sensorStamp msg)) :
    (∀ op ∈ sensorTimes P env fuel n msg, op.Fits) ∧
    ∀ n' o, sensor P env fuel n msg = .ok (n', o) → Before2038 n'.odo.last ∧ Before2038 n'.imu.last := by
  induction fuel generalizing n msg with
  | zero => exact ⟨by simp [sensorTimes], by simp [sensor]⟩
  | succ fuel ih =>
    cases msg with
    | inl msg =>
      obtain ⟨h1, h2, h3⟩ := odomCore_times (P := P) ho hi hm
      rcases hc : odomCore P n msg with ⟨n1, _ | im⟩
      · rw [hc] at h1 h2
        refine ⟨?_, ?_⟩
        · intro op hop
          simp only [sensorTimes, hc, List.append_nil] at hop
          split_ifs at hop with hh
          · simp only [List.mem_singleton] at hop
            rw [hop]; exact diff_fits hm ho
          · simp at hop
        · intro n' o h
          simp only [sensor, hc, Outcome.ok.injEq, Prod.mk.injEq] at h
          rw [← h.1]; exact ⟨h1, h2⟩
      · rw [hc] at h1 h2 h3
        obtain ⟨i1, i2⟩ := ih (n := n1) (msg := .inr im) h1 h2 (h3 im rfl)
        refine ⟨?_, ?_⟩
        · intro op hop
          simp only [sensorTimes, hc] at hop
          rcases List.mem_append.1 hop with hop | hop
          · split_ifs at hop with hh
            · simp only [List.mem_singleton] at hop
              rw [hop]; exact diff_fits hm ho
            · simp at hop
          · exact i1 op hop
        · intro n' o h
          simp only [sensor, hc] at h
          obtain ⟨r, hr, h⟩ := Outcome.bind_eq_ok_iff.1 h
          simp only [Outcome.ok.injEq, Prod.mk.injEq] at h
          rw [← h.1]; exact i2 r.1 r.2 hr
    | inr msg =>
      obtain ⟨h1, h2, h3⟩ := imuCore_times (P := P) (env := env) ho hi hm
      rcases hc : imuCore P env n msg with ⟨n1, _ | im⟩
      · rw [hc] at h1 h2
        refine ⟨?_, ?_⟩
        · intro op hop
          simp only [sensorTimes, hc, List.append_nil] at hop
          split_ifs at hop with hh
          · simp only [List.mem_singleton] at hop
            rw [hop]; exact diff_fits hm hi
          · simp at hop
        · intro n' o h
          simp only [sensor, hc, Outcome.ok.injEq, Prod.mk.injEq] at h
          rw [← h.1]; exact ⟨h1, h2⟩
      · rw [hc] at h1 h2 h3
        obtain ⟨i1, i2⟩ := ih (n := n1) (msg := .inl im) h1 h2 (h3 im rfl)
        refine ⟨?_, ?_⟩
        · intro op hop
          simp only [sensorTimes, hc] at hop
          rcases List.mem_append.1 hop with hop | hop
          · split_ifs at hop with hh
            · simp only [List.mem_singleton] at hop
              rw [hop]; exact diff_fits hm hi
            · simp at hop
          · exact i1 op hop
        · intro n' o h
          simp only [sensor, hc] at h
          obtain ⟨r, hr, h⟩ := Outcome.bind_eq_ok_iff.1 h
          simp only [Outcome.ok.injEq, Prod.mk.injEq] at h
          rw [← h.1]; exact i2 r.1 r.2 hr

/-- The headers come from the clouds, and a measured batch ends with one of them. -/
theorem cbCloud_headers {P : Params} {lib : Lib C} {env : Env} {n n' : Node C} {header : Header}
    {msg : Conv.Msg} {outs : List Out} (h : cbCloud P lib env n header msg = .ok (n', outs)) :
    (∀ x ∈ n'.acc.headers, x ∈ n.acc.headers ++ [header]) ∧
    (n'.loc.SameTrack n.loc ∨ n.map.hasMap = true ∧ ∃ hd ∈ n.acc.headers ++ [header],
      n'.loc.localizedLast = env.now 3 ∧ (n'.loc.matchLast = n.loc.matchLast ∨ n'.loc.matchLast = hd.stamp)) := by
  have hacc : ∀ (a a' : AccSt) (b : Bool), accumCloud P env header msg a = .ok (b, a') →
      ∀ x ∈ a'.headers, x ∈ a.headers ++ [header] := by
    intro a a' b ha x hx
    obtain ⟨h1, h2, _, _⟩ := accumCloud_spec ha
    cases b with
    | false => rw [h1 rfl] at hx; exact List.mem_append_left _ hx
    | true => rw [(h2 rfl).2.1] at hx; exact hx
  have hcore : ∀ (acc : AccSt) (c : Option (List Point)) (cnt : ℕ) (loc : LocSt C) (o : List Out),
      (∀ x ∈ acc.headers, x ∈ n.acc.headers ++ [header]) →
      measureCore P lib env n.map n.odo n.stdWarn acc (freshen env n).loc n.cnt = .ok (cnt, c, loc, o) →
      loc.SameTrack n.loc ∨ ∃ hd ∈ n.acc.headers ++ [header],
        loc.localizedLast = env.now 3 ∧ (loc.matchLast = n.loc.matchLast ∨ loc.matchLast = hd.stamp) := by
    intro acc c cnt loc o hsub hc
    obtain ⟨_, _, hk⟩ := measureCore_ok hc
    rcases hk with ⟨_, _, rfl, _⟩ | ⟨_, hme⟩
    · exact .inl ⟨rfl, rfl, rfl, rfl, rfl, rfl, rfl⟩
    cases hme with
    | noHeader _ => exact .inl ⟨rfl, rfl, rfl, rfl, rfl, rfl, rfl⟩
    | noTf _ _ _ => exact .inl ⟨rfl, rfl, rfl, rfl, rfl, rfl, rfl⟩
    | noOrigin _ _ _ _ => exact .inl ⟨rfl, rfl, rfl, rfl, rfl, rfl, rfl⟩
    | noPoints _ p _ _ _ => exact .inl ⟨rfl, rfl, rfl, rfl, rfl, rfl, rfl⟩
    | localized hd p _ outs h1 h2 h3 hl =>
      right
      obtain ⟨r, _, _, _, _, _, hmo, _, _, _, _, rfl, _⟩ := localize_ok hl
      refine ⟨hd, hsub hd (List.mem_of_getLast? h1), rfl, ?_⟩
      show r.mo.1 = _ ∨ r.mo.1 = _
      rw [matchOutput] at hmo
      by_cases hcond : ((freshen env n).loc.matchLast + P.matchOutputInterval < hd.stamp ∨
          hd.stamp + 1 < (freshen env n).loc.matchLast) ∧ (env.subMatched ∨ env.subUnmatched)
      · rw [if_pos hcond] at hmo
        obtain ⟨s, _, hmo⟩ := Outcome.bind_eq_ok_iff.1 hmo
        simp only [Outcome.ok.injEq] at hmo
        rw [← hmo]; exact .inr rfl
      · rw [if_neg hcond] at hmo
        simp only [Outcome.ok.injEq] at hmo
        rw [← hmo]; exact .inl rfl
  cases hm : n.map.hasMap with
  | false =>
    rw [cbCloud_noMap hm] at h
    simp only [Outcome.ok.injEq, Prod.mk.injEq] at h
    obtain ⟨rfl, rfl⟩ := h
    exact ⟨fun x hx => List.mem_append_left _ hx, .inl ⟨rfl, rfl, rfl, rfl, rfl, rfl, rfl⟩⟩
  | true =>
    rcases cbCloud_ok hm h with ⟨_, _, b, a, l, ha, rfl⟩ | ⟨_, _, a, ha, rfl⟩ | ⟨_, a, ha, hme⟩ |
      ⟨_, n1, b, a, l, hme, ha, rfl⟩
    · refine ⟨?_, .inl ⟨rfl, rfl, rfl, rfl, rfl, rfl, rfl⟩⟩
      intro x hx
      cases b with
      | true => exact hacc _ _ _ ha x hx
      | false => simp [accumClear] at hx
    · refine ⟨?_, .inl ⟨rfl, rfl, rfl, rfl, rfl, rfl, rfl⟩⟩
      intro x hx
      have := hacc _ _ _ ha x hx
      simp only [accumClear, List.nil_append] at this
      exact List.mem_append_right _ this
    · have hsub : ∀ x ∈ a.headers, x ∈ n.acc.headers ++ [header] := by
        intro x hx
        have := hacc _ _ _ ha x hx
        simp only [accumClear, List.nil_append] at this
        exact List.mem_append_right _ this
      refine ⟨?_, ?_⟩
      · rw [(measure_acc hme).1]; exact hsub
      · obtain ⟨c, hc, hn⟩ := measure_ok hme
        have e : n'.loc = n'.loc := rfl
        rcases hcore a c _ _ _ hsub hc with h | h
        · exact .inl h
        · exact .inr ⟨rfl, h⟩
    · refine ⟨?_, ?_⟩
      · intro x hx
        have := hacc _ _ _ ha x hx
        simp only [accumClear, List.nil_append] at this
        exact List.mem_append_right _ this
      · obtain ⟨c, hc, hn⟩ := measure_ok hme
        rcases hcore n.acc c _ _ _ (fun x hx => List.mem_append_left _ hx) hc with h | h
        · exact .inl h
        · exact .inr ⟨rfl, h⟩

theorem step_time {P : Params} {lib : Lib C} {env : Env} {n n' : Node C} {ev : Event} {o : List Out}
    (hi : TimeInv n) (hnow : ∀ k, Before2038 (env.now k)) (hst : ∀ t ∈ ev.stamps, Before2038 t)
    (h : step P lib env n ev = .ok (n', o)) : TimeInv n' := by
  have load : ∀ (stamp : ℕ) (pts : List Point) (n' : Node C) (o : List Out),
      loadMapCloud P env n stamp pts = .ok (n', o) → TimeInv n' := by
    intro stamp pts n' o h
    obtain ⟨m, _, rfl⟩ := loadMapCloud_ok h
    exact ⟨hi.odo, hi.imu, hi.loc, hi.out, by simp [accumClear]⟩
  cases ev with
  | mapcloud stamp msg =>
    rcases cbMapcloud_ok h with ⟨_, rfl, _⟩ | ⟨_, hl⟩
    · exact ⟨hi.odo, hi.imu, hi.loc, hi.out, hi.headers⟩
    · exact load _ _ _ _ hl
  | mapcloudUpdate msg =>
    simp only [step, Outcome.ok.injEq, Prod.mk.injEq] at h
    rw [← h.1]
    simp only [cbMapcloudUpdate]
    rcases Conv.fromROSMsg msg [] with ⟨_ | _, pts⟩
    · exact hi
    · exact ⟨hi.odo, hi.imu, hi.loc, hi.out, hi.headers⟩
  | loadPcd file =>
    rcases cbLoadPcd_ok h with ⟨_, rfl, _⟩ | ⟨_, _, _, hl, _⟩
    · exact ⟨hi.odo, hi.imu, hi.loc, hi.out, hi.headers⟩
    · exact load _ _ _ _ hl
  | timer =>
    obtain ⟨r, hr, h⟩ := Outcome.bind_eq_ok_iff.1 h
    simp only [Outcome.ok.injEq, Prod.mk.injEq] at h
    rw [← h.1]
    exact ⟨hi.odo, hi.imu, hi.loc, hi.out, hi.headers⟩
  | cloud header msg =>
    obtain ⟨hh, hloc⟩ := cbCloud_headers h
    obtain ⟨_, e2, e3, _, _⟩ := cbCloud_loc h
    have hst' : Before2038 header.stamp := hst _ (by simp [Event.stamps])
    have hall : ∀ x ∈ n.acc.headers ++ [header], Before2038 x.stamp := by
      intro x hx
      rcases List.mem_append.1 hx with hx | hx
      · exact hi.headers x hx
      · simp only [List.mem_singleton] at hx; rw [hx]; exact hst'
    refine ⟨by rw [e2]; exact hi.odo, by rw [e3]; exact hi.imu, ?_, ?_, fun x hx => hall x (hh x hx)⟩
    · rcases hloc with h | ⟨_, hd, _, h1, _⟩
      · rw [h.2.2.2.2.2.1]; exact hi.loc
      · rw [h1]; exact hnow 3
    · rcases hloc with h | ⟨_, hd, hmem, _, h1 | h1⟩
      · rw [h.2.2.2.2.2.2]; exact hi.out
      · rw [h1]; exact hi.out
      · rw [h1]; exact hall hd hmem
  | odom msg =>
    obtain ⟨h1, h2, _, _, h5, _⟩ := sensor_frame _ h
    obtain ⟨a, b⟩ := (sensor_times (P := P) (env := env) depth (msg := .inl msg) hi.odo hi.imu
      (hst _ (by simp [Event.stamps, sensorStamp]))).2 _ _ h
    exact ⟨a, b, by rw [h5]; exact hi.loc, by rw [h5]; exact hi.out, by rw [h2]; exact hi.headers⟩
  | imu msg =>
    obtain ⟨h1, h2, _, _, h5, _⟩ := sensor_frame _ h
    obtain ⟨a, b⟩ := (sensor_times (P := P) (env := env) depth (msg := .inr msg) hi.odo hi.imu
      (hst _ (by simp [Event.stamps, sensorStamp]))).2 _ _ h
    exact ⟨a, b, by rw [h5]; exact hi.loc, by rw [h5]; exact hi.out, by rw [h2]; exact hi.headers⟩
  | initialpose msg =>
    rcases cbPosition_ok h with ⟨rfl, _⟩ | ⟨_, t, st, _, rfl, _⟩
    · exact hi
    · exact ⟨hi.odo, hi.imu, hi.loc, hi.out, hi.headers⟩
  | landmark msg =>
    obtain ⟨pf, _, rfl, _⟩ := cbLandmark_ok h; exact ⟨hi.odo, hi.imu, hi.loc, hi.out, hi.headers⟩
  | resize size =>
    obtain ⟨pf, _, rfl, _⟩ := cbResize_ok h; exact ⟨hi.odo, hi.imu, hi.loc, hi.out, hi.headers⟩
  | expansionReset =>
    obtain ⟨pf, _, rfl, _⟩ := cbExpansionReset_ok h; exact ⟨hi.odo, hi.imu, hi.loc, hi.out, hi.headers⟩
  | globalLocalization =>
    rcases cbGlobalLocalization_ok h with ⟨_, rfl, _⟩ | ⟨_, c, pf, ps, _, _, _, rfl, _⟩
    · exact hi
    · exact ⟨hi.odo, hi.imu, hi.loc, hi.out, hi.headers⟩
  | reconfigure w =>
    simp only [step, Outcome.ok.injEq, Prod.mk.injEq] at h
    rw [← h.1]; exact ⟨hi.odo, hi.imu, hi.loc, hi.out, hi.headers⟩

theorem run_time {P : Params} {lib : Lib C} {h : History} {n n' : Node C} {outs : List (List Out)} (hi : TimeInv n)
    (hh : ∀ e ∈ h, (∀ k, Before2038 (e.2.now k)) ∧ ∀ t ∈ e.1.stamps, Before2038 t)
    (hr : run P lib n h = .ok (n', outs)) : TimeInv n' := by
  induction h generalizing n outs with
  | nil =>
    simp only [run, Outcome.ok.injEq, Prod.mk.injEq] at hr
    exact hr.1 ▸ hi
  | cons e h ih =>
    obtain ⟨ev, env⟩ := e
    obtain ⟨n1, o, os, h1, h2, _⟩ := run_cons_ok hr
    obtain ⟨a, b⟩ := hh (ev, env) (by simp)
    exact ih (step_time hi a b h1) (fun e he => hh e (by simp [he])) h2

theorem stampTimes_fit {P : Params} (h0 : 0 ≤ P.tfTolerance) (h1 : P.tfTolerance ≤ 2 ^ 30) {odo : OdoSt} {tol now : ℝ}
    (ho : Before2038 odo.last) (hn : Before2038 now) (ht0 : 0 ≤ tol) (ht1 : tol ≤ 1) :
    ∀ op ∈ stampTimes P odo tol now, op.Fits := by
  have ht : Before2038 (if odo.has then odo.last else now) := by split_ifs; exacts [ho, hn]
  intro op hop
  simp only [stampTimes, List.mem_cons, List.not_mem_nil, or_false] at hop
  obtain ⟨a, b⟩ := ht
  rcases hop with rfl | rfl
  · exact ⟨by linarith, by norm_num at *; linarith⟩
  · exact ⟨by linarith, by norm_num at *; linarith⟩

/-- C159: as long as all stamps and the clock are before 2038 and the two durations are neither negative nor longer
than 34 years, no computation with times in the node throws. -/
theorem C159_in_range {P : Params} (ht0 : 0 ≤ P.tfTolerance) (ht1 : P.tfTolerance ≤ 2 ^ 30)
    (hm0 : 0 ≤ P.matchOutputInterval) (hm1 : P.matchOutputInterval ≤ 2 ^ 30) {lib : Lib C} {env0 : Env} {motion0 : Motion ℝ}
    {h : History} {n0 n : Node C} {outs : List (List Out)}
    (hs : start P lib env0 motion0 = .ok n0) (hr : run P lib n0 h = .ok (n, outs))
    (hh : ∀ e ∈ h, (∀ k, Before2038 (e.2.now k)) ∧ ∀ t ∈ e.1.stamps, Before2038 t)
    (ev : Event) (env : Env) (hnow : ∀ k, Before2038 (env.now k)) (hst : ∀ t ∈ ev.stamps, Before2038 t) :
    ∀ op ∈ timeOps P env n ev, op.Fits := by
  have hi := run_time (start_time hs) hh hr
  have hsm := run_smooth (start_smooth hs) hr
  obtain ⟨hb0, hb1⟩ := hsm.tolerance
  have stamp : ∀ k, ∀ op ∈ stampTimes P n.odo n.loc.tolBase (env.now k), op.Fits := fun k =>
    stampTimes_fit ht0 ht1 hi.odo (hnow k) hb0 hb1
  intro op hop
  cases ev with
  | mapcloud _ _ => simp [timeOps] at hop
  | mapcloudUpdate _ => simp [timeOps] at hop
  | loadPcd _ => simp [timeOps] at hop
  | timer => simp [timeOps] at hop
  | globalLocalization => simp [timeOps] at hop
  | reconfigure _ => simp [timeOps] at hop
  | initialpose msg => exact stamp 0 op hop
  | landmark msg => exact stamp 0 op hop
  | resize msg => exact stamp 0 op hop
  | expansionReset => exact stamp 0 op hop
  | odom msg => exact (sensor_times (P := P) (env := env) depth (msg := .inl msg) hi.odo hi.imu
      (hst _ (by simp [Event.stamps, sensorStamp]))).1 op hop
  | imu msg => exact (sensor_times (P := P) (env := env) depth (msg := .inr msg) hi.odo hi.imu
      (hst _ (by simp [Event.stamps, sensorStamp]))).1 op hop
  | cloud header msg =>
    simp only [timeOps] at hop
    split_ifs at hop with hmap
    · obtain ⟨hd, hmem, hop⟩ := List.mem_flatMap.1 hop
      have hhd : Before2038 hd.stamp := by
        rcases List.mem_append.1 hmem with hx | hx
        · exact hi.headers hd hx
        · simp only [List.mem_singleton] at hx; rw [hx]; exact hst _ (by simp [Event.stamps])
      simp only [localizeTimes, List.mem_append, List.mem_cons, List.not_mem_nil, or_false] at hop
      rcases hop with (((hop | rfl) | hop) | hop) | rfl | rfl
      · exact stamp 1 op hop
      · obtain ⟨a, b⟩ := hi.out
        exact ⟨by linarith, by norm_num at *; linarith⟩
      · split_ifs at hop
        · simp at hop
        · simp only [List.mem_singleton] at hop
          subst hop
          obtain ⟨a, b⟩ := hhd
          exact ⟨by linarith, by norm_num at *; linarith⟩
      · exact stamp 2 op hop
      · exact diff_fits (hnow 3) hi.loc
      · obtain ⟨vs, hvs, hrate⟩ := hsm.rate
        have := Filt.C47_no_overshoot 5 0 0 1 (by norm_num) (by norm_num) (vs ++ [clampDt (env.now 3 - n.loc.localizedLast)]) (by
          intro v hv
          rcases List.mem_append.1 hv with hv | hv
          · exact hvs v hv
          · simp only [List.mem_singleton] at hv; rw [hv]; exact clampDt_bounds _)
        simp only [Filt.feed, List.foldl_append, List.foldl_cons, List.foldl_nil] at this
        rw [hrate]
        have t0 : 0 ≤ ((Filt.feed (Filt.new .lpf 5 0 false) vs).input (clampDt (env.now 3 - n.loc.localizedLast))).out :=
          this.1
        have t1 : ((Filt.feed (Filt.new .lpf 5 0 false) vs).input (clampDt (env.now 3 - n.loc.localizedLast))).out ≤ 1 :=
          this.2
        exact ⟨le_trans (by norm_num) t0, lt_of_le_of_lt t1 (by norm_num)⟩
    · simp at hop

/-- C159: the durations among the parameters can be stored. -/
theorem C159_parameters {P : Params} (ht0 : 0 ≤ P.tfTolerance) (ht1 : P.tfTolerance ≤ 2 ^ 30)
    (hm0 : 0 ≤ P.matchOutputInterval) (hm1 : P.matchOutputInterval ≤ 2 ^ 30)
    (hu0 : 0 ≤ P.mapUpdateInterval) (hu1 : P.mapUpdateInterval ≤ 2 ^ 30) : ∀ op ∈ startTimes P, op.Fits := by
  intro op hop
  simp only [startTimes, List.mem_cons, List.not_mem_nil, or_false] at hop
  rcases hop with rfl | rfl | rfl <;> exact ⟨by norm_num at *; linarith, by norm_num at *; linarith⟩

/-- The sums behind a published stamp are among the computations. -/
def Computed (ops : List TimeOp) (stamp : ℝ) : Prop :=
  ∃ t a b, stamp = t + a + b ∧ .shift t a ∈ ops ∧ .shift (t + a) b ∈ ops

theorem stampTimes_computed (P : Params) (odo : OdoSt) (tol now : ℝ) :
    Computed (stampTimes P odo tol now) (outStamp P odo tol now) :=
  ⟨_, tol, P.tfTolerance, rfl, by simp [stampTimes], by simp [stampTimes]⟩

theorem Computed.mono {a b : List TimeOp} {s : ℝ} (h : Computed a s) (hab : ∀ x ∈ a, x ∈ b) : Computed b s := by
  obtain ⟨t, c, d, e, h1, h2⟩ := h
  exact ⟨t, c, d, e, hab _ h1, hab _ h2⟩

/-- C159: the computations listed are those behind what is published and remembered: the stamps of transforms and
particles are sums among them, and if a pose is published, the time since the last measurement, the new tolerance
and the end of the output interval are among them. -/
theorem C159_computed {P : Params} {lib : Lib C} {env : Env} {n n' : Node C} {ev : Event} {o : List Out}
    (h : step P lib env n ev = .ok (n', o)) :
    (∀ x ∈ o, ∀ stamp ∈ x.tfStamps, Computed (timeOps P env n ev) stamp) ∧
    ((∃ s f p r c, Out.pose s f p r c ∈ o) →
      .diff n'.loc.localizedLast n.loc.localizedLast ∈ timeOps P env n ev ∧
      .ofSec n'.loc.tolBase ∈ timeOps P env n ev ∧ .shift n.loc.matchLast P.matchOutputInterval ∈ timeOps P env n ev) := by
  by_cases hc : ∃ header msg, ev = .cloud header msg
  · obtain ⟨header, msg, rfl⟩ := hc
    rcases step_cases h with ⟨_, h1 | ⟨b, rfl | ⟨rfl, _⟩⟩⟩ | ⟨_, _, hd, p, acc, outs, _, _, _, _, hl, rfl⟩
    · have hno : o = [] := by
        obtain ⟨_, _, _, _, ⟨_, _, rfl⟩ | ⟨_, acc, c, hcore⟩⟩ := cbCloud_loc h
        · rfl
        · exfalso
          obtain ⟨_, _, ⟨_, _, _, rfl⟩ | ⟨_, hme⟩⟩ := measureCore_ok hcore
          · exact h1 _ List.mem_cons_self
          · generalize n'.loc = loc2 at hme
            cases hme <;> exact h1 _ List.mem_cons_self
      rw [hno]; simp
    · simp [Out.tfStamps]
    · simp [Out.tfStamps, publishStatus]
    · have hmap : n.map.hasMap = true := by
        obtain ⟨_, _, _, _, hcase⟩ := cbCloud_loc h
        rcases hcase with ⟨_, _, e⟩ | ⟨hm, _⟩
        · simp at e
        · exact hm
      have hsub : ∀ x ∈ localizeTimes P env n.odo n.loc header, x ∈ timeOps P env n (.cloud header msg) := by
        intro x hx
        simp only [timeOps, hmap, if_true]
        exact List.mem_flatMap.2 ⟨header, by simp, hx⟩
      obtain ⟨r, _, _, _, _, _, hmo, _, _, _, _, hloc, rfl⟩ := localize_ok hl
      refine ⟨?_, fun _ => ⟨hsub _ ?_, hsub _ ?_, hsub _ ?_⟩⟩
      · intro x hx stamp hs
        have hmm := matchOutput_only hmo
        have c1 : Computed (timeOps P env n (.cloud header msg)) (outStamp P n.odo n.loc.tolBase (env.now 1)) :=
          (stampTimes_computed P n.odo n.loc.tolBase (env.now 1)).mono fun x hx => hsub x (by
            simp only [localizeTimes, List.mem_append]; tauto)
        have c2 : Computed (timeOps P env n (.cloud header msg)) (outStamp P n.odo n.loc.tolBase (env.now 2)) :=
          (stampTimes_computed P n.odo n.loc.tolBase (env.now 2)).mono fun x hx => hsub x (by
            simp only [localizeTimes, List.mem_append]; tauto)
        simp only [List.mem_cons, List.mem_append, List.not_mem_nil, or_false] at hx
        rcases hx with rfl | ((((rfl | hx) | rfl) | hx) | (rfl | rfl))
        · simp [Out.tfStamps] at hs
        · simp [Out.tfStamps] at hs
        · split_ifs at hx
          · rw [List.mem_singleton] at hx
            subst hx
            simp only [Out.tfStamps, transformsOf, List.map_cons, List.map_nil, List.mem_cons, List.not_mem_nil,
              or_false, or_self] at hs
            rw [hs]; exact c1
          · simp at hx
        · simp [Out.tfStamps] at hs
        · obtain ⟨s, l, rfl | rfl⟩ := hmm x hx <;> simp [Out.tfStamps] at hs
        · simp only [Out.tfStamps, publishParticles, List.mem_singleton] at hs
          rw [hs]; exact c2
        · simp [Out.tfStamps, publishStatus] at hs
      · rw [hloc]; simp [localizeTimes]
      · rw [hloc]
        simp only [localizeTimes, List.mem_append, List.mem_cons, List.not_mem_nil, or_false]
        exact .inr (.inr rfl)
      · simp [localizeTimes]
  · have hnp : ¬ ∃ s f p r c, Out.pose s f p r c ∈ o := by
      rintro ⟨s, f, p, r, c, hp⟩
      rcases step_cases h with ⟨_, h1 | ⟨b, rfl | ⟨rfl, _⟩⟩⟩ | ⟨hd, msg, _, _, _, _, rfl, _⟩
      · exact absurd (h1 _ hp) id
      · simp at hp
      · simp [publishStatus] at hp
      · exact hc ⟨_, _, rfl⟩
    refine ⟨?_, fun hp => absurd hp hnp⟩
    have one : ∀ f : Filter, ∀ stamp ∈ (publishParticles P n.odo n.loc.tolBase (env.now 0) f).tfStamps,
        Computed (stampTimes P n.odo n.loc.tolBase (env.now 0)) stamp := by
      intro f stamp hs
      simp only [Out.tfStamps, publishParticles, List.mem_singleton] at hs
      rw [hs]; exact stampTimes_computed ..
    have hsimple : (∀ x ∈ o, x.tfStamps = []) → ∀ x ∈ o, ∀ stamp ∈ x.tfStamps, Computed (timeOps P env n ev) stamp := by
      intro he x hx stamp hs
      rw [he x hx] at hs
      simp at hs
    have hload : ∀ {stamp pts n' o}, loadMapCloud P env n stamp pts = .ok (n', o) → ∀ x ∈ o, x.tfStamps = [] := by
      intro stamp pts n' o h x hx
      obtain ⟨m, hm, _⟩ := loadMapCloud_ok h
      obtain ⟨c, rfl⟩ := mapTimer_kinds hm x hx
      rfl
    cases ev with
    | mapcloud stamp msg =>
      rcases cbMapcloud_ok h with ⟨_, _, rfl⟩ | ⟨_, hl⟩
      · simp
      · exact hsimple (hload hl)
    | mapcloudUpdate msg =>
      simp only [step, Outcome.ok.injEq, Prod.mk.injEq] at h
      simp [← h.2]
    | loadPcd file =>
      rcases cbLoadPcd_ok h with ⟨_, _, rfl⟩ | ⟨pts, o', _, hl, rfl⟩
      · exact hsimple (by simp [Out.tfStamps])
      · refine hsimple fun x hx => ?_
        rcases List.mem_append.1 hx with hx | hx
        · exact hload hl x hx
        · rw [List.mem_singleton.1 hx]; rfl
    | timer =>
      obtain ⟨⟨m, o'⟩, hm, h⟩ := Outcome.bind_eq_ok_iff.1 h
      simp only [Outcome.ok.injEq, Prod.mk.injEq] at h
      rw [← h.2]
      intro x hx stamp hs
      obtain ⟨c, rfl⟩ := mapTimer_kinds hm x hx
      simp [Out.tfStamps] at hs
    | cloud header msg => exact absurd ⟨_, _, rfl⟩ hc
    | odom msg => exact hsimple fun x hx => by rcases (sensor_frame _ h).2.2.2.2.2.2 x hx with rfl | rfl <;> rfl
    | imu msg => exact hsimple fun x hx => by rcases (sensor_frame _ h).2.2.2.2.2.2 x hx with rfl | rfl <;> rfl
    | initialpose msg =>
      rcases cbPosition_ok h with ⟨_, rfl, _⟩ | ⟨_, _, _, _, _, rfl⟩
      · simp
      · intro x hx stamp hs
        rw [List.mem_singleton] at hx
        subst hx
        exact one _ _ hs
    | landmark msg =>
      obtain ⟨_, _, _, rfl⟩ := cbLandmark_ok h
      intro x hx stamp hs
      rw [List.mem_singleton] at hx
      subst hx
      exact one _ _ hs
    | resize size =>
      obtain ⟨_, _, _, rfl⟩ := cbResize_ok h
      intro x hx stamp hs
      simp only [List.mem_cons, List.not_mem_nil, or_false] at hx
      rcases hx with rfl | rfl
      · exact one _ _ hs
      · simp [Out.tfStamps] at hs
    | expansionReset =>
      obtain ⟨_, _, _, rfl⟩ := cbExpansionReset_ok h
      intro x hx stamp hs
      simp only [List.mem_cons, List.not_mem_nil, or_false] at hx
      rcases hx with rfl | rfl
      · exact one _ _ hs
      · simp [Out.tfStamps] at hs
    | globalLocalization =>
      rcases cbGlobalLocalization_ok h with ⟨_, _, rfl⟩ | ⟨_, _, _, _, _, _, _, _, rfl⟩ <;>
        exact hsimple (by simp [Out.tfStamps])
    | reconfigure w =>
      simp only [step, Outcome.ok.injEq, Prod.mk.injEq] at h
      simp [← h.2]

/-- Nothing has been measured: no pose has been published. -/
def NoPose (outs : List (List Out)) : Prop := ∀ o ∈ outs, ∀ x ∈ o, ∀ s f p r c, x ≠ .pose s f p r c

theorem run_first {P : Params} {lib : Lib C} {h : History} {n n' : Node C} {outs : List (List Out)}
    (hn : NoPose outs) (hr : run P lib n h = .ok (n', outs)) : n'.loc.localizedLast = n.loc.localizedLast := by
  induction h generalizing n outs with
  | nil =>
    simp only [run, Outcome.ok.injEq, Prod.mk.injEq] at hr
    rw [hr.1]
  | cons e h ih =>
    obtain ⟨ev, env⟩ := e
    obtain ⟨n1, o, os, h1, h2, rfl⟩ := run_cons_ok hr
    rw [ih (fun o ho => hn o (List.mem_cons_of_mem _ ho)) h2]
    rcases step_cases h1 with ⟨ht, _⟩ | ⟨hd, msg, header, p, acc, outs, _, _, _, _, hl, rfl⟩
    · exact ht.2.2.2.2.2.1
    · exfalso
      obtain ⟨r, _, _, _, _, _, _, _, _, _, _, _, rfl⟩ := localize_ok hl
      exact hn _ (List.mem_cons_self ..) (.pose header.stamp P.mapFrame (r.smooth P n.odo (freshen env n).loc).pos
        (r.smooth P n.odo (freshen env n).loc).rot r.cov) (by simp) _ _ _ _ _ rfl

/-- C159: the first measurement after 19 January 2038 does throw: it subtracts the initial time 0 from the clock. -/
theorem C159_2038 {P : Params} {lib : Lib C} {env0 : Env} {motion0 : Motion ℝ} {h : History} {n0 n n' : Node C}
    {outs : List (List Out)} {o : List Out} (hs : start P lib env0 motion0 = .ok n0)
    (hr : run P lib n0 h = .ok (n, outs)) (hfirst : NoPose outs) {ev : Event} {env : Env}
    (hstep : step P lib env n ev = .ok (n', o)) {s : ℝ} {f : String} {p : Vec3 ℝ} {r : Quat ℝ} {c : ℕ → ℕ → ℝ}
    (hpose : Out.pose s f p r c ∈ o) (hclock : 2 ^ 31 ≤ env.now 3) : ∃ op ∈ timeOps P env n ev, ¬ op.Fits := by
  have hl0 : n.loc.localizedLast = 0 := by
    rw [run_first hfirst hr]
    obtain ⟨_, ns, _, rfl⟩ := start_ok hs
    rfl
  rcases step_cases hstep with ⟨_, h1 | ⟨b, rfl | ⟨rfl, _⟩⟩⟩ | ⟨hd, msg, header, pr, acc, os, rfl, hg, _, _, hl, rfl⟩
  · exact absurd (h1 _ hpose) (by simp [Out.Minor])
  · simp at hpose
  · simp [publishStatus] at hpose
  · obtain ⟨_, _, _, _, hcase⟩ := cbCloud_loc hstep
    have hmap : n.map.hasMap = true := by
      rcases hcase with ⟨_, _, e⟩ | ⟨hm, _⟩
      · simp at e
      · exact hm
    refine ⟨.diff (env.now 3) n.loc.localizedLast, ?_, ?_⟩
    · simp only [timeOps, hmap, if_true]
      refine List.mem_flatMap.2 ⟨hd, by simp, ?_⟩
      simp [localizeTimes]
    · rw [hl0]
      intro hf
      have := hf.2
      linarith

namespace Demo

theorem before {t : ℝ} (h0 : 0 ≤ t) (h1 : t ≤ 4) : ∀ k, Before2038 ((env t).now k) :=
  fun _ => ⟨h0, lt_of_le_of_lt (show t ≤ 4 from h1) (by norm_num)⟩

/-- The hypotheses of `C159_in_range` hold of the default parameters and of the run `pose_runs`. -/
example (m x y : ℝ) (h1 : 1 / 2 ≤ x) (h2 : x ≤ 10) : ∃ n0 n outs, start P0 exactLib (env 0) motion0 = .ok n0 ∧
    run P0 exactLib n0 (poseHistory m x y) = .ok (n, outs) ∧
    (timeOps P0 lastCloud.2 n lastCloud.1 ≠ []) ∧ ∀ op ∈ timeOps P0 lastCloud.2 n lastCloud.1, op.Fits := by
  obtain ⟨n0, n1, n, outs, o, hs, hr, hr', hst, rot, cov, hp, _⟩ := pose_runs m x y h1 h2
  refine ⟨n0, n1, outs, hs, hr, ?_, ?_⟩
  · obtain ⟨_, _, _, _, hcase⟩ := cbCloud_loc hst
    rcases hcase with ⟨_, _, e⟩ | ⟨hm, _⟩
    · rw [e] at hp; simp at hp
    · simp [timeOps, lastCloud, hm, localizeTimes, stampTimes]
  · refine C159_in_range (by norm_num [P0, Params.loadFrom, Server.dblD, Server.getDouble])
      (by norm_num [P0, Params.loadFrom, Server.dblD, Server.getDouble])
      (by norm_num [P0, Params.loadFrom, Server.dblD, Server.getDouble])
      (by norm_num [P0, Params.loadFrom, Server.dblD, Server.getDouble]) hs hr ?_ _ _ (before (by norm_num) le_rfl) ?_
    · intro e he
      simp only [poseHistory, List.mem_cons, List.not_mem_nil, or_false] at he
      rcases he with rfl | rfl | rfl
      · exact ⟨before (by norm_num) (by norm_num), by
          simp only [Event.stamps, List.mem_singleton, forall_eq]; exact ⟨by norm_num, by norm_num⟩⟩
      · exact ⟨before (by norm_num) (by norm_num), by simp [Event.stamps]⟩
      · exact ⟨before (by norm_num) (by norm_num), by
          simp only [Event.stamps, List.mem_singleton, forall_eq]; exact ⟨by norm_num, by norm_num⟩⟩
    · simp only [lastCloud, Event.stamps, List.mem_singleton, forall_eq]; exact ⟨by norm_num, by norm_num⟩

/-- `C159_computed` applied to that run: the measurement computes the time since the epoch. -/
example (m x y : ℝ) (h1 : 1 / 2 ≤ x) (h2 : x ≤ 10) : ∃ n0 n n' outs o, start P0 exactLib (env 0) motion0 = .ok n0 ∧
    run P0 exactLib n0 (poseHistory m x y) = .ok (n, outs) ∧ step P0 exactLib lastCloud.2 n lastCloud.1 = .ok (n', o) ∧
    .diff n'.loc.localizedLast n.loc.localizedLast ∈ timeOps P0 lastCloud.2 n lastCloud.1 := by
  obtain ⟨n0, n1, n, outs, o, hs, hr, hr', hst, rot, cov, hp, _⟩ := pose_runs m x y h1 h2
  exact ⟨n0, n1, n, outs, o, hs, hr, hst, ((C159_computed hst).2 ⟨_, _, _, _, _, hp⟩).1⟩

/-- Those of `C159_parameters`. -/
example : ∀ op ∈ startTimes P0, op.Fits :=
  C159_parameters (by norm_num [P0, Params.loadFrom, Server.dblD, Server.getDouble])
    (by norm_num [P0, Params.loadFrom, Server.dblD, Server.getDouble])
    (by norm_num [P0, Params.loadFrom, Server.dblD, Server.getDouble])
    (by norm_num [P0, Params.loadFrom, Server.dblD, Server.getDouble])
    (by norm_num [P0, Params.loadFrom, Server.dblD, Server.getDouble])
    (by norm_num [P0, Params.loadFrom, Server.dblD, Server.getDouble])

/-- A node started and given its map in time, whose first measurement is made in 2038. -/
example (m x y : ℝ) (h1 : 1 / 2 ≤ x) (h2 : x ≤ 10) : ∃ n0 n outs, start P0 exactLib (env 0) motion0 = .ok n0 ∧
    run P0 exactLib n0 (poseHistory m x y) = .ok (n, outs) ∧
    ∃ op ∈ timeOps P0 (env (2 ^ 31)) n (.cloud ⟨"laser", 4⟩ (msg 10)), ¬ op.Fits := by
  have hx : ∀ x, HasXYZ (msg x) := by simp [HasXYZ, msg]
  have hx2 : ∀ x y, HasXYZ (msg2 x y) := by simp [HasXYZ, msg2]
  obtain ⟨n0, hs, n, outs, hr, hl, _⟩ := exact_runs (poseHistory m x y ++ [(.cloud ⟨"laser", 4⟩ (msg 10), env (2 ^ 31))]) (by
    simp [poseHistory, SafeEvent, hx, hx2, env_valid, keeps])
  obtain ⟨n1, os, o, g1, g2, rfl⟩ := run_snoc_ok hr
  have hv := poseHistory_valid m x y
  obtain ⟨⟨pos, rot, cov, hp⟩, _⟩ := localizes_pts (L := exactLib) hv (poseHistory_regular m x y) (t := 2 ^ 31)
    (regular_msg 10) (usable_msg2 (2 ^ 31) 3 x y h1 h2) hs hr (poseHistory_view m x y)
  have hpm : .pose 3 P0.mapFrame pos rot cov ∈ o := by
    have : Out.pose 3 P0.mapFrame pos rot cov ∈ o.filter (fun x => (Out.poseCov x).isSome) := by rw [hp]; simp
    exact (List.mem_filter.1 this).1
  refine ⟨n0, n1, os, hs, g1, C159_2038 hs g1 ?_ g2 hpm le_rfl⟩
  obtain ⟨a1, o1, os1, k1, r1, rfl⟩ := run_cons_ok g1
  obtain ⟨a2, o2, os2, k2, r2, rfl⟩ := run_cons_ok r1
  obtain ⟨a3, o3, os3, k3, r3, rfl⟩ := run_cons_ok r2
  simp only [run, Outcome.ok.injEq, Prod.mk.injEq] at r3
  obtain ⟨_, rfl⟩ := r3
  obtain ⟨b1, c1, _⟩ := step_batch (start_batch hs) (by simp) k1
  obtain ⟨b2, c2, _⟩ := step_batch b1 (by simp) k2
  obtain ⟨b3, c3, _⟩ := step_batch b2 (by rintro _ _ ⟨⟩; exact regular_msg2 x y) k3
  have c1 := c1 (by simp [batchStep])
  have c2 := c2 (by simp [batchStep])
  have c3 := c3 (by simp [batchStep, mapAvailable, validCloud_msg, not_completes_nil])
  intro o ho z hz s f p r c e
  simp only [List.mem_cons, List.not_mem_nil, or_false] at ho
  rcases ho with rfl | rfl | rfl
  · exact absurd (c1 z hz) (by rw [e]; simp [Out.Minor])
  · exact absurd (c2 z hz) (by rw [e]; simp [Out.Minor])
  · exact absurd (c3 z hz) (by rw [e]; simp [Out.Minor])

end Demo

end Node
end Mcl3dl
