import Verif.Proofs.NodeStatus
import Verif.Props.NodeSensors
import Verif.Props.Filter

/-! # What a callback publishes: localizations and everything else -/

namespace Mcl3dl
namespace Node

variable {C : Type}

/-- The members only a localization changes. -/
def LocSt.SameTrack (a b : LocSt C) : Prop :=
  a.fPos = b.fPos ∧ a.fAng = b.fAng ∧ a.rate = b.rate ∧ a.tolBase = b.tolBase ∧ a.statePrev = b.statePrev ∧
    a.localizedLast = b.localizedLast ∧ a.matchLast = b.matchLast

/-- A callback localizes, or it publishes nothing of a localization and keeps its state. -/
theorem step_cases {P : Params} {lib : Lib C} {env : Env} {n n' : Node C} {ev : Event} {o : List Out}
    (h : step P lib env n ev = .ok (n', o)) :
    (n'.loc.SameTrack n.loc ∧
      ((∀ x ∈ o, x.Minor) ∨ ∃ b, o = [.batch b] ∨
        (o = [.batch b, publishStatus { (freshen env n).loc.status with error := .pointsNotFound } n.loc.pf] ∧
          n'.loc.pf = n.loc.pf))) ∨
    ∃ hd msg header p acc outs, ev = .cloud hd msg ∧ acc.headers.getLast? = some header ∧
      prepare P lib env acc (freshen env n).loc header = .ok (.ready p) ∧
      p.likePc ≠ [] ∧ localize P lib env n.map n.odo n.stdWarn (freshen env n).loc header p = .ok (n'.loc, outs) ∧
      o = .batch true :: outs := by
  by_cases hc : ∃ header msg, ev = .cloud header msg
  · obtain ⟨header, msg, rfl⟩ := hc
    obtain ⟨_, _, _, hw, hcase⟩ := cbCloud_loc h
    rcases hcase with ⟨hl, hcnt, rfl⟩ | ⟨hm, acc, c, hcore⟩
    · left
      rw [hl]
      exact ⟨⟨rfl, rfl, rfl, rfl, rfl, rfl, rfl⟩, .inl (by simp)⟩
    obtain ⟨hs, hcnt, hk⟩ := measureCore_ok hcore
    generalize hloc2 : n'.loc = loc2 at hk
    rcases hk with ⟨hk, _, rfl, rfl⟩ | ⟨hk, hme⟩
    · left
      exact ⟨⟨rfl, rfl, rfl, rfl, rfl, rfl, rfl⟩, .inr ⟨false, .inl rfl⟩⟩
    cases hme with
    | noHeader _ => exact .inl (by exact ⟨⟨rfl, rfl, rfl, rfl, rfl, rfl, rfl⟩, .inr ⟨true, .inl rfl⟩⟩)
    | noTf _ _ _ => exact .inl (by exact ⟨⟨rfl, rfl, rfl, rfl, rfl, rfl, rfl⟩, .inr ⟨true, .inl rfl⟩⟩)
    | noOrigin _ _ _ _ => exact .inl (by exact ⟨⟨rfl, rfl, rfl, rfl, rfl, rfl, rfl⟩, .inr ⟨true, .inl rfl⟩⟩)
    | noPoints _ p _ _ _ =>
      exact .inl (by exact ⟨⟨rfl, rfl, rfl, rfl, rfl, rfl, rfl⟩, .inr ⟨true, .inr ⟨rfl, rfl⟩⟩⟩)
    | localized hd p _ outs h1 h2 h3 hl =>
      subst hloc2
      exact .inr ⟨header, msg, hd, p, acc, outs, rfl, h1, h2, h3, hl, rfl⟩
  · push Not at hc
    obtain ⟨hl, _⟩ := step_loc h hc
    left
    rw [hl]
    exact ⟨⟨rfl, rfl, rfl, rfl, rfl, rfl, rfl⟩, .inl (step_minor h hc)⟩

/-- The filters behind the published transform and its time. -/
structure SmoothInv (P : Params) (loc : LocSt C) : Prop where
  pos : ∃ cs : List FiltVec3.Call,
    loc.fPos = cs.foldl FiltVec3.call (FiltVec3.new .lpf ⟨P.lpfStep, P.lpfStep, P.lpfStep⟩ 0 false)
  ang : ∃ cs : List FiltVec3.Call,
    loc.fAng = cs.foldl FiltVec3.call (FiltVec3.new .lpf ⟨P.lpfStep, P.lpfStep, P.lpfStep⟩ 0 true)
  rate : ∃ vs : List ℝ, (∀ v ∈ vs, 0 ≤ v ∧ v ≤ 1) ∧ loc.rate = (Filt.new .lpf 5 0 false).feed vs
  tol : loc.tolBase = loc.rate.get

theorem clampDt_bounds (dt : ℝ) : 0 ≤ clampDt dt ∧ clampDt dt ≤ 1 := by
  unfold clampDt
  split_ifs with h1 h2
  · exact ⟨zero_le_one, le_rfl⟩
  · exact ⟨le_rfl, zero_le_one⟩
  · exact ⟨not_lt.1 h2, not_lt.1 h1⟩

theorem step_smooth {P : Params} {lib : Lib C} {env : Env} {n n' : Node C} {ev : Event} {o : List Out}
    (hi : SmoothInv P n.loc) (h : step P lib env n ev = .ok (n', o)) : SmoothInv P n'.loc := by
  rcases step_cases h with ⟨⟨h1, h2, h3, h4, _⟩, _⟩ | ⟨_, _, header, p, acc, outs, _, _, _, _, hl, _⟩
  · exact ⟨by rw [h1]; exact hi.pos, by rw [h2]; exact hi.ang, by rw [h3]; exact hi.rate,
      by rw [h3, h4]; exact hi.tol⟩
  · obtain ⟨r, _, _, _, _, _, _, _, _, _, _, hloc, _⟩ := localize_ok hl
    rw [hloc]
    obtain ⟨cs, hcs⟩ := hi.pos
    obtain ⟨ds, hds⟩ := hi.ang
    obtain ⟨vs, hvs, hr⟩ := hi.rate
    have e1 : (freshen env n).loc.fPos = n.loc.fPos := rfl
    have e2 : (freshen env n).loc.fAng = n.loc.fAng := rfl
    have e3 : (freshen env n).loc.rate = n.loc.rate := rfl
    refine ⟨?_, ?_, ?_, rfl⟩
    · simp only [LocRun.smooth, smooth, e1, hcs]
      cases (r.jump P (freshen env n).loc).1 with
      | false => exact ⟨cs ++ [.input _], by rw [List.foldl_append]; rfl⟩
      | true => exact ⟨cs ++ [.set _, .input _], by rw [List.foldl_append]; rfl⟩
    · simp only [LocRun.smooth, smooth, e2, hds]
      cases (r.jump P (freshen env n).loc).1 with
      | false => exact ⟨ds ++ [.input _], by rw [List.foldl_append]; rfl⟩
      | true => exact ⟨ds ++ [.set _, .input _], by rw [List.foldl_append]; rfl⟩
    · refine ⟨vs ++ [clampDt (env.now 3 - n.loc.localizedLast)], ?_, ?_⟩
      · intro v hv
        rcases List.mem_append.1 hv with hv | hv
        · exact hvs v hv
        · rw [List.mem_singleton.1 hv]; exact clampDt_bounds _
      · simp only [e3, hr, Filt.feed, List.foldl_append]
        rfl

theorem start_smooth {P : Params} {lib : Lib C} {env : Env} {motion0 : Motion ℝ} {n : Node C}
    (h : start P lib env motion0 = .ok n) : SmoothInv P n.loc := by
  obtain ⟨_, ns, _, rfl⟩ := start_ok h
  exact ⟨⟨[], rfl⟩, ⟨[], rfl⟩, ⟨[], by simp, rfl⟩, rfl⟩

theorem run_smooth {P : Params} {lib : Lib C} {h : History} {n n' : Node C}
    {outs : List (List Out)} (hi : SmoothInv P n.loc) (hr : run P lib n h = .ok (n', outs)) : SmoothInv P n'.loc := by
  induction h generalizing n outs with
  | nil =>
    simp only [run, Outcome.ok.injEq, Prod.mk.injEq] at hr
    exact hr.1 ▸ hi
  | cons e h ih =>
    obtain ⟨ev, env⟩ := e
    obtain ⟨n1, o, os, h1, h2, _⟩ := run_cons_ok hr
    exact ih (step_smooth hi h1) h2

/-- The tolerance is between 0 and 1 second. -/
theorem SmoothInv.tolerance {P : Params} {loc : LocSt C} (h : SmoothInv P loc) : 0 ≤ loc.tolBase ∧ loc.tolBase ≤ 1 := by
  obtain ⟨vs, hvs, hr⟩ := h.rate
  rw [h.tol, hr]
  exact Filt.C47_no_overshoot 5 0 0 1 (by norm_num) (by norm_num) vs hvs

theorem reachable_smooth {P : Params} {lib : Lib C} {n : Node C} (hn : Reachable P lib n) : SmoothInv P n.loc :=
  reachable_inv (I := fun n => SmoothInv P n.loc) (fun _ _ _ _ h => start_smooth h)
    (fun _ _ _ _ _ hi _ h => step_smooth hi h) hn

/-- The pose of the last odometry message. -/
theorem run_odom {P : Params} (hf : P.fakeOdom = false) {lib : Lib C} {h : History} {n n' : Node C}
    {outs : List (List Out)} (hr : run P lib n h = .ok (n', outs)) :
    n'.odo.odom = (((odomMsgs h).getLast?).map OdomMsg.pose).getD n.odo.odom := by
  induction h generalizing n outs with
  | nil =>
    simp only [run, Outcome.ok.injEq, Prod.mk.injEq] at hr
    rw [← hr.1]; rfl
  | cons e h ih =>
    obtain ⟨ev, env⟩ := e
    obtain ⟨n1, o, os, h1, h2, _⟩ := run_cons_ok hr
    rw [ih h2]
    by_cases ho : ∃ m, ev = .odom m
    · obtain ⟨m, rfl⟩ := ho
      rw [odomMsgs_cons_odom, List.getLast?_cons]
      have e1 : n1.odo.odom = m.pose := by
        rw [(step_odom hf h1).1]
        unfold odomCore
        simp only
        split_ifs <;> rfl
      rw [e1]
      cases (odomMsgs h).getLast? <;> rfl
    · push Not at ho
      rw [odomMsgs_cons_other ho]
      have e1 : n1.odo = n.odo := by
        by_cases him : ∃ m, ev = .imu m
        · obtain ⟨m, rfl⟩ := him
          exact (step_imu_keeps hf h1).2.1
        · push Not at him
          exact (step_odo h1 ho him).1
      rw [e1]

end Node
end Mcl3dl
