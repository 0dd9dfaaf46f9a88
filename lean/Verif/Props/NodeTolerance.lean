import Verif.Props.NodeStatusDemo
import Verif.Spec.NodeTolerance

/-! # C133: the tolerance of transforms and particles -/

set_option linter.unusedSectionVars false

namespace Mcl3dl
namespace Node

variable {C : Type}

theorem clampDt_eq (dt : ℝ) : clampDt dt = min 1 (max 0 dt) := by
  unfold clampDt
  split_ifs with h1 h2
  · rw [max_eq_right (by linarith), min_eq_left h1.le]
  · rw [max_eq_left h2.le, min_eq_right zero_le_one]
  · rw [max_eq_right (not_lt.1 h2), min_eq_right (not_lt.1 h1)]

/-- The low-pass filter of the rate in closed form. -/
theorem rate_feed (vs : List ℝ) (x prev out : ℝ) (hx : x = -11 * out + prev) :
    (({ (Filt.new .lpf 5 0 false : Filt ℝ) with x := x, out := out }).feed vs).out = runningTolerance out prev vs := by
  induction vs generalizing x prev out with
  | nil => rfl
  | cons v vs ih =>
    simp only [Filt.feed, List.foldl_cons, runningTolerance] at ih ⊢
    rw [← ih (9 / 11 * x - 20 / 11 * v) v _ (by rw [hx]; ring)]
    congr 2
    simp only [Filt.input, Filt.effective, Filt.new, Quat.two]
    rw [hx]
    simp only [Bool.false_eq_true, if_false, Filt.mk.injEq, true_and, and_true]
    constructor <;> norm_num <;> ring

/-- What the node keeps of the past measurements for the tolerance. -/
structure TolInv (ts : List ℝ) (loc : LocSt C) : Prop where
  rate : loc.rate = (Filt.new .lpf 5 0 false).feed (limitedIntervals 0 ts)
  last : loc.localizedLast = ts.getLast?.getD 0
  tol : loc.tolBase = loc.rate.out

theorem limitedIntervals_snoc (l : ℝ) (ts : List ℝ) (t : ℝ) :
    limitedIntervals l (ts ++ [t]) = limitedIntervals l ts ++ [min 1 (max 0 (t - ts.getLast?.getD l))] := by
  induction ts generalizing l with
  | nil => rfl
  | cons a ts ih =>
    simp only [List.cons_append, limitedIntervals, ih, List.cons.injEq, true_and]
    cases ts <;> simp [List.getLast?_cons]

theorem TolInv.value {ts : List ℝ} {loc : LocSt C} (h : TolInv ts loc) :
    loc.tolBase = runningTolerance 0 0 (limitedIntervals 0 ts) := by
  rw [h.tol, h.rate, ← rate_feed _ 0 0 0 (by ring)]
  congr 2
  simp [Filt.new]

theorem step_tol {P : Params} {lib : Lib C} {env : Env} {n n' : Node C} {ev : Event} {o : List Out} {ts : List ℝ}
    (hi : TolInv ts n.loc) (h : step P lib env n ev = .ok (n', o)) :
    TolInv (ts ++ if (o.findSome? Out.poseCov).isSome then [env.now 3] else []) n'.loc := by
  rcases step_cases h with ⟨⟨_, _, h3, h4, _, h6, _⟩, h7⟩ | ⟨_, _, header, p, acc, outs, _, _, _, _, hl, rfl⟩
  · have : (o.findSome? Out.poseCov).isSome = false := by
      rw [Option.isSome_eq_false_iff, Option.isNone_iff_eq_none, List.findSome?_eq_none_iff]
      rcases h7 with h7 | ⟨b, rfl | ⟨rfl, _⟩⟩
      · exact fun x hx => (h7 x hx).cov
      · simp [Out.poseCov]
      · simp [Out.poseCov, publishStatus]
    rw [this]
    simp only [Bool.false_eq_true, if_false, List.append_nil]
    exact ⟨by rw [h3]; exact hi.rate, by rw [h6]; exact hi.last, by rw [h3, h4]; exact hi.tol⟩
  · obtain ⟨r, _, _, _, _, _, hmo, _, _, _, _, hloc, houts⟩ := localize_ok hl
    have hsome : ((Out.batch true :: outs).findSome? Out.poseCov).isSome = true := by
      cases hc : (Out.batch true :: outs).findSome? Out.poseCov with
      | some c => rfl
      | none =>
        rw [List.findSome?_eq_none_iff] at hc
        have := hc _ (by
          rw [houts]
          exact List.mem_cons_of_mem _ (List.mem_append_left _ (List.mem_append_left _
            (List.mem_append_right _ List.mem_cons_self))))
        simp [Out.poseCov] at this
    rw [hsome, if_pos rfl, hloc]
    have e1 : (freshen env n).loc.rate = n.loc.rate := rfl
    have e2 : (freshen env n).loc.localizedLast = n.loc.localizedLast := rfl
    refine ⟨?_, by simp, rfl⟩
    simp only [e1, e2, hi.rate, hi.last, limitedIntervals_snoc, clampDt_eq, Filt.feed, List.foldl_append,
      List.foldl_cons, List.foldl_nil]

theorem run_tol {P : Params} {lib : Lib C} {h : History} {n n' : Node C} {outs : List (List Out)} {ts : List ℝ}
    (hi : TolInv ts n.loc) (hr : run P lib n h = .ok (n', outs)) : TolInv (ts ++ poseTimes h outs) n'.loc := by
  induction h generalizing n outs ts with
  | nil =>
    simp only [run, Outcome.ok.injEq, Prod.mk.injEq] at hr
    obtain ⟨rfl, rfl⟩ := hr
    simpa [poseTimes] using hi
  | cons e h ih =>
    obtain ⟨ev, env⟩ := e
    obtain ⟨n1, o, os, h1, h2, rfl⟩ := run_cons_ok hr
    have := ih (step_tol hi h1) h2
    simpa only [poseTimes, List.append_assoc] using this

/-- C133: after any history and whatever the clock did, the transforms and particles a callback publishes have
the time of the reference odometry message (of the clock, if there is none) plus `tf_tolerance` plus the
running mean of the intervals between the measurements before, each limited to one second. -/
theorem C133_tolerance {P : Params} (hf : P.fakeOdom = false) {lib : Lib C} {env0 : Env} {motion0 : Motion ℝ}
    {h : History} {e : Event × Env} {n0 n : Node C} {outs : List (List Out)} {o : List Out}
    (hs : start P lib env0 motion0 = .ok n0) (hr : run P lib n0 (h ++ [e]) = .ok (n, outs ++ [o]))
    {x : Out} (hx : x ∈ o) {stamp : ℝ} (hst : stamp ∈ x.tfStamps) :
    let tol := runningTolerance 0 0 (limitedIntervals 0 (poseTimes h outs))
    (∀ m, odomRef h = some m → stamp = m.stamp + tol + P.tfTolerance) ∧
      (odomRef h = none → ∃ k, stamp = e.2.now k + tol + P.tfTolerance) := by
  obtain ⟨n1, os, o1, h1, h2, h3⟩ := run_snoc_ok hr
  obtain ⟨e1, ho1⟩ := List.append_inj' h3 rfl
  simp only [List.cons.injEq, and_true] at ho1
  subst ho1 e1
  have ht : TolInv ([] ++ poseTimes h outs) n1.loc := by
    refine run_tol ?_ h1
    obtain ⟨_, ns, _, rfl⟩ := start_ok hs
    exact ⟨rfl, rfl, rfl⟩
  rw [List.nil_append] at ht
  obtain ⟨hi1, hi2, _⟩ : OdoInv P n1.odo (odomRef h) := run_odo hf (odoInv_start hs) h1
  obtain ⟨k, rfl⟩ := step_stamps h2 x hx stamp hst
  rw [ht.value]
  constructor
  · intro m hm
    rw [hm] at hi1
    simp only [Option.isSome_some] at hi1
    rw [outStamp, hi1, (hi2 m hm).1]
    simp
  · intro hn
    rw [hn] at hi1
    simp only [Option.isSome_none] at hi1
    exact ⟨k, by rw [outStamp, hi1]; simp⟩

/-- The intervals are limited, so the tolerance is a mean of values in `[0, 1]` (C94); with intervals of a second
or more it is 31/121 s after one measurement. -/
example : runningTolerance 0 0 (limitedIntervals 0 [100]) = 31 / 121 ∧
    runningTolerance 0 0 (limitedIntervals 0 [100, 100 + 1 / 2]) = 9 / 11 * (31 / 121) + 31 / 121 / 2 - 9 / 121 := by
  constructor <;> norm_num [limitedIntervals, runningTolerance]

/-- C133 applies to the demo run. -/
example : ∃ n0 n outs o t f, start Demo.P0 Demo.exactLib (Demo.env 0) Demo.motion0 = .ok n0 ∧
    run Demo.P0 Demo.exactLib n0 (Demo.poseHistory 10 10 5 ++ [Demo.lastCloud]) = .ok (n, outs ++ [o]) ∧
    .transforms [t, f] ∈ o ∧ t.stamp = 4 + runningTolerance 0 0 (limitedIntervals 0
      (poseTimes (Demo.poseHistory 10 10 5) outs)) + Demo.P0.tfTolerance := by
  obtain ⟨n0, n1, n, outs, o, hs, hr, hr', hst, rot, cov, hp, hrot⟩ :=
    Demo.pose_runs 10 10 5 (by norm_num) (by norm_num)
  obtain ⟨tfs, htf⟩ := (C99_published hst).2
    ⟨by simp [Demo.P0, Params.loadFrom, Server.boolD, Server.getBool], _, _, _, _, _, hp⟩
  obtain ⟨t, f, rfl, _⟩ := C99_consistent (P := Demo.P0) rfl hs hr' hp htf
  obtain ⟨k, hk⟩ := (C133_tolerance (P := Demo.P0) rfl hs hr' htf (stamp := t.stamp) (by simp [Out.tfStamps])).2 rfl
  exact ⟨n0, n, outs, o, t, f, hs, hr', htf, hk⟩

end Node
end Mcl3dl
