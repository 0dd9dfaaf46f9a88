import Verif.Props.NodeEntropy
import Verif.Props.NodeStatus

/-! # C89, C91 - C94, C98, C99, C101 on the demo run -/

set_option linter.unusedSectionVars false

namespace Mcl3dl
namespace Node

variable {C : Type}

theorem measurements_snoc {P : Params} (h0 : 0 ≤ P.numParticles) {lib : Lib C} {h : History} (hv : HistValid h)
    {n n1 : Node C} {outs : List (List Out)} (hr : run P lib n h = .ok (n1, outs)) (e : Event × Env) (o : List Out) :
    measurements n.stdWarn (h ++ [e]) (outs ++ [o]) = measurements n.stdWarn h outs ++ (shown n1.stdWarn o).toList := by
  induction h generalizing n outs with
  | nil =>
    simp only [run, Outcome.ok.injEq, Prod.mk.injEq] at hr
    obtain ⟨rfl, rfl⟩ := hr
    simp [measurements]
  | cons e1 h ih =>
    obtain ⟨n2, o2, os, h1, h2, rfl⟩ := run_cons_ok hr
    have hw := (step_view h0 (hv e1 (by simp)) h1).warn
    simp only [List.cons_append, measurements, List.append_assoc, List.append_cancel_left_eq]
    rw [← hw]
    exact ih (fun e he => hv e (by simp [he])) h2

theorem Demo.poseHistory_valid' (m x y : ℝ) : HistValid (Demo.poseHistory m x y ++ [Demo.lastCloud]) := by
  intro e he
  rcases List.mem_append.1 he with he | he
  · exact Demo.poseHistory_valid m x y e he
  · rw [List.mem_singleton.1 he]; exact Demo.env_valid 4

/-- Nothing is measured before the last cloud. -/
theorem Demo.pose_quiet {L : Lib C} {m x y : ℝ} {n0 n1 : Node C} {outs : List (List Out)}
    (hs : start Demo.P0 L (Demo.env 0) Demo.motion0 = .ok n0)
    (hr : run Demo.P0 L n0 (Demo.poseHistory m x y) = .ok (n1, outs)) : ∀ o' ∈ outs, ∀ x ∈ o', x.Minor := by
  obtain ⟨n2, o1, os, h1, r1, e1⟩ := run_cons_ok hr
  obtain ⟨n3, o2, os2, h2, r2, e2⟩ := run_cons_ok r1
  obtain ⟨n4, o3, os3, h3, r3, e3⟩ := run_cons_ok r2
  simp only [run, Outcome.ok.injEq, Prod.mk.injEq] at r3
  obtain ⟨rfl, r4⟩ := r3
  rw [e1, e2, e3, ← r4]
  have b0 := start_batch hs
  obtain ⟨b1, q1, _⟩ := step_batch b0 (by simp) h1
  obtain ⟨b2, q2, _⟩ := step_batch b1 (by simp) h2
  obtain ⟨_, q3, _⟩ := step_batch b2 (by rintro _ _ ⟨⟩; exact Demo.regular_msg2 x y) h3
  intro o' ho'
  simp only [List.mem_cons, List.not_mem_nil, or_false] at ho'
  rcases ho' with rfl | rfl | rfl
  · exact q1 (by simp [batchStep])
  · exact q2 (by simp [batchStep])
  · exact q3 (by simp [batchStep, mapAvailable, Demo.validCloud_msg, Demo.not_completes_nil])

/-- The demo run has one batch and one measurement, of 65 particles. -/
theorem Demo.pose_measured {L : Lib C} {m x y : ℝ} {n0 n1 n : Node C} {outs : List (List Out)} {o : List Out}
    (hs : start Demo.P0 L (Demo.env 0) Demo.motion0 = .ok n0)
    (hr : run Demo.P0 L n0 (Demo.poseHistory m x y) = .ok (n1, outs))
    (hr' : run Demo.P0 L n0 (Demo.poseHistory m x y ++ [Demo.lastCloud]) = .ok (n, outs ++ [o]))
    (hst : step Demo.P0 L Demo.lastCloud.2 n1 Demo.lastCloud.1 = .ok (n, o))
    (hp : ∃ stamp frame pos rot cov, .pose stamp frame pos rot cov ∈ o) :
    batches (outs ++ [o]) = [true] ∧
      ∃ s, measurements Demo.P0.stdWarn (Demo.poseHistory m x y ++ [Demo.lastCloud]) (outs ++ [o]) = [s] ∧
        s.count = 65 := by
  have hv := Demo.poseHistory_valid m x y
  have hw0 : n0.stdWarn = Demo.P0.stdWarn := by obtain ⟨_, ns, _, rfl⟩ := start_ok hs; rfl
  have hquiet := Demo.pose_quiet hs hr
  have hb : batches outs = [] := by
    simp only [batches, List.filterMap_eq_nil_iff, List.mem_flatten]
    rintro a ⟨l, hl, ha⟩
    have := hquiet l hl a ha
    cases a <;> first | rfl | exact absurd this id
  have hms : ∀ (w : Vec3 ℝ) (h : History) (os : List (List Out)), (∀ o' ∈ os, ∀ x ∈ o', x.Minor) →
      measurements w h os = [] := by
    intro w h
    induction h generalizing w with
    | nil => intro os _; rfl
    | cons e h ih =>
      intro os hos
      cases os with
      | nil => rfl
      | cons o' os =>
        simp only [measurements]
        rw [shown_none fun x hx => (hos o' (by simp) x hx).cov, ih _ os fun o'' ho => hos o'' (by simp [ho])]
        rfl
  have V := step_view (P := Demo.P0) (by simp) (Demo.env_valid 4) hst
  have hbt := (C89_skipped_is_silent (P := Demo.P0) (Demo.env_valid 4) (by simp) hst).2 hp
  have hbo : batches [o] = [true] := by
    rcases V.batch with ⟨hb0, _⟩ | ⟨_, _, ⟨_, ho⟩ | ⟨_, h⟩⟩
    · exfalso
      simp only [batches, List.flatten_cons, List.flatten_nil, List.append_nil, List.filterMap_eq_nil_iff] at hb0
      have := hb0 _ hbt
      simp [Out.batchOf] at this
    · rw [ho] at hbt; simp at hbt
    · exact h
  refine ⟨?_, ?_⟩
  · have : batches (outs ++ [o]) = batches outs ++ batches [o] := by simp [batches]
    rw [this, hb, hbo]; rfl
  · rw [← hw0, measurements_snoc (by simp) hv hr, hms _ _ _ hquiet]
    rcases V.shown with ⟨hno, _⟩ | ⟨s, fix, hsome, _, hc, _⟩
    · exfalso
      rcases step_cases hst with ⟨_, h4⟩ | ⟨_, _, hd, p, acc, outs', _, _, _, _, hl, h4⟩
      · obtain ⟨_, _, _, _, _, hpm⟩ := hp
        rcases h4 with h4 | ⟨b, h4 | ⟨h4, _⟩⟩
        · exact absurd (h4 _ hpm) id
        · rw [h4] at hpm; simp at hpm
        · rw [h4] at hpm; simp [publishStatus] at hpm
      · obtain ⟨r, _, _, _, _, _, hmo, _, _, _, _, _, ho⟩ := localize_ok hl
        have := (localized_outs (P := Demo.P0) (warn := n1.stdWarn) (matchOutput_only hmo)
          (congrArg (Out.batch true :: ·) ho)).1
        rw [← h4, hno] at this
        cases this
    · refine ⟨s, by rw [hsome]; rfl, ?_⟩
      rw [hc, (Demo.poseHistory_run hs hr).1]

/-- C89 - C94, C98 and C99 are not empty: a run with the default parameters whose only batch is measured (C89); the
measurement has 65 particles where 64 are configured, publishes 64 (C91), is in the period of global localization
and reports it (C92), and no measurement before put it there (C93); the pose is at the origin (C98), the
transforms are published with it (C99) with the clock plus a tolerance (C94). -/
example : ∃ n0 n outs o s, start Demo.P0 Demo.exactLib (Demo.env 0) Demo.motion0 = .ok n0 ∧
    run Demo.P0 Demo.exactLib n0 (Demo.poseHistory 10 10 5 ++ [Demo.lastCloud]) = .ok (n, outs ++ [o]) ∧
    batches (outs ++ [o]) = [true] ∧
    measurements Demo.P0.stdWarn (Demo.poseHistory 10 10 5 ++ [Demo.lastCloud]) (outs ++ [o]) = [s] ∧
    s.count = 65 ∧ s.status.particleSize = 64 ∧ inGlobalPeriod Demo.P0 [s] 0 ∧ ¬ stillGlobal Demo.P0 [s] 0 ∧
    s.status.status = .globalLocalization ∧ (s.status.convergence = .largeStd ↔ s.large) ∧
    (∃ rot cov, .pose 3 Demo.P0.mapFrame 0 rot cov ∈ o) ∧
    ∃ t f, .transforms [t, f] ∈ o ∧ t.tf.point 0 = 0 ∧
      ∃ tol, 0 ≤ tol ∧ tol ≤ 1 ∧ t.stamp = 4 + tol + Demo.P0.tfTolerance := by
  obtain ⟨n0, n1, n, outs, o, hs, hr, hr', hst, rot, cov, hp, hrot⟩ :=
    Demo.pose_runs 10 10 5 (by norm_num) (by norm_num)
  have hv := Demo.poseHistory_valid' 10 10 5
  obtain ⟨hb, s, hms, hc⟩ := Demo.pose_measured hs hr hr' hst ⟨_, _, _, _, _, hp⟩
  have hN : Demo.P0.numParticles = 64 := by
    simp [Demo.P0, Params.loadFrom, Server.intD, Server.getInt]
  have h91 := ((C91_one hv hs hr') s (by rw [hms]; simp)).2 (by rw [hc, hN]; norm_num)
  have hin : inGlobalPeriod Demo.P0 [s] 0 := ⟨0, s, le_refl _, by omega, rfl, by rw [hc, hN]; norm_num⟩
  have hst0 : ¬ stillGlobal Demo.P0 [s] 0 := by rintro ⟨j, _, hj, _⟩; omega
  have h92 := (C92_status hv hs hr' hms.symm (i := 0) (s := s) rfl).1
  have h93 := (C93_convergence hv hs hr' hms.symm (i := 0) (s := s) rfl).1
  have htf : ∃ tfs, .transforms tfs ∈ o := (C99_published hst).2
    ⟨by simp [Demo.P0, Params.loadFrom, Server.boolD, Server.getBool], _, _, _, _, _, hp⟩
  obtain ⟨tfs, htf⟩ := htf
  obtain ⟨t, f, rfl, _, _, hpos, _⟩ := C99_consistent (P := Demo.P0) rfl hs hr' hp htf
  obtain ⟨tol, ht0, ht1, hall⟩ := C94_tolerance (P := Demo.P0) rfl hs hr'
  refine ⟨n0, n, outs, o, s, hs, hr', hb, hms, hc, by rw [h91.1, hc, hN]; rfl, hin, hst0, h92.2 hin,
    ⟨fun h => (h93.1 h).2, fun h => h93.2 ⟨hst0, h⟩⟩, ⟨rot, cov, hp⟩, t, f, htf, ?_, tol, ht0, ht1, ?_⟩
  · exact hpos.symm
  · obtain ⟨k, hk⟩ := (hall _ htf t.stamp (by simp [Out.tfStamps])).2 rfl
    rw [hk]
    rfl

end Node
end Mcl3dl
