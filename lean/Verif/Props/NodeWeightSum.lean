import Verif.Props.NodeUnit
import Verif.Props.NodeWeights

/-! # C115: when the weights do not sum to one -/

set_option linter.unusedSectionVars false

namespace Mcl3dl
namespace Node

variable {C : Type}

/-- Equal weights of a filter of this size. -/
theorem uniform_sum {f : Filter} (hne : f.particles ≠ [])
    (h : ∀ q ∈ f.particles, q.prob = 1 / (f.particles.length : ℝ)) : (f.particles.map PF.Particle.prob).sum = 1 :=
  (uniform_weighted (ok := fun x => x = 1) rfl rfl h).2 hne

/-- C115: a callback that publishes the particles, other than the expansion request, leaves equal weights that sum
to one. -/
theorem C115_published {P : Params} {lib : Lib C} {env : Env} (hv : env.Valid) {n n' : Node C} {ev : Event}
    {o : List Out} (h : step P lib env n ev = .ok (n', o)) {stamp : ℝ} {poses : List (Vec3 ℝ × Quat ℝ)}
    (hp : .particles stamp poses ∈ o) (hev : ev ≠ .expansionReset) (hne : n'.loc.pf.particles ≠ []) :
    weightSum n' = 1 ∧ ∀ q ∈ n'.loc.pf.particles, q.prob = 1 / (n'.loc.pf.particles.length : ℝ) := by
  suffices hq : ∀ q ∈ n'.loc.pf.particles, q.prob = 1 / (n'.loc.pf.particles.length : ℝ) from
    ⟨uniform_sum hne hq, hq⟩
  cases ev with
  | mapcloud stamp msg =>
    rcases cbMapcloud_ok h with ⟨_, rfl, rfl⟩ | ⟨_, hl⟩
    · simp at hp
    · obtain ⟨l, e⟩ := load_outs hl _ hp; cases e
  | mapcloudUpdate msg =>
    simp only [step, Outcome.ok.injEq, Prod.mk.injEq] at h
    rw [← h.2] at hp; simp at hp
  | loadPcd file =>
    rcases cbLoadPcd_ok h with ⟨_, rfl, rfl⟩ | ⟨_, _, _, hl, rfl⟩
    · simp at hp
    · rcases List.mem_append.1 hp with hp | hp
      · obtain ⟨l, e⟩ := load_outs hl _ hp; cases e
      · simp at hp
  | timer =>
    obtain ⟨r, h1, h⟩ := Outcome.bind_eq_ok_iff.1 h
    simp only [Outcome.ok.injEq, Prod.mk.injEq] at h
    rw [← h.2] at hp
    obtain ⟨l, e⟩ := mapTimer_outs h1 _ hp; cases e
  | cloud header msg =>
    rcases step_cases h with ⟨_, h4 | ⟨b, rfl | ⟨rfl, _⟩⟩⟩ | ⟨_, _, hd, p, acc, outs', _, _, _, _, hl, rfl⟩
    · obtain ⟨_, _, _, _, hcase⟩ := cbCloud_loc h
      rcases hcase with ⟨_, _, rfl⟩ | ⟨_, acc, c, hcore⟩
      · simp at hp
      obtain ⟨_, _, ⟨_, _, _, ho⟩ | ⟨_, hme⟩⟩ := measureCore_ok hcore
      · rw [ho] at hp; simp at hp
      generalize n'.loc = loc2 at hme
      cases hme <;> exact absurd (h4 (.batch true) (by simp)) id
    · simp at hp
    · simp [publishStatus] at hp
    exact localize_equal hv hl
  | odom msg => rcases sensor_outs _ h _ hp with e | e <;> cases e
  | imu msg => rcases sensor_outs _ h _ hp with e | e <;> cases e
  | initialpose msg =>
    rcases cbPosition_ok h with ⟨rfl, rfl, _⟩ | ⟨_, t, st, _, rfl, _⟩
    · simp at hp
    · have e := predict_prob (n.loc.pf.init st) resetInteg
      have hl : ((n.loc.pf.init st).predict resetInteg).particles.length = n.loc.pf.particles.length := by
        simp [PF.Filter.predict, PF.Filter.init]
      show ∀ q ∈ ((n.loc.pf.init st).predict resetInteg).particles, q.prob =
        1 / (((n.loc.pf.init st).predict resetInteg).particles.length : ℝ)
      rw [hl]
      refine same_prob e fun p hp => ?_
      simp only [PF.Filter.init, List.mem_mapIdx] at hp
      obtain ⟨i, hi, rfl⟩ := hp
      rfl
  | landmark msg =>
    obtain ⟨pf, h2, rfl, _⟩ := cbLandmark_ok h
    obtain ⟨hl, hp⟩ := resampleFilter_uniform hv h2
    show ∀ q ∈ pf.particles, q.prob = 1 / (pf.particles.length : ℝ)
    rw [hl]; exact hp
  | resize size =>
    obtain ⟨pf, h2, rfl, _⟩ := cbResize_ok h
    obtain ⟨_, hl, _, _, hp⟩ := resizeFilter_spec hv h2
    rw [← hl] at hp
    exact hp
  | expansionReset => exact absurd rfl hev
  | globalLocalization =>
    rcases cbGlobalLocalization_ok h with ⟨_, rfl, rfl⟩ | ⟨_, c, pf, ps, _, h1, h2, rfl, rfl⟩ <;> simp at hp
  | reconfigure w =>
    simp only [step, Outcome.ok.injEq, Prod.mk.injEq] at h
    rw [← h.2] at hp; simp at hp

theorem run_length {P : Params} {lib : Lib C} {h : History} {n n' : Node C} {outs : List (List Out)}
    (hr : run P lib n h = .ok (n', outs)) : outs.length = h.length := by
  induction h generalizing n outs with
  | nil =>
    simp only [run, Outcome.ok.injEq, Prod.mk.injEq] at hr
    rw [← hr.2]; rfl
  | cons e h ih =>
    obtain ⟨ev, env⟩ := e
    obtain ⟨_, _, os, _, hr', rfl⟩ := run_cons_ok hr
    simp [ih hr']

/-- C115: if after a history the weights do not sum to one, global localization was requested and accepted at some
point, and since then the particles have been published by expansion requests only: no pose, initial pose, landmark
or resize request has come in between. -/
theorem C115_since {P : Params} (hd : 0 < P.divYaw) {lib : Lib C} {env0 : Env} {motion0 : Motion ℝ} {h : History}
    (hv : HistValid h) {n0 n : Node C} {outs : List (List Out)} (hs : start P lib env0 motion0 = .ok n0)
    (hr : run P lib n0 h = .ok (n, outs)) (hne : n.loc.pf.particles ≠ []) (h1 : weightSum n ≠ 1) :
    ∃ (before after : List ((Event × Env) × List Out)) (env : Env),
      h.zip outs = before ++ ((.globalLocalization, env), [.response true]) :: after ∧
      ∀ e ∈ after, ∀ stamp poses, .particles stamp poses ∈ e.2 → e.1.1 = .expansionReset := by
  induction h using List.reverseRecOn generalizing n outs with
  | nil =>
    simp only [run, Outcome.ok.injEq, Prod.mk.injEq] at hr
    obtain ⟨_, ns, _, e⟩ := start_ok hs
    rw [← hr.1, e] at h1 hne
    exact absurd ((init_weighted (ok := fun x => x = 1) rfl _ _).2 hne) h1
  | append_singleton h e ih =>
    obtain ⟨ev, env⟩ := e
    obtain ⟨m, os, o, hr1, hst, rfl⟩ := run_snoc_ok hr
    have hvh : HistValid h := fun e he => hv e (List.mem_append_left _ he)
    have hve : env.Valid := hv (ev, env) (by simp)
    have hlen : h.length = os.length := (run_length hr1).symm
    have hzip : (h ++ [(ev, env)]).zip (os ++ [o]) = h.zip os ++ [((ev, env), o)] := by
      rw [List.zip_append hlen]; rfl
    -- the callback did not start a new period
    have extend : (m.loc.pf.particles ≠ [] ∧ weightSum m ≠ 1) →
        (∀ stamp poses, .particles stamp poses ∈ o → ev = .expansionReset) →
        ∃ (before after : List ((Event × Env) × List Out)) (env' : Env),
          (h ++ [(ev, env)]).zip (os ++ [o]) = before ++ ((.globalLocalization, env'), [.response true]) :: after ∧
          ∀ e ∈ after, ∀ stamp poses, .particles stamp poses ∈ e.2 → e.1.1 = .expansionReset := by
      rintro ⟨hm1, hm2⟩ hpub
      obtain ⟨b, a, env', e1, e2⟩ := ih hvh hr1 hm1 hm2
      refine ⟨b, a ++ [((ev, env), o)], env', by rw [hzip, e1]; simp, fun e he => ?_⟩
      rcases List.mem_append.1 he with he | he
      · exact e2 e he
      · obtain rfl := List.mem_singleton.1 he
        exact hpub
    by_cases hg : ev = .globalLocalization
    · subst hg
      rcases cbGlobalLocalization_ok hst with ⟨_, rfl, rfl⟩ | ⟨_, _, _, _, _, _, _, _, rfl⟩
      · exact extend ⟨hne, h1⟩ (by simp)
      · exact ⟨h.zip os, [], env, hzip, by simp⟩
    · refine extend ?_ ?_
      · by_contra hcon
        have hm0 : ∀ p ∈ m.loc.pf.particles, 0 ≤ p.prob := by
          exact (C115_weights hd hvh hs hr1).1
        have hW : Weighted (fun x => x = 1) m.loc.pf := ⟨hm0, fun h3 => by
          by_contra h4; exact hcon ⟨h3, h4⟩⟩
        exact h1 ((step_weights hve hst hg (ok := fun x => x = 1) rfl hW).2 hne)
      · intro stamp poses hp
        by_contra hex
        exact h1 (C115_published hve hst hp hex hne).1

/-- C115 applied: after the request of `C96_sum_example` the weights sum to 12; the period found is the one this
request starts. -/
example : ∃ n0 n' outs, start Demo.P0 Demo.exactLib (Demo.env 0) Demo.motion0 = .ok n0 ∧
    run Demo.P0 Demo.exactLib n0 (Demo.globalHistory ++ [(.globalLocalization, Demo.env 3)]) = .ok (n', outs) ∧
    weightSum n' = 12 ∧
    ∃ (before after : List ((Event × Env) × List Out)) (env : Env),
      (Demo.globalHistory ++ [(Event.globalLocalization, Demo.env 3)]).zip outs =
        before ++ ((.globalLocalization, env), [.response true]) :: after ∧
      ∀ e ∈ after, ∀ stamp poses, .particles stamp poses ∈ e.2 → e.1.1 = .expansionReset := by
  obtain ⟨n0, n, n', outs, h0, h1, h2, h3, h4⟩ := C96_sum_example
  have hr : run Demo.P0 Demo.exactLib n0 (Demo.globalHistory ++ [(.globalLocalization, Demo.env 3)]) =
      .ok (n', outs ++ [[.response true]]) := by
    rw [run_append, h1]
    simp only [Outcome.bind_ok, run, h2]
  refine ⟨n0, n', _, h0, hr, h3, C115_since (by simp [Demo.P0_divYaw])
    (fun e he => (Demo.globalHistory_ok e he).1) h0 hr ?_ h4⟩
  rintro hnil
  exact absurd (by rw [weightSum, hnil]; rfl : weightSum n' = 0) (by rw [h3]; norm_num)

/-- C115 applied: a resize request is a callback that publishes the particles. -/
example (P : Params) (lib : Lib C) (env : Env) (hv : env.Valid) {n n' : Node C} {o : List Out}
    (h : step P lib env n (.resize 3) = .ok (n', o)) : weightSum n' = 1 ∧ ∀ q ∈ n'.loc.pf.particles, q.prob = 1 / 3 := by
  obtain ⟨pf, h2, rfl, rfl⟩ := cbResize_ok h
  obtain ⟨_, hl, _⟩ := resizeFilter_spec hv h2
  have hne : pf.particles ≠ [] := by
    rintro e; rw [e] at hl; simp at hl
  obtain ⟨a, b⟩ := C115_published hv h (List.mem_cons_self : publishParticles P n.odo n.loc.tolBase (env.now 0) pf ∈ _)
    (by simp) hne
  refine ⟨a, fun q hq => ?_⟩
  rw [b q hq]
  show (1 : ℝ) / (pf.particles.length : ℝ) = 1 / 3
  rw [hl]; rfl

end Node
end Mcl3dl
