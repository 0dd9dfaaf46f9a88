import Verif.Proofs.NodeStatus
import Verif.Props.NodeSafe

/-! # C89, C91, C92, C93: which batches are measured, particle counts and status -/

set_option linter.unusedSectionVars false

namespace Mcl3dl
namespace Node

variable {C : Type}

/-! ## C89 -/

theorem run_batches {P : Params} (h0 : 0 ≤ P.numParticles) {lib : Lib C} {h : History} (hv : HistValid h)
    {n n' : Node C} {outs : List (List Out)} (hr : run P lib n h = .ok (n', outs)) {c : ℕ} (hc : n.cnt = c % 2 ^ 64) :
    n'.cnt = (c + (batches outs).length) % 2 ^ 64 ∧
    ∀ k b, (batches outs)[k]? = some b → Params.toSize P.skipMeasure ≠ 0 ∧
      (b = true ↔ (c + k + 1) % 2 ^ 64 % Params.toSize P.skipMeasure = 0) := by
  induction h generalizing n outs c with
  | nil =>
    simp only [run, Outcome.ok.injEq, Prod.mk.injEq] at hr
    obtain ⟨rfl, rfl⟩ := hr
    simp [batches, hc]
  | cons e h ih =>
    obtain ⟨ev, env⟩ := e
    obtain ⟨n1, o, os, h1, h2, rfl⟩ := run_cons_ok hr
    have hv1 := hv (ev, env) List.mem_cons_self
    have hv2 : HistValid h := fun e he => hv e (List.mem_cons_of_mem _ he)
    rw [batches_cons]
    have key : ∀ b, batches [o] = [b] → n1.cnt = (c + 1) % 2 ^ 64 → Params.toSize P.skipMeasure ≠ 0 →
        (b = true ↔ (c + 1) % 2 ^ 64 % Params.toSize P.skipMeasure = 0) →
        n'.cnt = (c + (batches [o] ++ batches os).length) % 2 ^ 64 ∧
        ∀ k b, (batches [o] ++ batches os)[k]? = some b → Params.toSize P.skipMeasure ≠ 0 ∧
          (b = true ↔ (c + k + 1) % 2 ^ 64 % Params.toSize P.skipMeasure = 0) := by
      intro b hb hcnt hs hiff
      obtain ⟨ih1, ih2⟩ := ih hv2 h2 hcnt
      rw [hb]
      refine ⟨by rw [ih1]; simp only [List.cons_append, List.nil_append, List.length_cons]; congr 1; omega, ?_⟩
      intro k b' hk
      cases k with
      | zero =>
        simp only [List.cons_append, List.nil_append, List.getElem?_cons_zero, Option.some.injEq] at hk
        subst hk
        exact ⟨hs, hiff⟩
      | succ k =>
        have := ih2 k b' (by simpa using hk)
        rwa [show c + 1 + k + 1 = c + (k + 1) + 1 by omega] at this
    rcases (step_view h0 hv1 h1).batch with ⟨hb, hcnt, _⟩ | ⟨hs, hcnt, hk⟩
    · rw [hb, List.nil_append]
      exact ih hv2 h2 (by rw [hcnt, hc])
    · have hcnt' : n1.cnt = (c + 1) % 2 ^ 64 := by rw [hcnt, hc]; omega
      rcases hk with ⟨hk, rfl⟩ | ⟨hk, hb⟩
      · exact key false rfl hcnt' hs (by rw [← hcnt']; simp [hk])
      · exact key true hb hcnt' hs (by rw [← hcnt']; simp [hk])

/-- C89: for a positive `skip_measure`, the `n`-th complete batch since the node started is measured iff
`n` is a multiple of `skip_measure` (until the 64-bit counter wraps). -/
theorem C89_every_nth {P : Params} {lib : Lib C} {env0 : Env} {motion0 : Motion ℝ} {h : History} (hv : HistValid h)
    {n0 n : Node C} {outs : List (List Out)} (hs : start P lib env0 motion0 = .ok n0)
    (hr : run P lib n0 h = .ok (n, outs)) (hskip : 0 < P.skipMeasure) (hskip' : P.skipMeasure < 2 ^ 31)
    {k : ℕ} (hk : k + 1 < 2 ^ 64) {b : Bool} (hb : (batches outs)[k]? = some b) :
    b = true ↔ P.skipMeasure ∣ (k + 1 : ℤ) := by
  have h0 := (start_ok hs).1
  have hc : n0.cnt = 0 % 2 ^ 64 := by
    obtain ⟨_, ns, _, rfl⟩ := start_ok hs
    rfl
  have := ((run_batches h0 hv hr hc).2 k b hb).2
  rw [this]
  have e : ((Params.toSize P.skipMeasure : ℕ) : ℤ) = P.skipMeasure := by
    unfold Params.toSize
    rw [Int.toNat_of_nonneg (Int.emod_nonneg _ (by norm_num))]
    exact Int.emod_eq_of_lt (le_of_lt hskip) (by omega)
  rw [Nat.mod_eq_of_lt (by omega : 0 + k + 1 < 2 ^ 64), ← Nat.dvd_iff_mod_eq_zero]
  have e1 : ((k : ℤ) + 1) = ((0 + k + 1 : ℕ) : ℤ) := by push_cast; ring
  have e2 : (P.skipMeasure ∣ (k + 1 : ℤ)) ↔ ((Params.toSize P.skipMeasure : ℕ) : ℤ) ∣ (k + 1 : ℤ) := by rw [e]
  rw [e2, e1, Int.natCast_dvd_natCast]

/-- C89: a skipped batch publishes nothing; only measured batches publish a pose. -/
theorem C89_skipped_is_silent {P : Params} {lib : Lib C} {env : Env} (hv : env.Valid) (h0 : 0 ≤ P.numParticles)
    {n n' : Node C} {ev : Event} {o : List Out} (h : step P lib env n ev = .ok (n', o)) :
    (.batch false ∈ o → o = [.batch false]) ∧
    ((∃ stamp frame pos rot cov, .pose stamp frame pos rot cov ∈ o) → .batch true ∈ o) := by
  have mem : ∀ b, .batch b ∈ o → b ∈ batches [o] := by
    intro b hb
    simp only [batches, List.flatten_cons, List.flatten_nil, List.append_nil, List.mem_filterMap]
    exact ⟨_, hb, rfl⟩
  have mem' : ∀ b, b ∈ batches [o] → .batch b ∈ o := by
    intro b hb
    simp only [batches, List.flatten_cons, List.flatten_nil, List.append_nil, List.mem_filterMap] at hb
    obtain ⟨x, hx, he⟩ := hb
    cases x <;> simp [Out.batchOf] at he
    exact he ▸ hx
  rcases (step_view h0 hv h).batch with ⟨hb, _, hm⟩ | ⟨_, _, ⟨_, ho⟩ | ⟨_, hb⟩⟩
  · refine ⟨fun hx => ?_, ?_⟩
    · have := mem _ hx
      rw [hb] at this
      exact absurd this List.not_mem_nil
    · rintro ⟨_, _, _, _, _, hx⟩
      exact absurd (hm _ hx) id
  · refine ⟨fun _ => ho, ?_⟩
    rintro ⟨_, _, _, _, _, hx⟩
    rw [ho] at hx
    simp at hx
  · refine ⟨fun hx => ?_, fun _ => mem' _ (by rw [hb]; simp)⟩
    have := mem _ hx
    rw [hb] at this
    simp at this

/-! ## C91 -/

/-- The relation between consecutive measurements and the state. -/
theorem run_measurements {P : Params} (h0 : 0 ≤ P.numParticles) {lib : Lib C} {h : History} (hv : HistValid h)
    {n n' : Node C} {outs : List (List Out)} (hr : run P lib n h = .ok (n', outs)) {warn : Vec3 ℝ}
    (hw : n.stdWarn = warn) :
    ∀ s ∈ measurements warn h outs, s.status.particleSize = shrink P.numParticles.toNat s.count := by
  induction h generalizing n outs warn with
  | nil => simp [measurements]
  | cons e h ih =>
    obtain ⟨ev, env⟩ := e
    obtain ⟨n1, o, os, h1, h2, rfl⟩ := run_cons_ok hr
    have hv1 := hv (ev, env) List.mem_cons_self
    have hsv := step_view h0 hv1 h1
    have := ih (fun e he => hv e (List.mem_cons_of_mem _ he)) h2 hsv.warn
    rw [hw] at this
    intro s hs
    rw [measurements] at hs
    rcases List.mem_append.1 hs with hs | hs
    · rcases hsv.shown with ⟨hn, _⟩ | ⟨s', _, hs', _, _, hp, _⟩
      · rw [hw] at hn; rw [hn] at hs; simp at hs
      · rw [hw] at hs'
        rw [hs'] at hs
        simp only [Option.toList_some, List.mem_singleton] at hs
        exact hs ▸ hp
    · exact this s hs

theorem shrink_bounds {num N : ℕ} (h : num < N) : num ≤ shrink num N ∧ shrink num N < N := by
  unfold shrink
  rw [if_pos h]
  omega

/-- C91, one measurement: the published size is the size measured if that is not larger than
`num_particles`, else three quarters of it (rounded down) but at least `num_particles`; it is strictly
smaller then. -/
theorem C91_one {P : Params} {lib : Lib C} {env0 : Env} {motion0 : Motion ℝ} {h : History} (hv : HistValid h)
    {n0 n : Node C} {outs : List (List Out)} (hs : start P lib env0 motion0 = .ok n0)
    (hr : run P lib n0 h = .ok (n, outs)) :
    ∀ s ∈ measurements P.stdWarn h outs,
      ((s.count : ℤ) ≤ P.numParticles → s.status.particleSize = s.count) ∧
      (P.numParticles < s.count → s.status.particleSize = max (3 * s.count / 4) P.numParticles.toNat ∧
        P.numParticles ≤ s.status.particleSize ∧ s.status.particleSize < s.count) := by
  intro s hm
  obtain ⟨h0, ns, _, hn⟩ := start_ok hs
  have h := run_measurements h0 hv hr (by rw [hn]) s hm
  constructor
  · intro hle
    rw [h, shrink, if_neg (by omega)]
  · intro hlt
    have hb := shrink_bounds (num := P.numParticles.toNat) (N := s.count) (by omega)
    rw [← h] at hb
    refine ⟨by rw [h, shrink, if_pos (by omega)], by omega, hb.2⟩

/-- Events that do not change the number of particles by themselves. -/
def keepsCount (ev : Event) : Prop := (∀ size, ev ≠ .resize size) ∧ ev ≠ .globalLocalization

theorem run_counts {P : Params} (h0 : 0 ≤ P.numParticles) {lib : Lib C} {h : History} (hv : HistValid h)
    (hk : ∀ e ∈ h, keepsCount e.1)
    {n n' : Node C} {outs : List (List Out)} (hr : run P lib n h = .ok (n', outs)) {warn : Vec3 ℝ}
    (hw : n.stdWarn = warn) :
    (∀ i s, (measurements warn h outs)[i]? = some s →
      s.count = (shrink P.numParticles.toNat)^[i] n.loc.pf.particles.length) ∧
    n'.loc.pf.particles.length =
      (shrink P.numParticles.toNat)^[(measurements warn h outs).length] n.loc.pf.particles.length := by
  induction h generalizing n outs warn with
  | nil =>
    simp only [run, Outcome.ok.injEq, Prod.mk.injEq] at hr
    simp [measurements, hr.1]
  | cons e h ih =>
    obtain ⟨ev, env⟩ := e
    obtain ⟨n1, o, os, h1, h2, rfl⟩ := run_cons_ok hr
    have hv1 := hv (ev, env) List.mem_cons_self
    have hsv := step_view h0 hv1 h1
    have ih := ih (fun e he => hv e (List.mem_cons_of_mem _ he)) (fun e he => hk e (List.mem_cons_of_mem _ he))
      h2 hsv.warn
    rw [hw] at ih
    obtain ⟨hk1, hk2⟩ := hk (ev, env) List.mem_cons_self
    simp only [measurements]
    rcases hsv.shown with ⟨hn, _, hl⟩ | ⟨s', _, hs', _, hc, hp, hl, _⟩
    · rw [hw] at hn
      rw [hl hk1 hk2] at ih
      rw [hn]
      simpa using ih
    · rw [hw] at hs'
      rw [hs', Option.toList_some, List.singleton_append]
      rw [hl, hc] at ih
      refine ⟨?_, by rw [ih.2]; simp⟩
      intro i s hi
      cases i with
      | zero =>
        simp only [List.getElem?_cons_zero, Option.some.injEq] at hi
        rw [← hi, hc]; rfl
      | succ i =>
        rw [ih.1 i s (by simpa using hi)]
        simp

theorem shrink_iter {num : ℕ} {N : ℕ} (h : num ≤ N) (k : ℕ) (hk : N ≤ num + k) : (shrink num)^[k] N = num := by
  induction k generalizing N with
  | zero => simp only [Function.iterate_zero, id]; omega
  | succ k ih =>
    rw [Function.iterate_succ_apply]
    by_cases hN : num < N
    · have := shrink_bounds hN
      exact ih this.1 (by omega)
    · have e : N = num := by omega
      have e2 : shrink num N = num := by rw [shrink, if_neg hN, e]
      rw [e2]
      exact ih le_rfl (by omega)

theorem shrink_iter_le {num : ℕ} {N : ℕ} (h : N ≤ num) (k : ℕ) : (shrink num)^[k] N = N := by
  induction k with
  | zero => rfl
  | succ k ih => rw [Function.iterate_succ_apply, shrink, if_neg (by omega), ih]

/-- C91: from any state with `N` particles, while nobody asks for another number of particles, measurement
`i` has the `i` times reduced number; from measurement `N - num_particles` on (and finally) it is
`num_particles`.  A number not larger than `num_particles` does not change. -/
theorem C91_returns {P : Params} {lib : Lib C} {n n' : Node C} (hn : Reachable P lib n) {h : History}
    (hv : HistValid h) (hk : ∀ e ∈ h, keepsCount e.1) {outs : List (List Out)}
    (hr : run P lib n h = .ok (n', outs)) {N : ℕ} (hN : N = n.loc.pf.particles.length) :
    (∀ i s, (measurements n.stdWarn h outs)[i]? = some s →
      s.count = (shrink P.numParticles.toNat)^[i] N ∧
      (P.numParticles ≤ N → N ≤ P.numParticles + i → (s.count : ℤ) = P.numParticles) ∧
      ((N : ℤ) ≤ P.numParticles → s.count = N)) ∧
    (P.numParticles ≤ N → N ≤ P.numParticles + (measurements n.stdWarn h outs).length →
      (n'.loc.pf.particles.length : ℤ) = P.numParticles) := by
  have h0 : 0 ≤ P.numParticles := by
    obtain ⟨_, _, _, _, _, _, _, hs, _⟩ := hn
    exact (start_ok hs).1
  obtain ⟨h1, h2⟩ := run_counts h0 hv hk hr rfl
  subst hN
  refine ⟨fun i s hi => ⟨h1 i s hi, fun ha hb => ?_, fun ha => ?_⟩, fun ha hb => ?_⟩
  · rw [h1 i s hi, shrink_iter (by omega) i (by omega)]
    omega
  · rw [h1 i s hi, shrink_iter_le (by omega)]
  · rw [h2, shrink_iter (by omega) _ (by omega)]
    omega

/-! ## C92, C93 -/

theorem newFixCount_ok {P : Params} {N f fix : ℕ} (h : newFixCount P N f = .ok fix) :
    fix = if P.numParticles < (N : ℤ) then 1 + globalPeriod P else f := by
  unfold newFixCount at h
  split_ifs at h ⊢ with h1
  · unfold fixCount at h
    split_ifs at h with h2
    simp only [Outcome.ok.injEq] at h
    rw [← h, globalPeriod]
    omega
  · simpa using h.symm

theorem inGlobalPeriod_cons (P : Params) (s : Shown) (ms : List Shown) (i : ℕ) :
    inGlobalPeriod P (s :: ms) (i + 1) ↔
      (i + 1 ≤ globalPeriod P ∧ P.numParticles < (s.count : ℤ)) ∨ inGlobalPeriod P ms i := by
  constructor
  · rintro ⟨j, t, h1, h2, h3, h4⟩
    cases j with
    | zero =>
      simp only [List.getElem?_cons_zero, Option.some.injEq] at h3
      subst h3
      exact .inl ⟨by omega, h4⟩
    | succ j => exact .inr ⟨j, t, by omega, by omega, by simpa using h3, h4⟩
  · rintro (⟨h1, h2⟩ | ⟨j, t, h1, h2, h3, h4⟩)
    · exact ⟨0, s, by omega, by omega, by simp, h2⟩
    · exact ⟨j + 1, t, by omega, by omega, by simpa using h3, h4⟩

theorem stillGlobal_cons (P : Params) (s : Shown) (ms : List Shown) (i : ℕ) :
    stillGlobal P (s :: ms) (i + 1) ↔
      (i + 1 ≤ globalPeriod P ∧ P.numParticles < (s.count : ℤ)) ∨ stillGlobal P ms i := by
  constructor
  · rintro ⟨j, t, h1, h2, h3, h4⟩
    cases j with
    | zero =>
      simp only [List.getElem?_cons_zero, Option.some.injEq] at h3
      subst h3
      exact .inl ⟨by omega, h4⟩
    | succ j => exact .inr ⟨j, t, by omega, by omega, by simpa using h3, h4⟩
  · rintro (⟨h1, h2⟩ | ⟨j, t, h1, h2, h3, h4⟩)
    · exact ⟨0, s, by omega, by omega, by simp, h2⟩
    · exact ⟨j + 1, t, by omega, by omega, by simpa using h3, h4⟩

theorem run_status {P : Params} (h0 : 0 ≤ P.numParticles) {lib : Lib C} {h : History} (hv : HistValid h)
    {n n' : Node C} {outs : List (List Out)} (hr : run P lib n h = .ok (n', outs)) {warn : Vec3 ℝ}
    (hw : n.stdWarn = warn) (hf : n.loc.fixCnt ≤ globalPeriod P) :
    ∀ i s, (measurements warn h outs)[i]? = some s → ∃ f fix : ℕ,
      (f ≠ 0 ↔ stillGlobal P (measurements warn h outs) i ∨ i < n.loc.fixCnt) ∧
      (fix ≠ 0 ↔ inGlobalPeriod P (measurements warn h outs) i ∨ i < n.loc.fixCnt) ∧
      s.status.status = statusCode P s.status.matchRatio fix .normal ∧
      s.status.convergence = convergenceOf P s.warn f s.cov .normal := by
  induction h generalizing n outs warn with
  | nil => simp [measurements]
  | cons e h ih =>
    obtain ⟨ev, env⟩ := e
    obtain ⟨n1, o, os, h1, h2, rfl⟩ := run_cons_ok hr
    have hv1 := hv (ev, env) List.mem_cons_self
    have hsv := step_view h0 hv1 h1
    have ih := ih (fun e he => hv e (List.mem_cons_of_mem _ he)) h2 hsv.warn
    rw [hw] at ih
    simp only [measurements]
    rcases hsv.shown with ⟨hn, hfx, _⟩ | ⟨s', fix, hs', _, hc, _, _, hfix, hfx, hst, hco⟩
    · rw [hw] at hn
      rw [hfx] at ih
      rw [hn]
      simpa using ih hf
    · rw [hw] at hs'
      rw [hs', Option.toList_some, List.singleton_append]
      have e := newFixCount_ok hfix
      have hle : n1.loc.fixCnt ≤ globalPeriod P := by
        rw [hfx, e]; split_ifs <;> omega
      intro i s hi
      cases i with
      | zero =>
        simp only [List.getElem?_cons_zero, Option.some.injEq] at hi
        subst hi
        refine ⟨n.loc.fixCnt, fix, ?_, ?_, hst, hco⟩
        · constructor
          · intro h; exact .inr (by omega)
          · rintro (⟨j, _, hj, _⟩ | h)
            · omega
            · omega
        · rw [e]
          constructor
          · intro h
            split_ifs at h with hN
            · exact .inl ⟨0, s', le_rfl, by omega, by simp, hN⟩
            · exact .inr (by omega)
          · rintro (⟨j, t, hj, _, h3, h4⟩ | h)
            · have : j = 0 := by omega
              subst this
              simp only [List.getElem?_cons_zero, Option.some.injEq] at h3
              subst h3
              rw [if_pos h4]; omega
            · split_ifs <;> omega
      | succ i =>
        obtain ⟨f', fix', a, b, c, d⟩ := ih hle i s (by simpa using hi)
        have key : (i < n1.loc.fixCnt) ↔
            (i + 1 ≤ globalPeriod P ∧ P.numParticles < (s'.count : ℤ)) ∨ (i + 1 < n.loc.fixCnt) := by
          rw [hfx, e]
          split_ifs with hN
          · constructor
            · intro h; exact .inl ⟨by omega, hN⟩
            · rintro (⟨h, _⟩ | h) <;> omega
          · constructor
            · intro h; exact .inr (by omega)
            · rintro (⟨_, h⟩ | h)
              · exact absurd h hN
              · omega
        refine ⟨f', fix', ?_, ?_, c, d⟩
        · rw [a, stillGlobal_cons, key, or_assoc]; exact or_left_comm
        · rw [b, inGlobalPeriod_cons, key, or_assoc]; exact or_left_comm

/-- C92: a measurement reports GLOBAL_LOCALIZATION iff it reduces the particles, or one of the last
`3 * ceil(lpf_step)` measurements before it did; if it does not, it reports EXPANSION_RESETTING iff the
published match ratio is below the threshold, and NORMAL otherwise. -/
theorem C92_status {P : Params} {lib : Lib C} {env0 : Env} {motion0 : Motion ℝ} {h : History} (hv : HistValid h)
    {n0 n : Node C} {outs : List (List Out)} (hs : start P lib env0 motion0 = .ok n0)
    (hr : run P lib n0 h = .ok (n, outs)) {ms : List Shown} (hms : ms = measurements P.stdWarn h outs)
    {i : ℕ} {s : Shown} (hi : ms[i]? = some s) :
    (s.status.status = .globalLocalization ↔ inGlobalPeriod P ms i) ∧
    (s.status.status = .expansionResetting ↔
      ¬ inGlobalPeriod P ms i ∧ s.status.matchRatio < P.matchRatioThresh) := by
  obtain ⟨h0, ns, _, hn⟩ := start_ok hs
  subst hms
  have hz : n0.loc.fixCnt = 0 := by rw [hn]
  obtain ⟨f, fix, _, hfix, hst, _⟩ := run_status h0 hv hr (warn := P.stdWarn) (by rw [hn]) (by rw [hz]; omega) i s hi
  rw [hz] at hfix
  have hfix : fix ≠ 0 ↔ inGlobalPeriod P (measurements P.stdWarn h outs) i := by
    rw [hfix]; simp
  rw [← hfix, hst, statusCode]
  split_ifs with h1 h2
  · simp [h1]
  · simp only [not_not] at h1; simp [h1, h2]
  · simp only [not_not] at h1; simp [h1, h2]

open Classical in
theorem convergenceOf_eq (P : Params) (s : Shown) (f : ℕ) :
    convergenceOf P s.warn f s.cov .normal =
      if f = 0 ∧ s.large then .largeStd else if s.small P then .converged else .normal := by
  have habs : |Real.sqrt (s.cov 3 3 + s.cov 4 4 + s.cov 5 5)| = Real.sqrt (s.cov 3 3 + s.cov 4 4 + s.cov 5 5) :=
    abs_of_nonneg (Real.sqrt_nonneg _)
  unfold convergenceOf Shown.large Shown.small
  rw [habs]
  simp only
  by_cases hA : (f = 0 ∧ (s.warn.x < Real.sqrt (s.cov 0 0 + s.cov 1 1) ∨ s.warn.y < Real.sqrt (s.cov 2 2) ∨
    s.warn.z < Real.sqrt (s.cov 5 5)))
  · rw [if_pos hA, if_neg (by simp), if_pos hA]
  · rw [if_neg hA, if_neg hA]
    simp

/-- C93: LARGE_STD_VALUE is reported iff some standard deviation exceeds its
threshold and no measurement *before* this one put it into the period of global localization; CONVERGED iff
LARGE_STD_VALUE is not and the deviations are below the thresholds for convergence; NORMAL otherwise. (So the
measurement in which global localization begins is not exempt.) -/
theorem C93_convergence {P : Params} {lib : Lib C} {env0 : Env} {motion0 : Motion ℝ} {h : History}
    (hv : HistValid h) {n0 n : Node C} {outs : List (List Out)} (hs : start P lib env0 motion0 = .ok n0)
    (hr : run P lib n0 h = .ok (n, outs)) {ms : List Shown} (hms : ms = measurements P.stdWarn h outs)
    {i : ℕ} {s : Shown} (hi : ms[i]? = some s) :
    (s.status.convergence = .largeStd ↔ ¬ stillGlobal P ms i ∧ s.large) ∧
    (s.status.convergence = .converged ↔ s.status.convergence ≠ .largeStd ∧ s.small P) ∧
    (s.status.convergence = .normal ↔ s.status.convergence ≠ .largeStd ∧ ¬ s.small P) := by
  obtain ⟨h0, ns, _, hn⟩ := start_ok hs
  subst hms
  have hz : n0.loc.fixCnt = 0 := by rw [hn]
  obtain ⟨f, fix, hf, _, _, hco⟩ := run_status h0 hv hr (warn := P.stdWarn) (by rw [hn]) (by rw [hz]; omega) i s hi
  rw [hz] at hf
  have hf : ¬ stillGlobal P (measurements P.stdWarn h outs) i ↔ f = 0 := by
    rw [← not_iff_not, not_not, ← ne_eq, hf]; simp
  rw [hf, hco, convergenceOf_eq]
  by_cases h1 : f = 0 ∧ s.large <;> by_cases h2 : s.small P <;> simp [h1, h2]

/-- C93: in terms of the reported status, outside the measurements that reduce the particles. -/
theorem C93_large {P : Params} {lib : Lib C} {env0 : Env} {motion0 : Motion ℝ} {h : History}
    (hv : HistValid h) {n0 n : Node C} {outs : List (List Out)} (hs : start P lib env0 motion0 = .ok n0)
    (hr : run P lib n0 h = .ok (n, outs)) {ms : List Shown} (hms : ms = measurements P.stdWarn h outs)
    {i : ℕ} {s : Shown} (hi : ms[i]? = some s) (hN : (s.count : ℤ) ≤ P.numParticles) :
    s.status.convergence = .largeStd ↔ s.status.status ≠ .globalLocalization ∧ s.large := by
  rw [(C93_convergence hv hs hr hms hi).1, ne_eq, (C92_status hv hs hr hms hi).1]
  have : inGlobalPeriod P ms i ↔ stillGlobal P ms i := by
    constructor
    · rintro ⟨j, t, h1, h2, h3, h4⟩
      refine ⟨j, t, lt_of_le_of_ne h1 ?_, h2, h3, h4⟩
      rintro rfl
      rw [hi] at h3
      simp only [Option.some.injEq] at h3
      subst h3
      omega
    · rintro ⟨j, t, h1, h2, h3, h4⟩
      exact ⟨j, t, le_of_lt h1, h2, h3, h4⟩
  rw [this]

end Node
end Mcl3dl
