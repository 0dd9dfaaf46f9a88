import Verif.Proofs.NodeSources
import Verif.Props.NodeExpand
import Verif.Props.NodePosterior

/-! # C122, C123, C124: what a measurement does to the particles -/

set_option linter.unusedSectionVars false

namespace Mcl3dl
namespace Node

variable {C : Type}

/-- The particles that are resampled: the recorded errors are forgotten if the estimate leapt, the weights are
the posterior ones. -/
theorem pf2_spec {P : Params} {loc : LocSt C} {r : LocRun C} (hlen : r.w.1.length = loc.pf.particles.length) :
    (r.pf2 P loc).particles.length = loc.pf.particles.length ∧
    (r.pf2 P loc).particles.map PF.Particle.prob = posterior (loc.pf.particles.map PF.Particle.prob) r.w.1 ∧
    ∀ (k : ℕ) (q : Particle), (r.pf2 P loc).particles[k]? = some q → ∃ p, loc.pf.particles[k]? = some p ∧
      Forgot (¬ P.numParticles < (loc.pf.particles.length : ℤ) ∧ Leapt P loc.statePrev (r.est P loc)) p.state q.state := by
  have e1 : (r.pf1 P loc).particles.map PF.Particle.state = loc.pf.particles.map PF.Particle.state := pf1_states hlen
  have l1 : (r.pf1 P loc).particles.length = loc.pf.particles.length := by
    have := congrArg List.length e1; simpa using this
  have e2 : (r.pf1 P loc).particles.map PF.Particle.prob = posterior (loc.pf.particles.map PF.Particle.prob) r.w.1 := by
    rw [LocRun.pf1, biasFilter_prob, measureWith_probs]
  have hj : (r.jump P loc).2 = true ↔
      (¬ P.numParticles < (loc.pf.particles.length : ℤ) ∧ Leapt P loc.statePrev (r.est P loc)) := by
    rw [LocRun.jump, jumpOf, l1, Leapt]
    split_ifs with h1 h2
    · simp [h1]
    · simp [h1, h2]
    · simp [h1, h2]
  have hget : ∀ (k : ℕ) (q : Particle), (r.pf1 P loc).particles[k]? = some q → ∃ p, loc.pf.particles[k]? = some p ∧
      p.state = q.state := by
    intro k q hq
    have h := congrArg (fun l => l[k]?) e1
    simp only [List.getElem?_map, hq, Option.map_some] at h
    cases hp : loc.pf.particles[k]? with
    | none => rw [hp] at h; simp at h
    | some p => rw [hp] at h; exact ⟨p, rfl, by simpa using h.symm⟩
  unfold LocRun.pf2
  by_cases hjj : (r.jump P loc).2 = true
  · rw [if_pos hjj]
    refine ⟨by simp [PF.Filter.predict, l1], by rw [predict_prob, e2], fun k q hq => ?_⟩
    simp only [PF.Filter.predict, List.getElem?_map, Option.map_eq_some_iff] at hq
    obtain ⟨q', hq', rfl⟩ := hq
    obtain ⟨p, hp, he⟩ := hget k q' hq'
    refine ⟨p, hp, fun _ => ?_, fun hn => absurd (hj.1 hjj) hn⟩
    rw [he]; rfl
  · rw [if_neg hjj]
    refine ⟨l1, e2, fun k q hq => ?_⟩
    obtain ⟨p, hp, he⟩ := hget k q hq
    exact ⟨p, hp, fun hy => absurd (hj.2 hy) hjj, fun _ => he.symm⟩

/-- Resampling, odometry error coefficients and expansion. -/
theorem resampling_spec {P : Params} {env : Env} (hv : env.Valid) {f f3 f5 : Filter} {ratio : ℝ}
    (hne : f.particles ≠ []) (hnn : ∀ p ∈ f.particles, 0 ≤ p.prob) (hW : 0 < (f.particles.map PF.Particle.prob).sum)
    (h3 : resampleFilter env 0 P.resampleVar f = .ok f3)
    (h5 : expandFilter P env ratio (driftFilter P env f3) = .ok f5)
    {jumped : Prop} {old : List (State6 ℝ)} (hl : f.particles.length = old.length)
    (hold : ∀ (k : ℕ) (q : Particle), f.particles[k]? = some q → ∃ s, old[k]? = some s ∧ Forgot jumped s q.state) :
    (∃ (anc ord : ℕ → ℕ) (idx idx' : ℕ → Fin 6 → ℕ),
      Resampling P env jumped (ratio < P.matchRatioThresh) (f.particles.map PF.Particle.prob) old
        (f5.particles.map PF.Particle.state) anc ord idx idx') ∧
    ∀ p ∈ f5.particles, p.prob = 1 / (old.length : ℝ) := by
  have hlen0 : 0 < f.particles.length := List.length_pos_iff.2 hne
  have huni := resampleFilter_uniform hv h3
  obtain ⟨ns, hns, h3⟩ := Outcome.bind_eq_ok_iff.1 h3
  obtain ⟨hnl, idx, hfr, hpick⟩ := noiseStates_spec hns
  obtain ⟨f3', anc, ord, hf3, hl3, hsrc, hslot⟩ := resample_sources hv f (pickNoise ns) hne hnn hW
  rw [hf3] at h3
  simp only [Outcome.ok.injEq] at h3
  subst h3
  -- expansion
  have hexp : ∃ idx' : ℕ → Fin 6 → ℕ, Fresh (sigmas P.expansionVar) idx' ∧
      f5.particles.length = f3'.particles.length ∧
      ∀ (k : ℕ) (p5 : Particle), f5.particles[k]? = some p5 → ∃ p3, f3'.particles[k]? = some p3 ∧ p5.prob = p3.prob ∧
        (ratio < P.matchRatioThresh →
          Disturbed (fun i => sigmas P.expansionVar i * env.normal 1 (idx' k i)) p3.state p5.state) ∧
        (¬ ratio < P.matchRatioThresh → Drifting P (env.driftNoise k) p3.state p5.state) := by
    have hdr : ∀ (k : ℕ) (p4 : Particle), (driftFilter P env f3').particles[k]? = some p4 → ∃ p3, f3'.particles[k]? = some p3 ∧
        p4.prob = p3.prob ∧ Drifting P (env.driftNoise k) p3.state p4.state := by
      intro k p4 h4
      simp only [driftFilter, List.getElem?_mapIdx, Option.map_eq_some_iff] at h4
      obtain ⟨p3, e3, rfl⟩ := h4
      exact ⟨p3, e3, rfl, rfl⟩
    rw [expandFilter] at h5
    by_cases hr : ratio < P.matchRatioThresh
    · rw [if_pos hr] at h5
      obtain ⟨hl5, _, idx', hf', hd⟩ := addNoise_disturbs h5
      refine ⟨idx', hf', by rw [hl5, (driftFilter_spec _ _ _).1], fun k p5 hk => ?_⟩
      rw [List.forall₂_iff_get] at hd
      obtain ⟨hl', hd⟩ := hd
      obtain ⟨hk', rfl⟩ := List.getElem?_eq_some_iff.1 hk
      have hk4 : k < (driftFilter P env f3').particles.length := by omega
      obtain ⟨p3, e3, e4, e5⟩ := hdr k _ (List.getElem?_eq_getElem hk4)
      have := hd k (by simpa using hk4) hk'
      simp only [List.get_eq_getElem, List.getElem_zipIdx, zero_add] at this
      refine ⟨p3, e3, by rw [this.1, e4], fun _ => ?_, fun hn => absurd hr hn⟩
      obtain ⟨⟨m1, m2⟩, m3, m4, m5⟩ := this.2.2.2
      rw [Drifting] at e5
      rw [e5] at m1 m2 m3 m4
      exact ⟨⟨m1, m2⟩, m3, m4, m5⟩
    · rw [if_neg hr] at h5
      simp only [Outcome.ok.injEq] at h5
      subst h5
      -- no noise: any numbers will do
      have hfresh : Fresh (sigmas P.expansionVar) fun k i => 6 * k + i.val := by
        intro k i k' i' _ _ he
        constructor
        · simp only at he; omega
        · apply Fin.ext; simp only at he; omega
      refine ⟨_, hfresh, (driftFilter_spec _ _ _).1, fun k p5 hk => ?_⟩
      obtain ⟨p3, e3, e4, e5⟩ := hdr k _ hk
      exact ⟨p3, e3, e4, fun hy => absurd hy hr, fun _ => e5⟩
  obtain ⟨idx', hf', hl5, hexp⟩ := hexp
  have hdist : ∀ (k : ℕ), k < f.particles.length → ∀ a : State6 ℝ, Scattered
      (fun i => sigmas P.resampleVar i * env.normal 0 (idx k i)) a
      (PF.StateOps.normalize (PF.StateOps.add a (pickNoise ns k))) := by
    intro k hk a
    rw [hpick k hk]
    exact ⟨_, disturbed_add env 0 P.resampleVar (idx k) a, rfl⟩
  refine ⟨⟨anc, ord, idx, idx', ?_, hfr, hf', hsrc, ?_⟩, ?_⟩
  · rw [List.length_map, hl5, hl3, hl]
  · intro k s' hs'
    rw [List.getElem?_map, Option.map_eq_some_iff] at hs'
    obtain ⟨p5, hp5, rfl⟩ := hs'
    obtain ⟨p3, e3, _, e5, e6⟩ := hexp k p5 hp5
    obtain ⟨hk3, rfl⟩ := List.getElem?_eq_some_iff.1 e3
    have hkf : k < f.particles.length := by omega
    obtain ⟨ha, hc⟩ := hslot k hk3
    obtain ⟨s, hs, hf⟩ := hold (anc k) _ (List.getElem?_eq_getElem ha)
    refine ⟨s, _, _, hs, hf, ?_, e5, e6⟩
    by_cases hd : anc k = (if k = 0 then ord 0 else anc (k - 1))
    · rw [if_pos hd] at hc ⊢
      rw [hc]
      exact hdist k hkf _
    · rw [if_neg hd] at hc ⊢
      exact hc
  · intro p hp
    obtain ⟨k, hk, rfl⟩ := List.getElem_of_mem hp
    obtain ⟨p3, e3, e4, _⟩ := hexp k _ (List.getElem?_eq_getElem hk)
    rw [e4, huni.2 p3 (List.mem_of_getElem? e3), hl]

theorem likelihood_nonneg {P : Params} (hP : Measures P) (hmw : 0 ≤ P.like.matchWeight) {w : Vec3 ℝ} {map sel : List Point}
    {s : State6 ℝ} {k : ℕ} {x : ℝ} :
    0 ≤ beamScore P.beam k * fieldScore P.like w map s sel * gaussian P.integLinSigma x := by
  have h1 : 0 ≤ beamScore P.beam k := le_max_of_le_left hP.beamMin.le
  have h2 : 0 ≤ fieldScore P.like w map s sel := by
    refine List.sum_nonneg fun y hy => ?_
    obtain ⟨q, _, rfl⟩ := List.mem_map.1 hy
    generalize Lidar.nearestSq _ _ _ = d
    simp only [Lidar.gain]
    split_ifs with hc
    · refine mul_nonneg hmw (sub_nonneg.2 (max_le ?_ hc.2))
      obtain ⟨hc, _⟩ := hc
      cases d with
      | top => exact absurd hc (by simp)
      | coe d =>
        have h : d < P.like.matchDistMin ^ 2 := WithTop.coe_lt_coe.1 hc
        simpa using (Real.sqrt_le_sqrt h.le).trans (by rw [Real.sqrt_sq hP.dist])
    · exact le_rfl
  have h3 : 0 ≤ gaussian P.integLinSigma x := by unfold gaussian; positivity
  positivity

/-- C124: what a callback that publishes a pose does to the particles.  The new particles are drawn from the old
ones in proportion to their posterior weights (up to rounding, in order; `Sources`), a repeated one being scattered by
`resample_var`; the recorded odometry error is forgotten if the estimate leapt; if the published match ratio is
below `match_ratio_thresh` all are disturbed by `expansion_var`, otherwise they get new odometry error
coefficients.  If there are more particles than configured, the new ones are taken from these. -/
theorem C124_resampling {P : Params} (hP : Measures P) (hd : 0 < P.divYaw) (hmw : 0 ≤ P.like.matchWeight)
    {lib : Lib C} {w : Vec3 ℝ} (hw : 1 ≤ w.x ∧ 1 ≤ w.y ∧ 1 ≤ w.z)
    (hfl : ∀ pts q r num, ExactSearch pts (weightedDist w q) r num (lib.flann pts q r num))
    {env0 : Env} (hv0 : env0.Valid) {motion0 : Motion ℝ} {h : History} {e : Event × Env} (hv : HistValid (h ++ [e]))
    (hreg : RegularClouds (h ++ [e])) {n0 n1 n : Node C} {outs : List (List Out)} {o : List Out}
    (hs : start P lib env0 motion0 = .ok n0) (hr1 : run P lib n0 h = .ok (n1, outs))
    (hr : run P lib n0 (h ++ [e]) = .ok (n, outs ++ [o]))
    {b : List Scan} {s : Scan} (hb : (batchStep P (batchView P h).1 (batchView P h).2 e).1 = some (b ++ [s]))
    {t : Tf} (ht : e.2.tf P.baseFrame P.odomFrame s.header.stamp = some t)
    {stamp : ℝ} {frame : String} {pos : Vec3 ℝ} {rot : Quat ℝ} {cov : ℕ → ℕ → ℝ}
    (hp : .pose stamp frame pos rot cov ∈ o) :
    ∃ (model : Lidar.Beam) (origins : List (Vec3 ℝ)) (beamSel sel : List Point) (like : List ℝ) (st : Status)
      (entropy : Option ℝ) (level : Level) (new : List (State6 ℝ)) (anc ord : ℕ → ℕ) (idx idx' : ℕ → Fin 6 → ℕ),
      Lidar.Beam.Reach P.beam model ∧
      Selection P e.2 t (b ++ [s]) s.header.stamp n1.loc.pf.particles.length origins beamSel sel ∧
      List.Forall₂ (fun (q : Particle) l =>
        LikelihoodOf P model (caster P lib n1.map) w (mapView P h).active origins beamSel sel q.state l)
        n1.loc.pf.particles like ∧
      .status st entropy level ∈ o ∧
      (let old := n1.loc.pf.particles
       let many := P.numParticles < (old.length : ℤ)
       Resampling P e.2 (¬ many ∧ Leapt P n1.loc.statePrev n.loc.statePrev) (st.matchRatio < P.matchRatioThresh)
         (posterior (old.map PF.Particle.prob) like) (old.map PF.Particle.state) new anc ord idx idx' ∧
       (¬ many → n.loc.pf.particles.map PF.Particle.state = new) ∧
       (∀ p ∈ n.loc.pf.particles, p.state ∈ new)) := by
  obtain ⟨header, p, outs', r, _, ho, hdone, hlen, hpb, _, hsel, hlk⟩ := measurement hP hw hfl hv0 hv hreg hs hr1 hr hb ht hp
  have hve : e.2.Valid := hv e (by simp)
  obtain ⟨hnn, hsum⟩ := C115_weights hd (fun e he => hv e (List.mem_append_left _ he)) hs hr1
  have hpfeq : (freshen e.2 n1).loc.pf = n1.loc.pf := rfl
  have hpreq : (freshen e.2 n1).loc.statePrev = n1.loc.statePrev := rfl
  obtain ⟨l2, p2, s2⟩ := pf2_spec (P := P) (loc := (freshen e.2 n1).loc) (r := r) hlen
  rw [hpfeq] at l2 p2 s2
  have hne : n1.loc.pf.particles ≠ [] := by
    intro hnil
    have : (r.pf1 P (freshen e.2 n1).loc).particles = [] := by
      apply List.length_eq_zero_iff.1
      rw [LocRun.pf1, (biasFilter_spec _ _ _).1, hpfeq, measureWith_length _ _ hlen, hnil]
      rfl
    have hmax := hdone.max
    rw [PF.Filter.max, this] at hmax
    simp at hmax
  have hlike : ∀ x ∈ r.w.1, 0 ≤ x := by
    have hreach : Reachable P lib n1 := ⟨env0, motion0, n0, h, _, hv0, fun e he => hv e (List.mem_append_left _ he), hs, hr1⟩
    intro x hx
    obtain ⟨i, hi, rfl⟩ := List.getElem_of_mem hx
    obtain ⟨hll, hget⟩ := List.forall₂_iff_get.1 hlk
    obtain ⟨c, c', sts, _, e⟩ := hget i (by omega) hi
    simp only [List.get_eq_getElem] at e
    rw [e]
    exact likelihood_nonneg hP hmw
  have hW : Weighted (fun x => 0 < x) (measureWith n1.loc.pf r.w.1) := by
    refine Weighted.measureWith one_pos ⟨hnn, fun hne => ?_⟩ hlike
    rcases hsum hne with e | ⟨_, e⟩
    · rw [show (n1.loc.pf.particles.map PF.Particle.prob).sum = 1 from e]; exact one_pos
    · rw [show (n1.loc.pf.particles.map PF.Particle.prob).sum = P.divYaw from e]; exact_mod_cast hd
  have hprob : (r.pf2 P (freshen e.2 n1).loc).particles.map PF.Particle.prob =
      (measureWith n1.loc.pf r.w.1).particles.map PF.Particle.prob := by rw [p2, measureWith_probs]
  have hW2 : Weighted (fun x => 0 < x) (r.pf2 P (freshen e.2 n1).loc) := hW.same hprob
  have hne2 : (r.pf2 P (freshen e.2 n1).loc).particles ≠ [] := by
    intro h0
    rw [h0] at l2
    exact hne (List.length_eq_zero_iff.1 l2.symm)
  obtain ⟨⟨anc, ord, idx, idx', hR⟩, hu⟩ := resampling_spec (P := P) hve hne2 hW2.1 (hW2.2 hne2) hdone.pf3 hdone.pf5
    (jumped := ¬ P.numParticles < (n1.loc.pf.particles.length : ℤ) ∧ Leapt P n1.loc.statePrev n.loc.statePrev)
    (old := n1.loc.pf.particles.map PF.Particle.state) (by rw [List.length_map, l2])
    (by
      intro k q hq
      obtain ⟨p, hp, hf⟩ := s2 k q hq
      rw [hpreq, ← hdone.prev] at hf
      exact ⟨p.state, by rw [List.getElem?_map, hp]; rfl, hf⟩)
  rw [p2] at hR
  have hrs : n.loc.status.matchRatio = r.w.2.ratioMax := by rw [hdone.status]; rfl
  have hst : publishStatus n.loc.status r.pf6 ∈ o := by
    rw [ho, hdone.outs_eq, hdone.status]
    simp
  have hl5 : r.pf5.particles.length = n1.loc.pf.particles.length := by
    have := hR.length
    rw [List.length_map, List.length_map] at this
    exact this
  refine ⟨p.beam, p.origins, p.beamPc, p.likePc, r.w.1, n.loc.status, _, _, r.pf5.particles.map PF.Particle.state, anc, ord, idx, idx', hpb, hsel, hlk, hst, ?_⟩
  simp only
  refine ⟨by rw [hrs]; exact hR, fun hm => ?_, fun q hq => ?_⟩
  · have h6 := hdone.pf6
    rw [reduceFilter, hl5, if_neg hm] at h6
    simp only [Outcome.ok.injEq] at h6
    rw [hdone.pf, h6]
  · have h6 := hdone.pf6
    rw [hdone.pf] at hq
    by_cases hm : P.numParticles < (r.pf5.particles.length : ℤ)
    · rw [reduceFilter, if_pos hm] at h6
      simp only [resizeFilter] at h6
      rw [if_neg (by have := hP.particles; split_ifs <;> omega)] at h6
      obtain ⟨f', e', _, _, hmem⟩ := PF.resize_spec State6.default e.2.junk r.pf5 _ _ (hve.sort (PF.accumulate 0 r.pf5.particles))
        (.inl (by
          intro h0
          rw [h0] at hl5
          exact hne (List.length_eq_zero_iff.1 hl5.symm)))
      rw [e'] at h6
      simp only [Outcome.ok.injEq] at h6
      rw [← h6] at hq
      obtain ⟨_, q', hq', e''⟩ := hmem q hq
      rw [e'']
      exact List.mem_map_of_mem hq'
    · rw [reduceFilter, if_neg hm] at h6
      simp only [Outcome.ok.injEq] at h6
      rw [h6]
      exact List.mem_map_of_mem hq

/-- C124, if all posterior weights are positive: the sort changes nothing, the sources are in order, and each particle
has the rounded share of copies itself. -/
theorem C124_positive_weights {weights : List ℝ} {unit : ℝ} {anc ord : ℕ → ℕ} (h : Sources weights unit anc ord)
    (hpos : ∀ w ∈ weights, 0 < w) :
    (∀ c < weights.length, ord c = c) ∧ (∀ k l, k ≤ l → l < weights.length → anc k ≤ anc l) ∧
    ∀ j w, weights[j]? = some w → 0 < unit →
      ⌊(weights.length : ℝ) * w / weights.sum⌋ ≤ ((List.range weights.length).countP fun k => decide (anc k = j) : ℕ) ∧
      (((List.range weights.length).countP fun k => decide (anc k = j) : ℕ) : ℤ) ≤
        ⌈(weights.length : ℝ) * w / weights.sum⌉ :=
  h.of_positive hpos

/-- C122: a callback that publishes a pose draws new odometry error coefficients for every particle, in
proportion to the parameters; but if the particles are expanded, all coefficients are zero. -/
theorem C122_coefficients {P : Params} (hP : Measures P) (hd : 0 < P.divYaw) (hmw : 0 ≤ P.like.matchWeight)
    {lib : Lib C} {w : Vec3 ℝ} (hw : 1 ≤ w.x ∧ 1 ≤ w.y ∧ 1 ≤ w.z)
    (hfl : ∀ pts q r num, ExactSearch pts (weightedDist w q) r num (lib.flann pts q r num))
    {env0 : Env} (hv0 : env0.Valid) {motion0 : Motion ℝ} {h : History} {e : Event × Env} (hv : HistValid (h ++ [e]))
    (hreg : RegularClouds (h ++ [e])) {n0 n1 n : Node C} {outs : List (List Out)} {o : List Out}
    (hs : start P lib env0 motion0 = .ok n0) (hr1 : run P lib n0 h = .ok (n1, outs))
    (hr : run P lib n0 (h ++ [e]) = .ok (n, outs ++ [o]))
    {b : List Scan} {s : Scan} (hb : (batchStep P (batchView P h).1 (batchView P h).2 e).1 = some (b ++ [s]))
    {t : Tf} (ht : e.2.tf P.baseFrame P.odomFrame s.header.stamp = some t)
    {stamp : ℝ} {frame : String} {pos : Vec3 ℝ} {rot : Quat ℝ} {cov : ℕ → ℕ → ℝ}
    (hp : .pose stamp frame pos rot cov ∈ o) (hcount : (n1.loc.pf.particles.length : ℤ) ≤ P.numParticles) :
    ∃ (st : Status) (entropy : Option ℝ) (level : Level), .status st entropy level ∈ o ∧
      ∀ (k : ℕ) (p : Particle), n.loc.pf.particles[k]? = some p → drift p.state =
        if st.matchRatio < P.matchRatioThresh then (0, 0, 0, 0)
        else ((e.2.driftNoise k).1 * P.errLinLin, (e.2.driftNoise k).2.1 * P.errLinAng,
          (e.2.driftNoise k).2.2.2 * P.errAngLin, (e.2.driftNoise k).2.2.1 * P.errAngAng) := by
  obtain ⟨model, origins, beamSel, sel, like, st, ent, lvl, new, anc, ord, idx, idx', _, _, _, hst, hR, hnew, _⟩ :=
    C124_resampling hP hd hmw hw hfl hv0 hv hreg hs hr1 hr hb ht hp
  refine ⟨st, ent, lvl, hst, fun k p hk => ?_⟩
  have hnk : new[k]? = some p.state := by
    rw [← hnew (not_lt.2 hcount), List.getElem?_map, hk]; rfl
  obtain ⟨s0, a, b', _, _, _, h1, h2⟩ := hR.slot k _ hnk
  split_ifs with hm
  · exact (h1 hm).2.2.2
  · rw [h2 hm]; rfl

/-- C123: a callback that publishes a pose expands the particles exactly if the published match ratio is below
`match_ratio_thresh`: each is then disturbed by independent normal noise with the standard deviations
`expansion_var`; otherwise each is one of the old poses, or one of them scattered by `resample_var`. -/
theorem C123_automatic {P : Params} (hP : Measures P) (hd : 0 < P.divYaw) (hmw : 0 ≤ P.like.matchWeight)
    {lib : Lib C} {w : Vec3 ℝ} (hw : 1 ≤ w.x ∧ 1 ≤ w.y ∧ 1 ≤ w.z)
    (hfl : ∀ pts q r num, ExactSearch pts (weightedDist w q) r num (lib.flann pts q r num))
    {env0 : Env} (hv0 : env0.Valid) {motion0 : Motion ℝ} {h : History} {e : Event × Env} (hv : HistValid (h ++ [e]))
    (hreg : RegularClouds (h ++ [e])) {n0 n1 n : Node C} {outs : List (List Out)} {o : List Out}
    (hs : start P lib env0 motion0 = .ok n0) (hr1 : run P lib n0 h = .ok (n1, outs))
    (hr : run P lib n0 (h ++ [e]) = .ok (n, outs ++ [o]))
    {b : List Scan} {s : Scan} (hb : (batchStep P (batchView P h).1 (batchView P h).2 e).1 = some (b ++ [s]))
    {t : Tf} (ht : e.2.tf P.baseFrame P.odomFrame s.header.stamp = some t)
    {stamp : ℝ} {frame : String} {pos : Vec3 ℝ} {rot : Quat ℝ} {cov : ℕ → ℕ → ℝ}
    (hp : .pose stamp frame pos rot cov ∈ o) (hcount : (n1.loc.pf.particles.length : ℤ) ≤ P.numParticles) :
    ∃ (st : Status) (entropy : Option ℝ) (level : Level) (idx idx' : ℕ → Fin 6 → ℕ),
      .status st entropy level ∈ o ∧ Fresh (sigmas P.resampleVar) idx ∧ Fresh (sigmas P.expansionVar) idx' ∧
      n.loc.pf.particles.length = n1.loc.pf.particles.length ∧
      ∀ (k : ℕ) (p : Particle), n.loc.pf.particles[k]? = some p → ∃ q ∈ n1.loc.pf.particles, ∃ s : State6 ℝ,
        ((s.pos = q.state.pos ∧ s.rot = q.state.rot) ∨
          ∃ d, Moved (fun i => sigmas P.resampleVar i * e.2.normal 0 (idx k i)) q.state d ∧ s.pos = d.pos ∧
            s.rot = d.rot.normalized) ∧
        (st.matchRatio < P.matchRatioThresh →
          Moved (fun i => sigmas P.expansionVar i * e.2.normal 1 (idx' k i)) s p.state) ∧
        (¬ st.matchRatio < P.matchRatioThresh → p.state.pos = s.pos ∧ p.state.rot = s.rot) := by
  obtain ⟨model, origins, beamSel, sel, like, st, ent, lvl, new, anc, ord, idx, idx', _, _, _, hst, hR, hnew, _⟩ :=
    C124_resampling hP hd hmw hw hfl hv0 hv hreg hs hr1 hr hb ht hp
  have hlen : n.loc.pf.particles.length = n1.loc.pf.particles.length := by
    have h1 := congrArg List.length (hnew (not_lt.2 hcount))
    have h2 := hR.length
    rw [List.length_map] at h1 h2
    omega
  refine ⟨st, ent, lvl, idx, idx', hst, hR.fresh, hR.fresh', hlen, fun k p hk => ?_⟩
  have hnk : new[k]? = some p.state := by
    rw [← hnew (not_lt.2 hcount), List.getElem?_map, hk]; rfl
  obtain ⟨s0, a, b', h0, hf, hb', h1, h2⟩ := hR.slot k _ hnk
  have hb' : b' = a ∨ Scattered (fun i => sigmas P.resampleVar i * e.2.normal 0 (idx k i)) a b' := by
    by_cases hrep : anc k = (if k = 0 then ord 0 else anc (k - 1))
    · rw [if_pos hrep] at hb'; exact .inr hb'
    · rw [if_neg hrep] at hb'; exact .inl hb'
  rw [List.getElem?_map, Option.map_eq_some_iff] at h0
  obtain ⟨q, hq, rfl⟩ := h0
  have ha : a.pos = q.state.pos ∧ a.rot = q.state.rot := by
    by_cases hj : (¬ P.numParticles < (n1.loc.pf.particles.length : ℤ) ∧ Leapt P n1.loc.statePrev n.loc.statePrev)
    · rw [hf.1 hj]; exact ⟨rfl, rfl⟩
    · rw [hf.2 hj]; exact ⟨rfl, rfl⟩
  refine ⟨q, List.mem_of_getElem? hq, b', ?_, fun hm => (h1 hm).1, fun hm => ?_⟩
  · rcases hb' with rfl | ⟨d, ⟨⟨m1, m2⟩, _⟩, rfl⟩
    · exact .inl ha
    · refine .inr ⟨d, ⟨by rw [m1, ha.1], by rw [m2, ha.2]⟩, rfl, rfl⟩
  · rw [h2 hm]; exact ⟨rfl, rfl⟩

namespace Demo

/-- A map, a cloud, and the configured number of particles. -/
noncomputable def evenHistory : History :=
  [(.mapcloud 1 (msg 10), env 1), (.cloud ⟨"laser", 3⟩ (msg2 10 10), env 3), (.resize 64, env 2)]

theorem evenHistory_regular : RegularClouds (evenHistory ++ [lastCloud]) := by
  intro e he header m hm
  simp only [evenHistory, lastCloud, List.cons_append, List.nil_append, List.mem_cons, List.not_mem_nil, or_false] at he
  rcases he with rfl | rfl | rfl | rfl <;> cases hm
  · exact regular_msg2 10 10
  · exact regular_msg 10

theorem evenHistory_view :
    batchView P0 evenHistory = (true, [⟨⟨"laser", 3⟩, [⟨10, 0, 0⟩, ⟨10, 0, 0⟩]⟩]) := by
  simp [batchView, evenHistory, batchStep, mapAvailable, validCloud_msg, not_completes_nil, scanOf_msg2]

/-- The node localizes with 64 particles. -/
theorem even_runs : ∃ n0 n1 n outs o pos rot cov, start P0 exactLib (env 0) motion0 = .ok n0 ∧
    run P0 exactLib n0 evenHistory = .ok (n1, outs) ∧
    run P0 exactLib n0 (evenHistory ++ [lastCloud]) = .ok (n, outs ++ [o]) ∧
    .pose 3 P0.mapFrame pos rot cov ∈ o ∧ n1.loc.pf.particles.length = 64 := by
  have hx : ∀ x, HasXYZ (msg x) := by simp [HasXYZ, msg]
  have hx2 : ∀ x y, HasXYZ (msg2 x y) := by simp [HasXYZ, msg2]
  obtain ⟨n0, hs, n, outs, hr, hl, _⟩ := exact_runs (evenHistory ++ [lastCloud]) (by
    simp [evenHistory, lastCloud, SafeEvent, hx, hx2, env_valid, keeps])
  obtain ⟨n1, os, o, g1, g2, rfl⟩ := run_snoc_ok hr
  have hv : ∀ e ∈ evenHistory, e.2.Valid := by simp [evenHistory, env_valid]
  obtain ⟨⟨pos, rot, cov, hp⟩, _⟩ := localizes_pts (L := exactLib) hv
    (fun e he => evenHistory_regular e (List.mem_append_left _ he)) (t := 4) (regular_msg 10)
    (usable_msg2 4 3 10 10 (by norm_num) (by norm_num)) hs hr evenHistory_view
  have hpm : .pose 3 P0.mapFrame pos rot cov ∈ o := by
    have : Out.pose 3 P0.mapFrame pos rot cov ∈ o.filter (fun x => (Out.poseCov x).isSome) := by rw [hp]; simp
    exact (List.mem_filter.1 this).1
  refine ⟨n0, n1, n, os, o, pos, rot, cov, hs, g1, hr, hpm, ?_⟩
  obtain ⟨m1, _, _, _, g1, _⟩ := run_cons_ok g1
  obtain ⟨m2, _, _, _, g1, _⟩ := run_cons_ok g1
  obtain ⟨m3, o3, _, h3, g1, _⟩ := run_cons_ok g1
  simp only [run, Outcome.ok.injEq, Prod.mk.injEq] at g1
  obtain ⟨rfl, _⟩ := g1
  obtain ⟨pf, hpf, rfl, _⟩ := cbResize_ok (show cbResize P0 (env 2) m2 64 = .ok (m3, o3) from h3)
  exact (resizeFilter_spec (env_valid _) hpf).2.1

end Demo

/-- The hypotheses of C122, C123 and C124 are met by a run with 64 particles and a map, whose last cloud makes the node
publish a pose. -/
example : Measures Demo.P0 ∧ 0 < Demo.P0.divYaw ∧ 0 ≤ Demo.P0.like.matchWeight ∧
    HistValid (Demo.evenHistory ++ [Demo.lastCloud]) ∧ RegularClouds (Demo.evenHistory ++ [Demo.lastCloud]) ∧
    ∃ n0 n1 n outs o pos rot cov, start Demo.P0 Demo.exactLib (Demo.env 0) Demo.motion0 = .ok n0 ∧
    run Demo.P0 Demo.exactLib n0 Demo.evenHistory = .ok (n1, outs) ∧
    run Demo.P0 Demo.exactLib n0 (Demo.evenHistory ++ [Demo.lastCloud]) = .ok (n, outs ++ [o]) ∧
    (batchStep Demo.P0 (batchView Demo.P0 Demo.evenHistory).1 (batchView Demo.P0 Demo.evenHistory).2
      Demo.lastCloud).1 = some ([] ++ [⟨⟨"laser", 3⟩, [⟨10, 0, 0⟩, ⟨10, 0, 0⟩]⟩]) ∧
    Demo.lastCloud.2.tf Demo.P0.baseFrame Demo.P0.odomFrame 3 = some Demo.tf0 ∧
    .pose 3 Demo.P0.mapFrame pos rot cov ∈ o ∧ (n1.loc.pf.particles.length : ℤ) ≤ Demo.P0.numParticles := by
  obtain ⟨n0, n1, n, outs, o, pos, rot, cov, hs, hr, hr', hp, hn⟩ := Demo.even_runs
  refine ⟨Demo.measures, by rw [Demo.P0_divYaw]; norm_num, ?_, by simp [HistValid, Demo.evenHistory, Demo.lastCloud, Demo.env_valid],
    Demo.evenHistory_regular, n0, n1, n, outs, o, pos, rot, cov, hs, hr, hr', ?_, rfl, hp, ?_⟩
  · norm_num [Demo.P0, Params.loadFrom, Params.loadLike, Server.dblD, Server.getDouble]
  · rw [Demo.evenHistory_view]
    simp [batchStep, Demo.completes_one, Demo.lastCloud]
  · rw [hn]
    norm_num [Demo.P0, Params.loadFrom, Server.intD, Server.getInt]

end Node
end Mcl3dl
