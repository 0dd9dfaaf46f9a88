import Verif.Props.DriveLaw
import Verif.Props.NodeEntropy

/-!
# C168: the law of the noise that a localization adds
-/

set_option linter.unusedSectionVars false

namespace Mcl3dl
namespace Node

open MeasureTheory ProbabilityTheory

variable {C : Type}

theorem addNoise_shift (env : Env) (call : ℕ) (sigma : State6 ℝ) (f : Filter) :
    ∃ f', addNoise env call sigma f = .ok f' ∧ f'.particles.length = f.particles.length ∧
      ∀ (k : ℕ) (p : Particle), f'.particles[k]? = some p → ∃ p0, f.particles[k]? = some p0 ∧
        poseOf p = shiftedBy (poseOf p0) fun i => sigmas sigma i * env.normal call (idxOf sigma k i) := by
  refine ⟨_, by rw [addNoise, noiseStates_explicit, Outcome.bind_ok], by simp [PF.Filter.noise], fun k p hp => ?_⟩
  simp only [PF.Filter.noise, List.getElem?_mapIdx, Option.map_eq_some_iff] at hp
  obtain ⟨p0, hp0, rfl⟩ := hp
  have hlt := (List.getElem?_eq_some_iff.1 hp0).1
  obtain ⟨⟨hd1, hd2⟩, -⟩ := disturbed_add env call sigma (idxOf sigma k) p0.state
  refine ⟨p0, hp0, ?_⟩
  simp only [poseOf, pickNoise, List.getD, List.getElem?_map, List.getElem?_range hlt, Option.map_some, Option.getD_some, shiftedBy]
  exact Prod.ext hd1 hd2

theorem shiftedBy_zero (q : Vec3 ℝ × Quat ℝ) : shiftedBy q (fun _ => 0) = q := by
  have h : Quat.ofRPY (⟨0, 0, 0⟩ : Vec3 ℝ) = ⟨0, 0, 0, 1⟩ := by
    simp [Quat.ofRPY]
  refine Prod.ext ?_ ?_
  · simp only [shiftedBy]
    ext <;> simp [Vec3.add_x, Vec3.add_y, Vec3.add_z]
  · simp only [shiftedBy, h]
    ext <;> simp [Quat.mul_x, Quat.mul_y, Quat.mul_z, Quat.mul_w]

theorem withNormal_reseed (env : Env) (call : ℕ) (ω ω' : ℕ → ℝ) : env.withNormal call ω' =
    (env.withNormal call ω).reseed (env.withNormal call ω').normal env.driftNoise := rfl

theorem withNormal_other (env : Env) {call c : ℕ} (h : c ≠ call) (ω ω' : ℕ → ℝ) :
    (env.withNormal call ω).normal c = (env.withNormal call ω').normal c := by
  funext k; simp [Env.withNormal, h]

theorem withNormal_valid {env : Env} (hv : env.Valid) (call : ℕ) (ω : ℕ → ℝ) : (env.withNormal call ω).Valid :=
  ⟨hv.voxel, hv.sort, hv.covIdx, hv.unit, hv.index, hv.canon, hv.normals, hv.order⟩

/-- C168: when the published match ratio is below `match_ratio_thresh`, the particles are moved by independent normally
distributed amounts with the standard deviations `expansion_var` from where they would be without this noise. -/
theorem C168_automatic {P : Params} {lib : Lib C} {env : Env} (hv : env.Valid) {n n1 : Node C} {ev : Event} {o : List Out}
    (h : step P lib (env.withNormal 1 fun _ => 0) n ev = .ok (n1, o)) {stamp : ℝ} {frame : String} {pos : Vec3 ℝ} {rot : Quat ℝ}
    {cov : ℕ → ℕ → ℝ} (hp : .pose stamp frame pos rot cov ∈ o) (hcount : (n.loc.pf.particles.length : ℤ) ≤ P.numParticles) :
    ∃ st en lv, .status st en lv ∈ o ∧ (st.matchRatio < P.matchRatioThresh →
      n1.loc.pf.particles.length = n.loc.pf.particles.length ∧
      ∀ (q : ℕ → Vec3 ℝ × Quat ℝ) (B : ℕ → Set (Vec3 ℝ × Quat ℝ)), (∀ k p, n1.loc.pf.particles[k]? = some p → poseOf p = q k) →
      (∀ k, MeasurableSet (shiftedBy (q k) ⁻¹' B k)) →
      normalStream.real {ω | ∃ n' o', step P lib (env.withNormal 1 ω) n ev = .ok (n', o') ∧ AllIn B n'.loc.pf.particles} =
        ∏ k ∈ Finset.range n.loc.pf.particles.length, (normal6 0 (sigmas P.expansionVar)).real (shiftedBy (q k) ⁻¹' B k)) := by
  have hv' : (env.withNormal 1 fun _ => 0).Valid := withNormal_valid hv _ _
  obtain ⟨r, hw, h0, -, -, h3, h5, h6, hpf, ⟨st, en, lv, hmem, hratio⟩, hsw⟩ := cloud_swap h hp
  refine ⟨st, en, lv, hmem, fun hm => ?_⟩
  rw [hratio] at hm
  have hl2 : (r.pf2 P (freshen (env.withNormal 1 fun _ => 0) n).loc).particles.length = n.loc.pf.particles.length :=
    (pf2_spec (loc := (freshen (env.withNormal 1 fun _ => 0) n).loc) hw).1
  have hl3 : r.pf3.particles.length = n.loc.pf.particles.length := by
    rw [(resampleFilter_spec hv' h3).1, hl2]
  have hl4 : (driftFilter P (env.withNormal 1 fun _ => 0) r.pf3).particles.length = n.loc.pf.particles.length := by
    rw [(driftFilter_spec _ _ _).1, hl3]
  obtain ⟨f5, g5, hl5, hs5⟩ := addNoise_shift (env.withNormal 1 fun _ => 0) 1 P.expansionVar
    (driftFilter P (env.withNormal 1 fun _ => 0) r.pf3)
  rw [expandFilter, if_pos hm, g5, Outcome.ok.injEq] at h5
  subst h5
  rw [hl4] at hl5
  rw [reduceFilter, if_neg (by rw [hl5]; exact not_lt.2 hcount), Outcome.ok.injEq] at h6
  have hl1 : n1.loc.pf.particles.length = n.loc.pf.particles.length := by rw [hpf, ← h6, hl5]
  refine ⟨hl1, fun q B hq hB => ?_⟩
  have hbase : ∀ (k : ℕ) (p : Particle), (driftFilter P (env.withNormal 1 fun _ => 0) r.pf3).particles[k]? = some p → poseOf p = q k := by
    intro k p hk
    have hlt : k < r.pf5.particles.length := by rw [hl5, ← hl4]; exact (List.getElem?_eq_some_iff.1 hk).1
    obtain ⟨p0, e0, e1⟩ := hs5 k _ (List.getElem?_eq_getElem hlt)
    rw [hk, Option.some.injEq] at e0
    subst e0
    have e2 := hq k r.pf5.particles[k] (by rw [hpf, ← h6]; exact List.getElem?_eq_getElem hlt)
    rw [← e2, e1]
    simp only [withNormal_normal, mul_zero]
    exact (shiftedBy_zero _).symm
  rw [← prob_blocks (X := fun ω (k : Fin n.loc.pf.particles.length) i => (0 : Fin 6 → ℝ) i +
    sigmas P.expansionVar i * ω (idxOf P.expansionVar k i)) (by fun_prop) (diagonal_law (idxOf_fresh _)) hB]
  congr 1
  ext ω
  simp only [Set.mem_ofPred_eq]
  obtain ⟨f, g, hl, hs⟩ := addNoise_shift (env.withNormal 1 ω) 1 P.expansionVar (driftFilter P (env.withNormal 1 fun _ => 0) r.pf3)
  rw [hl4] at hl
  obtain ⟨o', ho'⟩ := hsw (env.withNormal 1 ω).normal env.driftNoise r.pf3 f f
    (by
      rw [← h3]
      unfold resampleFilter
      rw [show ((env.withNormal 1 fun _ => 0).reseed (env.withNormal 1 ω).normal env.driftNoise).noiseStates 0 State6.default P.resampleVar =
        (env.withNormal 1 fun _ => 0).noiseStates 0 State6.default P.resampleVar by
          funext j
          rw [noiseStates_explicit, noiseStates_explicit]
          congr 2]
      rfl)
    (by rw [expandFilter, if_pos hm]; exact g)
    (by rw [reduceFilter, if_neg (by rw [hl]; exact not_lt.2 hcount)])
    (by rw [hl, hl5]) (by rw [hl, ← h6, hl5])
  have hstep : step P lib (env.withNormal 1 ω) n ev = _ := ho'
  have key : AllIn B f.particles ↔ ∀ k : Fin n.loc.pf.particles.length,
      shiftedBy (q k) (fun i => (0 : Fin 6 → ℝ) i + sigmas P.expansionVar i * ω (idxOf P.expansionVar k i)) ∈ B k := by
    refine allIn_iff hl (g := fun k => shiftedBy (q k) (fun i => (0 : Fin 6 → ℝ) i +
      sigmas P.expansionVar i * ω (idxOf P.expansionVar k i))) ?_ B
    intro k p hk
    obtain ⟨p0, e0, e1⟩ := hs k p hk
    have hz : (fun i => (0 : Fin 6 → ℝ) i + sigmas P.expansionVar i * ω (idxOf P.expansionVar k i)) =
        fun i => sigmas P.expansionVar i * ω (idxOf P.expansionVar k i) := by funext i; simp
    rw [hz, ← hbase k p0 e0, e1]
    simp only [withNormal_normal]
  constructor
  · rintro ⟨n', o2, hn', hin⟩
    rw [hstep, Outcome.ok.injEq] at hn'
    cases hn'
    exact key.1 hin
  · exact fun hall => ⟨_, o', hstep, key.2 hall⟩

/-- C168: otherwise each new particle is at the place of an old one (`anc`; `Sources`), and exactly those whose source is
that of the new particle before them (for the first: the one sorted first) are moved from there by independent normally
distributed amounts with the standard deviations `resample_var`. -/
theorem C168_jitter {P : Params} (hP : Weighs P) {lib : Lib C} (hnear : ReportsNear lib) {env0 env : Env} (hv0 : env0.Valid)
    (hv : env.Valid) {motion0 : Motion ℝ} {hist : History} (hvh : HistValid hist) (hu : UnitMessages hist) {n0 n n1 : Node C}
    {outs : List (List Out)} (hs : start P lib env0 motion0 = .ok n0) (hr : run P lib n0 hist = .ok (n, outs)) {ev : Event} {o : List Out}
    (h : step P lib env n ev = .ok (n1, o)) {stamp : ℝ} {frame : String} {pos : Vec3 ℝ} {rot : Quat ℝ}
    {cov : ℕ → ℕ → ℝ} (hp : .pose stamp frame pos rot cov ∈ o) (hcount : (n.loc.pf.particles.length : ℤ) ≤ P.numParticles) :
    ∃ st en lv, .status st en lv ∈ o ∧ (¬ st.matchRatio < P.matchRatioThresh →
      ∃ (like : List ℝ) (anc ord : ℕ → ℕ), like.length = n.loc.pf.particles.length ∧ (∀ x ∈ like, 0 ≤ x) ∧
      Sources (posterior (n.loc.pf.particles.map PF.Particle.prob) like) env.unit anc ord ∧
      ∀ (q : ℕ → Vec3 ℝ × Quat ℝ) (B : ℕ → Set (Vec3 ℝ × Quat ℝ)), (∀ k p, n.loc.pf.particles[k]? = some p → poseOf p = q k) →
      (∀ k, MeasurableSet (shiftedBy (q (anc k)) ⁻¹' B k)) →
      open Classical in
      normalStream.real {ω | ∃ n' o', step P lib (env.withNormal 0 ω) n ev = .ok (n', o') ∧ AllIn B n'.loc.pf.particles} =
        ∏ k ∈ Finset.range n.loc.pf.particles.length,
          if anc k = (if k = 0 then ord 0 else anc (k - 1)) then
            (normal6 0 (sigmas P.resampleVar)).real (shiftedBy (q (anc k)) ⁻¹' B k)
          else if q (anc k) ∈ B k then 1 else 0) := by
  classical
  obtain ⟨r, hw, h0, ⟨acc, hd, p, hprep, hwl⟩, hmax, h3, h5, h6, hpf, ⟨st, en, lv, hmem, hratio⟩, hsw⟩ := cloud_swap h hp
  refine ⟨st, en, lv, hmem, fun hm => ?_⟩
  rw [hratio] at hm
  have hreach : Reachable P lib n := ⟨env0, motion0, n0, hist, _, hv0, hvh, hs, hr⟩
  obtain ⟨hlk, hbm⟩ := reachable_models hreach
  obtain ⟨_, _, _, _, _, _, _, _, hb1, hl1, _⟩ := prepare_ready hprep
  have hpb : p.beam.params = P.beam := by
    have : Lidar.Beam.Reach P.beam p.beam := by rw [hb1]; exact .set _ _ hbm
    exact this.facts.1
  have hpl : p.like.params = P.like := by
    have : Lidar.Like.Reach P.like p.like := by rw [hl1]; exact .set _ _ hlk
    exact (like_fields this).1
  obtain ⟨hlike, -, -⟩ := weighLoop_pos hP hnear hpb hpl le_rfl hwl
  obtain ⟨l2, p2, s2⟩ := pf2_spec (P := P) (loc := (freshen env n).loc) (r := r) hw
  have hpfeq : (freshen env n).loc.pf = n.loc.pf := rfl
  rw [hpfeq] at l2 p2 s2
  have hne : n.loc.pf.particles ≠ [] := by
    intro hnil
    have : (r.pf1 P (freshen env n).loc).particles = [] := by
      apply List.length_eq_zero_iff.1
      rw [LocRun.pf1, (biasFilter_spec _ _ _).1, hpfeq, measureWith_length _ _ hw, hnil]
      rfl
    rw [PF.Filter.max, this] at hmax
    simp at hmax
  obtain ⟨hnn, hsum⟩ := C115_weights hP.yaw hvh hs hr
  have hW : Weighted (fun x => 0 < x) (measureWith n.loc.pf r.w.1) := by
    refine Weighted.measureWith one_pos ⟨hnn, fun hne => ?_⟩ hlike
    rcases hsum hne with e | ⟨_, e⟩
    · rw [show (n.loc.pf.particles.map PF.Particle.prob).sum = 1 from e]; exact one_pos
    · rw [show (n.loc.pf.particles.map PF.Particle.prob).sum = P.divYaw from e]; exact_mod_cast hP.yaw
  have hprob : (r.pf2 P (freshen env n).loc).particles.map PF.Particle.prob =
      (measureWith n.loc.pf r.w.1).particles.map PF.Particle.prob := by rw [p2, measureWith_probs]
  have hW2 : Weighted (fun x => 0 < x) (r.pf2 P (freshen env n).loc) := hW.same hprob
  have hne2 : (r.pf2 P (freshen env n).loc).particles ≠ [] := by
    intro h0
    rw [h0] at l2
    exact hne (List.length_eq_zero_iff.1 l2.symm)
  obtain ⟨anc, ord, hsrc, hall⟩ := resample_sources_all hv _ hne2 hW2.1 (hW2.2 hne2)
  have hl3 : r.pf3.particles.length = n.loc.pf.particles.length := by
    rw [(resampleFilter_spec hv h3).1, l2]
  rw [expandFilter, if_neg hm, Outcome.ok.injEq] at h5
  have hl5 : r.pf5.particles.length = n.loc.pf.particles.length := by
    rw [← h5, (driftFilter_spec _ _ _).1, hl3]
  rw [reduceFilter, if_neg (by rw [hl5]; exact not_lt.2 hcount), Outcome.ok.injEq] at h6
  rw [p2] at hsrc
  refine ⟨r.w.1, anc, ord, hw, hlike, hsrc, fun q B hq hB => ?_⟩
  set A : ℕ → Set (Fin 6 → ℝ) := fun k => if anc k = (if k = 0 then ord 0 else anc (k - 1)) then
    shiftedBy (q (anc k)) ⁻¹' B k else {_x | q (anc k) ∈ B k} with hA
  have hAm : ∀ k, MeasurableSet (A k) := by
    intro k
    simp only [hA]
    by_cases hc : anc k = (if k = 0 then ord 0 else anc (k - 1))
    · rw [if_pos hc]; exact hB k
    · rw [if_neg hc]; exact MeasurableSet.const _
  have hAv : ∀ k, (normal6 0 (sigmas P.resampleVar)).real (A k) = if anc k = (if k = 0 then ord 0 else anc (k - 1)) then
            (normal6 0 (sigmas P.resampleVar)).real (shiftedBy (q (anc k)) ⁻¹' B k)
          else if q (anc k) ∈ B k then 1 else 0 := by
    intro k
    simp only [hA]
    by_cases hc : anc k = (if k = 0 then ord 0 else anc (k - 1))
    · rw [if_pos hc, if_pos hc]
    · rw [if_neg hc, if_neg hc]
      by_cases hb : q (anc k) ∈ B k
      · simp [hb]
      · simp [hb]
  rw [← Finset.prod_congr rfl (fun k _ => hAv k), ← prob_blocks (X := fun ω (k : Fin n.loc.pf.particles.length) i => (0 : Fin 6 → ℝ) i +
    sigmas P.resampleVar i * ω (idxOf P.resampleVar k i)) (by fun_prop) (diagonal_law (idxOf_fresh _)) hAm]
  congr 1
  ext ω
  simp only [Set.mem_ofPred_eq]
  set ns := (List.range n.loc.pf.particles.length).map fun k => noiseState State6.default
      (noiseComp (env.withNormal 0 ω) 0 State6.default P.resampleVar (idxOf P.resampleVar k)) with hns
  obtain ⟨f3, g3, hlf, hslot⟩ := hall (pickNoise ns)
  rw [l2] at hlf
  have hl4 : (driftFilter P (env.withNormal 0 ω) f3).particles.length = n.loc.pf.particles.length := by
    rw [(driftFilter_spec _ _ _).1, hlf]
  obtain ⟨o', ho'⟩ := hsw (env.withNormal 0 ω).normal env.driftNoise f3 (driftFilter P (env.withNormal 0 ω) f3)
    (driftFilter P (env.withNormal 0 ω) f3)
    (by
      rw [← g3]
      unfold resampleFilter
      rw [noiseStates_explicit, Outcome.bind_ok, l2]
      rfl)
    (by rw [expandFilter, if_neg hm]; rfl)
    (by rw [reduceFilter, if_neg (by rw [hl4]; exact not_lt.2 hcount)])
    (by rw [hl4, hl5]) (by rw [hl4, ← h6, hl5])
  have hstep : step P lib (env.withNormal 0 ω) n ev = _ := ho'
  have hunit := C126_unit hvh hu hs hr
  have hpose : ∀ (k : ℕ) (p : Particle), (driftFilter P (env.withNormal 0 ω) f3).particles[k]? = some p → poseOf p =
      if anc k = (if k = 0 then ord 0 else anc (k - 1)) then
        shiftedBy (q (anc k)) (fun i => (0 : Fin 6 → ℝ) i + sigmas P.resampleVar i * ω (idxOf P.resampleVar k i))
      else q (anc k) := by
    intro k p hk
    simp only [driftFilter, List.getElem?_mapIdx, Option.map_eq_some_iff] at hk
    obtain ⟨p3, e3, rfl⟩ := hk
    obtain ⟨hk3, rfl⟩ := List.getElem?_eq_some_iff.1 e3
    obtain ⟨ha, hc⟩ := hslot k hk3
    obtain ⟨s, hs', hf⟩ := s2 (anc k) _ (List.getElem?_eq_getElem ha)
    have hps : poseOf (r.pf2 P (freshen env n).loc).particles[anc k] = q (anc k) := by
      rw [← hq _ s hs']
      by_cases hj : (¬ P.numParticles < (n.loc.pf.particles.length : ℤ) ∧ Leapt P (freshen env n).loc.statePrev (r.est P (freshen env n).loc))
      · simp only [poseOf]; rw [hf.1 hj]
      · simp only [poseOf]; rw [hf.2 hj]
    have hur : (q (anc k)).2.dot (q (anc k)).2 = 1 := by
      rw [← hq _ s hs']
      exact hunit s (List.mem_of_getElem? hs')
    by_cases hd : anc k = (if k = 0 then ord 0 else anc (k - 1))
    · rw [if_pos hd] at hc ⊢
      have hz : (fun i => (0 : Fin 6 → ℝ) i + sigmas P.resampleVar i * ω (idxOf P.resampleVar k i)) =
        fun i => sigmas P.resampleVar i * ω (idxOf P.resampleVar k i) := by funext i; simp
      rw [hz]
      have hlt : k < n.loc.pf.particles.length := by omega
      have hpick : pickNoise ns k = noiseState State6.default
          (noiseComp (env.withNormal 0 ω) 0 State6.default P.resampleVar (idxOf P.resampleVar k)) := by
        simp only [hns, pickNoise, List.getD, List.getElem?_map, List.getElem?_range hlt, Option.map_some, Option.getD_some]
      rw [hpick] at hc
      obtain ⟨⟨hd1, hd2⟩, -⟩ := disturbed_add (env.withNormal 0 ω) 0 P.resampleVar (idxOf P.resampleVar k)
        (r.pf2 P (freshen env n).loc).particles[anc k].state
      simp only [withNormal_normal] at hd1 hd2
      have e1 : (r.pf2 P (freshen env n).loc).particles[anc k].state.pos = (q (anc k)).1 := congrArg Prod.fst hps
      have e2 : (r.pf2 P (freshen env n).loc).particles[anc k].state.rot = (q (anc k)).2 := congrArg Prod.snd hps
      rw [e1] at hd1
      rw [e2] at hd2
      refine Prod.ext ?_ ?_
      · show f3.particles[k].state.pos = _
        rw [hc]
        exact hd1
      · show f3.particles[k].state.rot = _
        rw [hc]
        show (Quat.normalized _) = _
        refine (congrArg Quat.normalized hd2).trans ?_
        refine Quat.C31_normalized_unit _ ?_
        rw [Quat.C29_dot_mul, Quat.C32_unit, hur, one_mul]
    · rw [if_neg hd] at hc ⊢
      rw [← hps]
      show (f3.particles[k].state.pos, f3.particles[k].state.rot) = _
      rw [hc]
      rfl
  have key : AllIn B (driftFilter P (env.withNormal 0 ω) f3).particles ↔ ∀ k : Fin n.loc.pf.particles.length,
      (fun i => (0 : Fin 6 → ℝ) i + sigmas P.resampleVar i * ω (idxOf P.resampleVar k i)) ∈ A k := by
    rw [allIn_iff hl4 hpose B]
    refine forall_congr' fun k => ?_
    simp only [hA]
    by_cases hc : anc k = (if (k : ℕ) = 0 then ord 0 else anc (k - 1))
    · rw [if_pos hc, if_pos hc]; exact Iff.rfl
    · rw [if_neg hc, if_neg hc]; exact Iff.rfl
  constructor
  · rintro ⟨n', o2, hn', hin⟩
    rw [hstep, Outcome.ok.injEq] at hn'
    cases hn'
    exact key.1 hin
  · exact fun hall => ⟨_, o', hstep, key.2 hall⟩

end Node
end Mcl3dl
