import Verif.Spec.NodePosterior
import Verif.Props.NodeMatchRatio
import Verif.Props.LidarLike

/-! # C118: the estimate is the mean of the particles, weighted by posterior and nearness -/

set_option linter.unusedSectionVars false

namespace Mcl3dl
namespace Node

variable {C : Type}

theorem normal_gaussian {σ : ℝ} (hσ : σ ≠ 0) (x : ℝ) : (NormalLikelihood.make σ).eval x = gaussian σ x :=
  Mcl3dl.NormalLikelihood.C80_density σ x hσ

theorem measureWith_probs (f : Filter) (ls : List ℝ) :
    (measureWith f ls).particles.map PF.Particle.prob = posterior (f.particles.map PF.Particle.prob) ls := by
  have e1 : ∀ (ps : List Particle) (ls : List ℝ), (List.zipWith (fun (p : Particle) l => { p with prob := p.prob * l }) ps ls).map
      PF.Particle.prob = List.zipWith (· * ·) (ps.map PF.Particle.prob) ls := by
    intro ps
    induction ps with
    | nil => intro ls; simp
    | cons p ps ih => intro ls; cases ls <;> simp [ih]
  have e2 : PF.total (List.zipWith (fun (p : Particle) l => { p with prob := p.prob * l }) f.particles ls) =
      (List.zipWith (· * ·) (f.particles.map PF.Particle.prob) ls).sum := by
    rw [PF.total_eq, ← e1]; rfl
  unfold measureWith posterior
  simp only [e2]
  split_ifs with h
  · rw [List.map_map, ← e1, List.map_map]
    rfl
  · rfl

/-- The weights and biases of the particles that vote. -/
theorem pf1_votes {P : Params} (hd : P.biasVarDist ≠ 0) (ha : P.biasVarAng ≠ 0) {prev : State6 ℝ} {f : Filter} {ls : List ℝ}
    (hl : ls.length = f.particles.length) :
    (biasFilter P prev (measureWith f ls)).particles.map (fun p => (voteOf p, p.state)) =
      (votes P prev f.particles ls).zip (f.particles.map PF.Particle.state) := by
  have hlen : (measureWith f ls).particles.length = f.particles.length := measureWith_length _ _ hl
  have hst : (measureWith f ls).particles.map PF.Particle.state = f.particles.map PF.Particle.state := by
    unfold measureWith
    simp only
    split_ifs
    · apply List.ext_getElem
      · simp [hl]
      · intro i h1 h2
        simp
    · rfl
  have hpr := measureWith_probs f ls
  have hb : (biasFilter P prev (measureWith f ls)).particles =
      (measureWith f ls).particles.map fun p => { p with bias := nearness P f.particles.length prev p.state } := by
    unfold biasFilter
    rw [hlen]
    split_ifs with h
    · simp [PF.Filter.bias, nearness, h]
    · simp only [PF.Filter.bias, nearness, if_neg h, normal_gaussian hd, normal_gaussian ha]
  rw [hb, votes, ← hpr]
  apply List.ext_getElem
  · simp [hlen]
  · intro i h1 h2
    have hi : i < (measureWith f ls).particles.length := by simpa using h1
    have hi' : i < f.particles.length := by omega
    have hsi : ((measureWith f ls).particles[i]).state = (f.particles[i]).state := by
      have := congrArg (fun l => l[i]?) hst
      simpa [hi, hi'] using this
    simp [voteOf, hsi]

theorem voteSum_pairs (ps : List Particle) (g : State6 ℝ → ℝ) :
    voteSum ps g = ((ps.map fun p => (voteOf p, p.state)).map fun a => a.1 * g a.2).sum := by
  simp [voteSum, Function.comp_def]

theorem inClip_iff (c : Lidar.Clip ℝ) (p : Vec3 ℝ) :
    (!Lidar.rejected c (c.near * c.near) (c.far * c.far) p) = true ↔ inClip c p := by
  unfold Lidar.rejected inClip
  simp only [pow_two]
  split_ifs with h1 h2 h3
  · simp only [Bool.not_true, Bool.false_eq_true, false_iff]
    intro h; linarith [h.2.1]
  · simp only [Bool.not_true, Bool.false_eq_true, false_iff]
    intro h; linarith [h.1]
  · simp only [Bool.not_true, Bool.false_eq_true, false_iff]
    intro h; rcases h3 with h3 | h3
    · linarith [h.2.2.1]
    · linarith [h.2.2.2]
  · push _root_.Not at h3
    simp only [Bool.not_false, true_iff]
    exact ⟨by linarith, by linarith, h3.1, h3.2⟩

/-- What either sampler returns. -/
theorem sample_spec {P : Params} {env : Env} (hv : env.Valid) {call : ℕ} {stats : Option (Sampler.Stats ℝ)}
    {pts out : List Point} {num : ℕ} (h : sample P env call stats pts num = .ok out) :
    (∀ q ∈ out, q ∈ pts) ∧ out.length ≤ num ∧ (P.useNormalSampler = false → pts ≠ [] → out.length = num) := by
  rw [sample] at h
  split_ifs at h with hs
  · obtain ⟨c, hc1, hc2⟩ := Outcome.bind_eq_ok_iff.1 h
    simp only [Outcome.ok.injEq] at hc2
    obtain ⟨_, g1, g2, g3⟩ := Sampler.C73_distinct hv.order hc1
    rw [← hc2]
    rcases Nat.eq_zero_or_pos num with h0 | h0
    · have e := g1 (.inl h0)
      rw [e]; simp [hs]
    · rcases Nat.lt_or_ge num pts.length with hl | hl
      · obtain ⟨g, ids, _, hids⟩ := g3 h0 hl
        refine ⟨?_, g.le, by simp [hs]⟩
        intro q hq
        obtain ⟨i, hi⟩ := forall₂_right hids q hq
        exact List.mem_of_getElem? hi
      · rw [g2 h0 hl]
        exact ⟨fun _ h => h, hl, by simp [hs]⟩
  · obtain ⟨c, hc1, hc2⟩ := Outcome.bind_eq_ok_iff.1 h
    simp only [Outcome.ok.injEq] at hc2
    obtain ⟨out', g1, _, g3, g4, g5⟩ := Sampler.C72_uniform (env.index call pts.length)
      (⟨(), pts⟩ : Sampler.Cloud Unit Point) num (fun hne k => hv.index _ _ k (List.length_pos_iff.2 hne))
    rw [hc1] at g1
    simp only [Outcome.ok.injEq] at g1
    rw [← hc2, g1]
    refine ⟨g3, ?_, fun _ hne => g4 hne⟩
    by_cases hne : pts = []
    · rw [g5 hne]; simp
    · exact (g4 hne).le

theorem originsOf_spec {P : Params} {env : Env} {stamp : ℝ} {hs : List Header} {os : List (Vec3 ℝ)}
    (h : originsOf P env stamp hs = some os) :
    List.Forall₂ (fun (hd : Header) o => ∃ t, env.tfFull P.baseFrame stamp hd.frame hd.stamp P.odomFrame = some t ∧ o = t.trans)
      hs os := by
  induction hs generalizing os with
  | nil => simp only [originsOf, Option.some.injEq] at h; rw [← h]; exact .nil
  | cons hd hs ih =>
    rw [originsOf] at h
    cases ht : env.tfFull P.baseFrame stamp hd.frame hd.stamp P.odomFrame with
    | none => rw [ht] at h; simp at h
    | some t =>
      rw [ht] at h
      simp only [Option.map_eq_some_iff] at h
      obtain ⟨os', h', rfl⟩ := h
      exact .cons ⟨t, ht, rfl⟩ (ih h')

theorem pointsUsed_eq {d g cnt : ℕ} {num : ℤ} (h0 : 0 ≤ num) (h1 : num < 2 ^ 64) (hov : d * num.toNat < 2 ^ 64) :
    Lidar.globalNumPoints d g (Params.toSize num) cnt = pointsUsed d g num cnt := by
  have e : Params.toSize num = num.toNat := by
    unfold Params.toSize; rw [Int.emod_eq_of_lt h0 h1]
  unfold Lidar.globalNumPoints pointsUsed
  rw [e, Nat.mod_eq_of_lt hov]
  by_cases hc : (cnt : ℤ) ≤ num
  · rw [if_pos hc, if_pos (by omega)]
  · rw [if_neg hc, if_neg (by omega)]
    simp only
    split_ifs with h
    · exact (max_eq_left h.le).symm
    · exact (max_eq_right (not_lt.1 h)).symm

theorem beam_fields {p : Lidar.BeamParams} {b : Lidar.Beam} (h : Lidar.Beam.Reach p b) :
    b.params = p ∧ b.clipFarSq = p.clip.far * p.clip.far ∧ b.clipNearSq = p.clip.near * p.clip.near := by
  induction h with
  | make => exact ⟨rfl, rfl, rfl⟩
  | set _ _ _ ih => exact ih

theorem beam_score {p : Lidar.BeamParams} (h0 : 0 < p.likelihoodMin) (h1 : p.likelihoodMin ≤ 1) (hN : 0 < p.numDefault)
    {b : Lidar.Beam} (hb : Lidar.Beam.Reach p b) {caster : Lidar.Caster C} {pc : List Point} {origins : List (Vec3 ℝ)}
    {s : State6 ℝ} {c : C} {r : Lidar.Result × C} (hm : b.measure caster (some pc) origins s c = .ok r) :
    ∃ sts c', Lidar.Statuses b caster origins s (s.transform pc) c sts c' ∧
      r.1.likelihood = beamScore p (sts.countP fun st => decide (Lidar.Penalised p.shortOnly st)) := by
  obtain ⟨res, c'⟩ := r
  by_cases hne : pc = []
  · subst hne
    have := (Lidar.C67_empty b caster origins s c).2
    rw [hm] at this
    simp only [Outcome.ok.injEq, Prod.mk.injEq] at this
    refine ⟨[], c, .nil, ?_⟩
    simp [this.1, beamScore, h1]
  · obtain ⟨sts, hst, _, hl⟩ := (Lidar.measure_eq hne).1 hm
    obtain ⟨hp, hbl⟩ := hb.facts
    refine ⟨sts, c', hst, ?_⟩
    simp only
    rw [hl, hp, hbl, beamScore, Lidar.beamRoot, if_neg hN.ne', ← Real.rpow_natCast, ← Real.rpow_mul h0.le]
    congr 2
    field_simp

theorem weighLoop_each {P : Params} {lib : Lib C} {m : MapSt} {p : Prep} {R : State6 ℝ → ℝ → Prop}
    (hR : ∀ s w r, particleLikelihood P lib m p s w = .ok r → R s r.1)
    {ps : List Particle} {w : WeighSt C} {r : List ℝ × WeighSt C} (h : weighLoop P lib m p ps w = .ok r) :
    List.Forall₂ (fun (q : Particle) l => R q.state l) ps r.1 := by
  induction ps generalizing w r with
  | nil =>
    simp only [weighLoop, Outcome.ok.injEq] at h
    rw [← h]; exact .nil
  | cons q qs ih =>
    rw [weighLoop] at h
    obtain ⟨a, ha, h⟩ := Outcome.bind_eq_ok_iff.1 h
    obtain ⟨b, hb', h⟩ := Outcome.bind_eq_ok_iff.1 h
    simp only [Outcome.ok.injEq] at h
    rw [← h]
    exact .cons (hR _ _ _ ha) (ih hb')

/-- What the measurement depends on besides the state: where the sensors were, and which points were selected. -/
structure Selection (P : Params) (env : Env) (t : Tf) (scans : List Scan) (last : ℝ) (count : ℕ)
    (origins : List (Vec3 ℝ)) (beamSel sel : List Point) : Prop where
  /-- the sensor of each cloud at the time of the cloud, seen from the robot at the time of the last cloud -/
  origin : List.Forall₂ (fun (s : Scan) o => ∃ t',
    env.tfFull P.baseFrame last s.header.frame s.header.stamp P.odomFrame = some t' ∧ o = t'.trans) scans origins
  beam : ∀ q ∈ beamSel,
    q ∈ env.voxel P.downsample ((labelled scans).map fun p => { p with pos := t.point p.pos }) ∧ inClip P.beam.clip q.pos
  like : ∀ q ∈ sel,
    q ∈ env.voxel P.downsample ((labelled scans).map fun p => { p with pos := t.point p.pos }) ∧ inClip P.like.clip q.pos
  beamCount : beamSel.length ≤ pointsUsed P.beam.numDefault P.beam.numGlobal P.numParticles count
  likeCount : sel.length ≤ pointsUsed P.like.numDefault P.like.numGlobal P.numParticles count
  /-- without the normal sampler the numbers are exact -/
  exact : P.useNormalSampler = false →
    (beamSel ≠ [] → beamSel.length = pointsUsed P.beam.numDefault P.beam.numGlobal P.numParticles count) ∧
    sel.length = pointsUsed P.like.numDefault P.like.numGlobal P.numParticles count
  some : sel ≠ []

theorem filter_spec {P : Params} {env : Env} (hv : env.Valid) {call : ℕ} {stats : Option (Sampler.Stats ℝ)}
    {c : Lidar.Clip ℝ} {num : ℕ} {pts out : List Point}
    (h : Lidar.filter c (c.near * c.near) (c.far * c.far) num (sample P env call stats) pts = .ok out) :
    (∀ q ∈ out, q ∈ pts ∧ inClip c q.pos) ∧ out.length ≤ num ∧
      (P.useNormalSampler = false → out ≠ [] → out.length = num) := by
  obtain ⟨h1, h2, h3⟩ := sample_spec hv h
  refine ⟨fun q hq => ?_, h2, fun hu hne => h3 hu ?_⟩
  · have := List.mem_filter.1 (h1 q hq)
    exact ⟨this.1, (inClip_iff c q.pos).1 this.2⟩
  · intro he
    obtain ⟨q, hq⟩ := List.exists_mem_of_ne_nil _ hne
    have := h1 q hq
    rw [he] at this
    simp at this

/-- The parameters for which the densities and the beam score are meaningful and nothing overflows. -/
structure Measures (P : Params) : Prop where
  beamMin : 0 < P.beam.likelihoodMin
  beamMax : P.beam.likelihoodMin ≤ 1
  beamNum : 0 < P.beam.numDefault
  radius : 0 < (kdCfg P).maxSearchRadius
  chunk : 2 * (kdCfg P).maxSearchRadius ≤ P.mapChunk
  dist : 0 ≤ P.like.matchDistMin
  sigma : P.integLinSigma ≠ 0
  biasDist : P.biasVarDist ≠ 0
  biasAng : P.biasVarAng ≠ 0
  particles : 0 ≤ P.numParticles ∧ P.numParticles < 2 ^ 31
  points : P.beam.numDefault < 2 ^ 31 ∧ P.like.numDefault < 2 ^ 31

/-- What `localize_ok` says of the filter, the outputs and the new members. -/
structure LocDone (P : Params) (lib : Lib C) (env : Env) (m : MapSt) (odo : OdoSt) (warn : Vec3 ℝ) (loc loc' : LocSt C)
    (header : Header) (p : Prep) (outs : List Out) (r : LocRun C) : Prop where
  weigh : weighLoop P lib m p loc.pf.particles ⟨loc.caster, 1, 0⟩ = .ok r.w
  max : (r.pf1 P loc).max = .ok r.eMax
  marks : markersOf P lib m p (r.est P loc) r.w.2.caster = .ok r.marks
  cov : covarianceOf P env 1 (r.pf2 P loc) = .ok r.cov
  accum : accumAll P loc.allAccum ((r.final P odo loc).transform p.likePc) = .ok r.allAccum
  mo : matchOutput P lib env m header.stamp loc.matchLast ((r.final P odo loc).transform p.full) = .ok r.mo
  pf3 : resampleFilter env 0 P.resampleVar (r.pf2 P loc) = .ok r.pf3
  pf5 : expandFilter P env r.w.2.ratioMax (driftFilter P env r.pf3) = .ok r.pf5
  pf6 : reduceFilter P env r.pf5 = .ok r.pf6
  fix : newFixCount P r.pf5.particles.length loc.fixCnt = .ok r.fix
  pf : loc'.pf = r.pf6
  prev : loc'.statePrev = r.est P loc
  all : loc'.allAccum = r.allAccum
  status : loc'.status = r.status P warn loc
  outs_eq : outs = [.markers r.marks.1] ++
        (if P.publishTf then
          [.transforms (transformsOf P (outStamp P odo loc.tolBase (env.now 1)) (r.smooth P odo loc))]
          else []) ++
        [.pose header.stamp P.mapFrame (r.smooth P odo loc).pos (r.smooth P odo loc).rot r.cov] ++ r.mo.2 ++
        [publishParticles P odo loc.tolBase (env.now 2) (r.pf2 P loc),
          publishStatus (r.status P warn loc) r.pf6]

theorem localize_done {P : Params} {lib : Lib C} {env : Env} {m : MapSt} {odo : OdoSt} {warn : Vec3 ℝ}
    {loc loc' : LocSt C} {header : Header} {p : Prep} {outs : List Out}
    (h : localize P lib env m odo warn loc header p = .ok (loc', outs)) :
    ∃ r : LocRun C, LocDone P lib env m odo warn loc loc' header p outs r := by
  obtain ⟨r, h1, h2, h3, h4, h5, h6, h7, h8, h9, h10, rfl, h12⟩ := localize_ok h
  exact ⟨r, h1, h2, h3, h4, h5, h6, h7, h8, h9, h10, rfl, rfl, rfl, rfl, h12⟩

/-- What the preparation selects, and that the models keep their parameters. -/
theorem prepare_selection {P : Params} (hP : Measures P) {lib : Lib C} {env : Env} (hve : env.Valid) {acc : AccSt}
    {loc1 : LocSt C} (hlike : Lidar.Like.Reach P.like loc1.like) (hbeam : Lidar.Beam.Reach P.beam loc1.beam)
    {scans : List Scan} (hh : acc.headers = scans.map Scan.header) (hc : acc.cloud = some (labelled scans))
    {header : Header} {t : Tf} (ht : env.tf P.baseFrame P.odomFrame header.stamp = some t) {p : Prep}
    (hpr : prepare P lib env acc loc1 header = .ok (.ready p)) (hne : p.likePc ≠ []) :
    Lidar.Beam.Reach P.beam p.beam ∧ Lidar.Like.Reach P.like p.like ∧
      p.full = env.voxel P.downsample ((labelled scans).map fun p => { p with pos := t.point p.pos }) ∧
      Selection P env t scans header.stamp loc1.pf.particles.length p.origins p.beamPc p.likePc := by
  obtain ⟨pts, t', q1, q2, q3, q4, q5, _, q7, q8, q9, q10⟩ := prepare_ready hpr
  rw [hc] at q1
  rw [ht] at q2
  simp only [Option.some.injEq] at q1 q2
  subst q1 q2
  have hpl : Lidar.Like.Reach P.like p.like := by rw [q8]; exact .set _ _ hlike
  have hpb : Lidar.Beam.Reach P.beam p.beam := by rw [q7]; exact .set _ _ hbeam
  have hbf : p.beam.params = P.beam ∧ p.beam.clipFarSq = P.beam.clip.far * P.beam.clip.far ∧
      p.beam.clipNearSq = P.beam.clip.near * P.beam.clip.near := beam_fields hpb
  obtain ⟨e1, e2, e3⟩ := like_fields hpl
  obtain ⟨b1, b2, b3⟩ := hbf
  unfold Lidar.Like.filter at q10
  unfold Lidar.Beam.filter at q9
  rw [e1, e2, e3, q5, q4] at q10
  rw [b1, b2, b3, q5, q4] at q9
  obtain ⟨l1, l2, l3⟩ := filter_spec hve q10
  obtain ⟨m1, m2, m3⟩ := filter_spec hve q9
  have hov : ∀ d : ℕ, d < 2 ^ 31 → d * P.numParticles.toNat < 2 ^ 64 := by
    intro d hd
    have : P.numParticles.toNat < 2 ^ 31 := by have := hP.particles; omega
    calc d * P.numParticles.toNat ≤ 2 ^ 31 * 2 ^ 31 := Nat.mul_le_mul hd.le this.le
      _ < 2 ^ 64 := by norm_num
  have hnl : p.like.numPoints = pointsUsed P.like.numDefault P.like.numGlobal P.numParticles loc1.pf.particles.length := by
    rw [q8, (Lidar.C70_models P.beam P.like _ _).2.2.2 _ hlike]
    exact pointsUsed_eq hP.particles.1 (lt_trans hP.particles.2 (by norm_num)) (hov _ hP.points.2)
  have hnb : p.beam.numPoints = pointsUsed P.beam.numDefault P.beam.numGlobal P.numParticles loc1.pf.particles.length := by
    rw [q7, (Lidar.C70_models P.beam P.like _ _).2.2.1 _ hbeam]
    exact pointsUsed_eq hP.particles.1 (lt_trans hP.particles.2 (by norm_num)) (hov _ hP.points.1)
  rw [hnl] at l2 l3
  rw [hnb] at m2 m3
  refine ⟨hpb, hpl, by rw [q5, q4], ?_, m1, l1, m2, l2, fun hu => ⟨m3 hu, l3 hu hne⟩, hne⟩
  have := originsOf_spec q3
  rw [hh] at this
  exact List.forall₂_map_left_iff.1 this

/-- The numbers computed for the particles are their likelihoods. -/
theorem weigh_likelihoods {P : Params} (hP : Measures P) {lib : Lib C} {w : Vec3 ℝ} (hw : 1 ≤ w.x ∧ 1 ≤ w.y ∧ 1 ≤ w.z)
    (hfl : ∀ pts q r num, ExactSearch pts (weightedDist w q) r num (lib.flann pts q r num))
    {m : MapSt} {active : List Point} (hkd : m.kd = ChunkedKdtree.setInputCloud (kdCfg P) (active.map Pt.pos))
    {p : Prep} (hpb : Lidar.Beam.Reach P.beam p.beam) (hpl : Lidar.Like.Reach P.like p.like) (hne : p.likePc ≠ [])
    {ps : List Particle} {w0 : WeighSt C} {r : List ℝ × WeighSt C} (hwl : weighLoop P lib m p ps w0 = .ok r) :
    List.Forall₂ (fun (q : Particle) l =>
      LikelihoodOf P p.beam (caster P lib m) w active p.origins p.beamPc p.likePc q.state l) ps r.1 := by
  have hmax : P.like.matchDistMin ≤ (kdCfg P).maxSearchRadius := by
    simp only [kdCfg, cmax_eq]; exact le_max_right _ _
  have hex : Lidar.ExactAt (active.map Pt.pos) w (search P lib m) P.like.matchDistMin := by
    intro x
    obtain ⟨res, hres, hx⟩ := ChunkedKdtree.C52_equals_whole_cloud_search (kdCfg P) hP.radius hP.chunk
      (active.map Pt.pos) w hw lib.flann hfl x P.like.matchDistMin hP.dist hmax 1
    exact ⟨res, by unfold search; rw [hkd]; exact hres, hx⟩
  refine weighLoop_each (R := fun s l =>
    LikelihoodOf P p.beam (caster P lib m) w active p.origins p.beamPc p.likePc s l) ?_ hwl
  intro s w' r' hr'
  rw [particleLikelihood] at hr'
  obtain ⟨rb, hrb, hr'⟩ := Outcome.bind_eq_ok_iff.1 hr'
  obtain ⟨rl, hrl, hr'⟩ := Outcome.bind_eq_ok_iff.1 hr'
  simp only [Outcome.ok.injEq] at hr'
  obtain ⟨sts, c', hst, hbl⟩ := beam_score hP.beamMin hP.beamMax hP.beamNum hpb hrb
  rw [Lidar.C71_score hpl hP.dist hex hne] at hrl
  simp only [Outcome.ok.injEq] at hrl
  refine ⟨_, c', sts, hst, ?_⟩
  rw [← hr', ← hrl]
  simp only [one_mul, hbl, normal_gaussian hP.sigma, fieldScore, State6.transform, List.map_map]
  rfl

/-- Everything about a callback that publishes a pose. -/
theorem measurement {P : Params} (hP : Measures P) {lib : Lib C} {w : Vec3 ℝ} (hw : 1 ≤ w.x ∧ 1 ≤ w.y ∧ 1 ≤ w.z)
    (hfl : ∀ pts q r num, ExactSearch pts (weightedDist w q) r num (lib.flann pts q r num))
    {env0 : Env} (hv0 : env0.Valid) {motion0 : Motion ℝ} {h : History} {e : Event × Env} (hv : HistValid (h ++ [e]))
    (hreg : RegularClouds (h ++ [e])) {n0 n1 n : Node C} {outs : List (List Out)} {o : List Out}
    (hs : start P lib env0 motion0 = .ok n0) (hr1 : run P lib n0 h = .ok (n1, outs))
    (hr : run P lib n0 (h ++ [e]) = .ok (n, outs ++ [o]))
    {b : List Scan} {s : Scan} (hb : (batchStep P (batchView P h).1 (batchView P h).2 e).1 = some (b ++ [s]))
    {t : Tf} (ht : e.2.tf P.baseFrame P.odomFrame s.header.stamp = some t)
    {stamp : ℝ} {frame : String} {pos : Vec3 ℝ} {rot : Quat ℝ} {cov : ℕ → ℕ → ℝ}
    (hp : .pose stamp frame pos rot cov ∈ o) :
    ∃ (header : Header) (p : Prep) (outs' : List Out) (r : LocRun C),
      header = s.header ∧ o = .batch true :: outs' ∧
      LocDone P lib e.2 n1.map n1.odo n1.stdWarn (freshen e.2 n1).loc n.loc header p outs' r ∧
      r.w.1.length = n1.loc.pf.particles.length ∧
      Lidar.Beam.Reach P.beam p.beam ∧
      p.full = e.2.voxel P.downsample ((labelled (b ++ [s])).map fun p => { p with pos := t.point p.pos }) ∧
      Selection P e.2 t (b ++ [s]) s.header.stamp n1.loc.pf.particles.length p.origins p.beamPc p.likePc ∧
      List.Forall₂ (fun (q : Particle) l =>
        LikelihoodOf P p.beam (caster P lib n1.map) w (mapView P h).active p.origins p.beamPc p.likePc q.state l)
        n1.loc.pf.particles r.w.1 := by
  obtain ⟨n1', os, o1, h1, h2', h3⟩ := run_snoc_ok hr
  obtain ⟨hos, ho1⟩ := List.append_inj' h3 rfl
  simp only [List.cons.injEq, and_true] at ho1
  subst hos ho1
  rw [hr1] at h1
  simp only [Outcome.ok.injEq, Prod.mk.injEq, and_true] at h1
  subst h1
  have hi := run_batchView (fun e he => hreg e (List.mem_append_left _ he)) hr1 (start_batch hs)
  obtain ⟨_, _, hsome⟩ := step_batch hi (hreg e (by simp)) h2'
  obtain ⟨_, acc, c, hh, hc, hcore⟩ := hsome _ hb
  have hve : e.2.Valid := hv e (by simp)
  have hreach : Reachable P lib n1 := ⟨env0, motion0, n0, h, _, hv0, fun e he => hv e (List.mem_append_left _ he), hs, hr1⟩
  have hlike : Lidar.Like.Reach P.like (freshen e.2 n1).loc.like := (reachable_models hreach).1
  have hbeam : Lidar.Beam.Reach P.beam (freshen e.2 n1).loc.beam := (reachable_models hreach).2
  obtain ⟨_, _, ⟨_, _, _, ho⟩ | ⟨_, hme⟩⟩ := measureCore_ok hcore
  · rw [ho] at hp; simp at hp
  have hlast : acc.headers.getLast? = some s.header := by rw [hh]; simp
  have hpfeq : n1.loc.pf = (freshen e.2 n1).loc.pf := rfl
  rw [hpfeq]
  generalize n.loc = loc2 at hme ⊢
  generalize (freshen e.2 n1).loc = loc1 at hme hlike hbeam ⊢
  cases hme with
  | noHeader _ => simp at hp
  | noTf _ _ _ => simp at hp
  | noOrigin _ _ _ _ => simp at hp
  | noPoints _ _ _ _ _ => simp [publishStatus] at hp
  | localized header p _ outs' hl hpr hne hloc =>
    rw [hlast] at hl
    simp only [Option.some.injEq] at hl
    subst hl
    obtain ⟨hpb, hpl, hfull, hsel⟩ := prepare_selection hP hve hlike hbeam hh hc ht hpr hne
    obtain ⟨r, hd⟩ := localize_done hloc
    have hwl := hd.weigh
    have hkd : n1.map.kd = ChunkedKdtree.setInputCloud (kdCfg P) ((mapView P h).active.map Pt.pos) := (mapInv_of_run hs hr1).2.2.1
    exact ⟨_, p, outs', r, rfl, rfl, hd, weighLoop_length hwl, hpb, hfull, hsel,
      weigh_likelihoods hP hw hfl hkd hpb hpl hne hwl⟩

/-- The estimate in terms of the votes. -/
theorem estimate_votes {P : Params} (hd : P.biasVarDist ≠ 0) (ha : P.biasVarAng ≠ 0) (prev : State6 ℝ) {f : Filter}
    {like : List ℝ} (hlen : like.length = f.particles.length) :
    let v := votes P prev f.particles like
    let at' := fun g : State6 ℝ → Vec3 ℝ => v.zip (f.particles.map fun q => g q.state)
    (estimate (biasFilter P prev (measureWith f like))).pos = weightedMean (at' State6.pos) ∧
    (estimate (biasFilter P prev (measureWith f like))).rot =
      (Quat.lookAt (weightedSum (at' fun x => x.rot.rotate ⟨1, 0, 0⟩))
        (weightedSum (at' fun x => x.rot.rotate ⟨0, 0, 1⟩))).normalized := by
  have hv1 := pf1_votes (P := P) hd ha (prev := prev) (f := f) hlen
  have hvl : (votes P prev f.particles like).length = f.particles.length := by
    have := congrArg List.length hv1
    simp only [List.length_map, List.length_zip, (biasFilter_spec _ _ _).1, measureWith_length _ _ hlen] at this
    rw [votes, List.length_zipWith] at this ⊢
    omega
  have hsum : ∀ g : State6 ℝ → ℝ, voteSum (biasFilter P prev (measureWith f like)).particles g =
      (((votes P prev f.particles like).zip (f.particles.map PF.Particle.state)).map
        fun a => a.1 * g a.2).sum := by
    intro g
    rw [voteSum_pairs, hv1]
  have hzip : ∀ (vs : List ℝ) (ps : List Particle) (g : State6 ℝ → Vec3 ℝ) (k : ℝ × Vec3 ℝ → ℝ),
      (vs.zip (ps.map fun q => g q.state)).map k = (vs.zip (ps.map PF.Particle.state)).map fun a => k (a.1, g a.2) := by
    intro vs ps g k
    apply List.ext_getElem
    · simp
    · intro i h1 h2
      simp
  have hfst : ∀ (vs : List ℝ) (ps : List Particle), ((vs.zip (ps.map PF.Particle.state)).map fun a => a.1 * 1).sum =
      ((vs.zip (ps.map fun q => q.state.pos)).map Prod.fst).sum := by
    intro vs ps
    rw [hzip vs ps State6.pos Prod.fst]
    simp
  simp only
  constructor
  · rw [estimate_pos]
    simp only [hsum, weightedMean, hfst, hzip]
  · rw [estimate_rot]
    simp only [hsum, weightedSum, hzip _ _ (fun x : State6 ℝ => x.rot.rotate ⟨1, 0, 0⟩),
      hzip _ _ (fun x : State6 ℝ => x.rot.rotate ⟨0, 0, 1⟩)]

/-- C118: when a callback publishes a pose, the new estimate is the mean of the particles before the callback;
a particle's vote is its posterior weight times its nearness to the last estimate, the posterior being the old
weight times the product of beam score, field score and odometry error density for the selected points. -/
theorem C118_estimate {P : Params} (hP : Measures P) {lib : Lib C} {w : Vec3 ℝ} (hw : 1 ≤ w.x ∧ 1 ≤ w.y ∧ 1 ≤ w.z)
    (hfl : ∀ pts q r num, ExactSearch pts (weightedDist w q) r num (lib.flann pts q r num))
    {env0 : Env} (hv0 : env0.Valid) {motion0 : Motion ℝ} {h : History} {e : Event × Env} (hv : HistValid (h ++ [e]))
    (hreg : RegularClouds (h ++ [e])) {n0 n1 n : Node C} {outs : List (List Out)} {o : List Out}
    (hs : start P lib env0 motion0 = .ok n0) (hr1 : run P lib n0 h = .ok (n1, outs))
    (hr : run P lib n0 (h ++ [e]) = .ok (n, outs ++ [o]))
    {b : List Scan} {s : Scan} (hb : (batchStep P (batchView P h).1 (batchView P h).2 e).1 = some (b ++ [s]))
    {t : Tf} (ht : e.2.tf P.baseFrame P.odomFrame s.header.stamp = some t)
    {stamp : ℝ} {frame : String} {pos : Vec3 ℝ} {rot : Quat ℝ} {cov : ℕ → ℕ → ℝ}
    (hp : .pose stamp frame pos rot cov ∈ o) :
    ∃ (model : Lidar.Beam) (origins : List (Vec3 ℝ)) (beamSel sel : List Point) (like : List ℝ),
      Lidar.Beam.Reach P.beam model ∧
      Selection P e.2 t (b ++ [s]) s.header.stamp n1.loc.pf.particles.length origins beamSel sel ∧
      List.Forall₂ (fun (q : Particle) l =>
        LikelihoodOf P model (caster P lib n1.map) w (mapView P h).active origins beamSel sel q.state l)
        n1.loc.pf.particles like ∧
      (let v := votes P n1.loc.statePrev n1.loc.pf.particles like
       let at' := fun g : State6 ℝ → Vec3 ℝ => v.zip (n1.loc.pf.particles.map fun q => g q.state)
       n.loc.statePrev.pos = weightedMean (at' State6.pos) ∧
       n.loc.statePrev.rot = (Quat.lookAt (weightedSum (at' fun x => x.rot.rotate ⟨1, 0, 0⟩))
         (weightedSum (at' fun x => x.rot.rotate ⟨0, 0, 1⟩))).normalized) := by
  obtain ⟨header, p, outs', r, _, _, hd, hlen, hpb, _, hsel, hlk⟩ := measurement hP hw hfl hv0 hv hreg hs hr1 hr hb ht hp
  refine ⟨p.beam, p.origins, p.beamPc, p.likePc, r.w.1, hpb, hsel, hlk, ?_⟩
  have hpr : n.loc.statePrev = estimate (biasFilter P n1.loc.statePrev (measureWith n1.loc.pf r.w.1)) := by
    rw [hd.prev]; rfl
  rw [hpr]
  exact estimate_votes hP.biasDist hP.biasAng n1.loc.statePrev hlen

theorem Demo.measures : Measures Demo.P0 := by
  constructor
  case radius => rw [Demo.P0_kd]; norm_num
  case chunk =>
    have : Demo.P0.mapChunk = (kdCfg Demo.P0).chunkLength := rfl
    rw [this, Demo.P0_kd]; norm_num
  all_goals norm_num [Demo.P0, Params.loadFrom, Params.loadLike, Params.loadBeam, Server.dblD, Server.getDouble, Server.intD,
    Server.getInt, Params.toSize]

/-- The hypotheses of C118 are met by a run with 65 particles and a map, whose last cloud makes the node publish
a pose. -/
example : ∃ n0 n1 n outs o, start Demo.P0 Demo.exactLib (Demo.env 0) Demo.motion0 = .ok n0 ∧
    run Demo.P0 Demo.exactLib n0 (Demo.poseHistory 10 10 10) = .ok (n1, outs) ∧
    run Demo.P0 Demo.exactLib n0 (Demo.poseHistory 10 10 10 ++ [Demo.lastCloud]) = .ok (n, outs ++ [o]) ∧
    n1.loc.pf.particles.length = 65 ∧
    ∃ (model : Lidar.Beam) (origins : List (Vec3 ℝ)) (beamSel sel : List Point) (like : List ℝ),
      Selection Demo.P0 Demo.lastCloud.2 Demo.tf0 [⟨⟨"laser", 3⟩, [⟨10, 0, 0⟩, ⟨10, 0, 0⟩]⟩] 3 65 origins beamSel sel ∧
      List.Forall₂ (fun (q : Particle) l =>
        LikelihoodOf Demo.P0 model (caster Demo.P0 Demo.exactLib n1.map) ⟨1, 1, 5⟩
          (mapView Demo.P0 (Demo.poseHistory 10 10 10)).active origins beamSel sel q.state l)
        n1.loc.pf.particles like := by
  obtain ⟨n0, n1, n, outs, o, hs, hr, hr', hst, rot, cov, hp, hrot⟩ :=
    Demo.pose_runs 10 10 10 (by norm_num) (by norm_num)
  obtain ⟨h1, h2, _⟩ := Demo.poseHistory_run hs hr
  have hv : HistValid (Demo.poseHistory 10 10 10 ++ [Demo.lastCloud]) := by
    intro e he
    rcases List.mem_append.1 he with he | he
    · exact Demo.poseHistory_valid _ _ _ e he
    · rw [List.mem_singleton.1 he]; exact Demo.env_valid 4
  obtain ⟨model, origins, beamSel, sel, like, _, g2, g3, _⟩ := C118_estimate Demo.measures (w := ⟨1, 1, 5⟩) (by norm_num)
    (fun pts q r num => Demo.exactFlann_spec pts q r num) (Demo.env_valid 0) hv (Demo.poseHistory_regular' _ _ _)
    hs hr hr' (Demo.poseHistory_step _ _ _) (t := Demo.tf0) rfl hp
  refine ⟨n0, n1, n, outs, o, hs, hr, hr', h1, model, origins, beamSel, sel, like, ?_, g3⟩
  rw [h1] at g2
  exact g2

end Node
end Mcl3dl
