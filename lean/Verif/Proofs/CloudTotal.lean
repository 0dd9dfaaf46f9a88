import Verif.Proofs.NodeCloud
import Verif.Proofs.NodeTotal
import Verif.Props.Sampler
import Verif.Props.PFEstimate
import Verif.Props.NodeMap
import Verif.Spec.NodeSafe

/-! # When the cloud callback always ends normally -/

namespace Mcl3dl
namespace Node

variable {C : Type}

theorem search_total {P : Params} {lib : Lib C} (hf : FlannIds lib.flann) (m : MapSt) (p : Vec3 ℝ) {r : ℝ}
    (hr : r ≤ P.mapChunk) : ∃ l, search P lib m p r = .ok l := by
  unfold search ChunkedKdtree.radiusSearch
  have h1 : ¬ (kdCfg P).chunkLength < r := not_lt.2 hr
  rw [if_neg h1]
  simp only
  split_ifs with h2 h3
  · exact ⟨_, rfl⟩
  · exact ⟨_, rfl⟩
  · exact absurd (fun e he => by simpa using hf _ _ _ _ e he) h3

theorem likeLoop_total {q : Lidar.LikeParams} {search : Vec3 ℝ → ℝ → Outcome (List (ℕ × ℝ))}
    (h : ∀ p, ∃ l, search p q.matchDistMin = .ok l) (pts : List Point) (score : ℝ) (num : ℕ) :
    ∃ r, Lidar.likeLoop q search pts score num = .ok r := by
  induction pts generalizing score num with
  | nil => exact ⟨_, rfl⟩
  | cons p ps ih =>
    rw [Lidar.likeLoop]
    obtain ⟨l, hl⟩ := h p.pos
    rw [hl, Outcome.bind_ok]
    cases l with
    | nil => exact ih _ _
    | cons e es =>
      simp only
      split_ifs <;> exact ih _ _

theorem likeMeasure_total {l : Lidar.Like} {search : Vec3 ℝ → ℝ → Outcome (List (ℕ × ℝ))}
    (h : ∀ p, ∃ r, search p l.params.matchDistMin = .ok r) (pts : List Point) (s : State6 ℝ) :
    ∃ r, l.measure search (some pts) s = .ok r := by
  unfold Lidar.Like.measure
  simp only
  split_ifs
  · exact ⟨_, rfl⟩
  · obtain ⟨r, hr⟩ := likeLoop_total h (s.transform pts) 0 0
    rw [hr]
    exact ⟨_, rfl⟩

/-- The rays of a state are all accepted. -/
def RaysOk (ok : Vec3 ℝ → Vec3 ℝ → Prop) (origins : List (Vec3 ℝ)) (s : State6 ℝ) (pts : List Point) : Prop :=
  ∀ p ∈ s.transform pts, ∃ o, origins[p.attr]? = some o ∧ ok (s.pos + s.rot.rotate o) p.pos

theorem beamLoop_total {b : Lidar.Beam} {c : Lidar.Caster C} {I : C → Prop} {ok : Vec3 ℝ → Vec3 ℝ → Prop}
    (hc : CastsRays b c I ok) {origins : List (Vec3 ℝ)} (s : State6 ℝ) (pts : List Point)
    (hr : ∀ p ∈ pts, ∃ o, origins[p.attr]? = some o ∧ ok (s.pos + s.rot.rotate o) p.pos) (score : ℝ) (w : C)
    (hw : I w) : ∃ r, Lidar.beamLoop b c origins s pts score w = .ok r ∧ I r.2 := by
  induction pts generalizing score w with
  | nil => exact ⟨_, rfl, hw⟩
  | cons p ps ih =>
    rw [Lidar.beamLoop]
    obtain ⟨o, ho, hk⟩ := hr p List.mem_cons_self
    obtain ⟨st, w', h1, h2⟩ := hc _ _ w hw hk
    rw [ho]
    simp only [h1, Outcome.bind_ok]
    exact ih (fun q hq => hr q (List.mem_cons_of_mem _ hq)) _ _ h2

theorem beamMeasure_total {b : Lidar.Beam} {c : Lidar.Caster C} {I : C → Prop} {ok : Vec3 ℝ → Vec3 ℝ → Prop}
    (hc : CastsRays b c I ok) {origins : List (Vec3 ℝ)} (s : State6 ℝ) (pts : List Point)
    (hr : RaysOk ok origins s pts) (w : C) (hw : I w) :
    ∃ r, b.measure c (some pts) origins s w = .ok r ∧ I r.2 := by
  unfold Lidar.Beam.measure
  simp only
  split_ifs
  · exact ⟨_, rfl, hw⟩
  · obtain ⟨r, h1, h2⟩ := beamLoop_total hc s (s.transform pts) hr 1 w hw
    rw [h1]
    exact ⟨_, rfl, h2⟩

theorem particleLikelihood_total {P : Params} {lib : Lib C} (hf : FlannIds lib.flann) {m : MapSt} {p : Prep}
    {I : C → Prop} {ok : Vec3 ℝ → Vec3 ℝ → Prop} (hc : CastsRays p.beam (caster P lib m) I ok)
    (hd : p.like.params.matchDistMin ≤ P.mapChunk) (s : State6 ℝ)
    (hr : RaysOk ok p.origins s p.beamPc) (w : WeighSt C) (hw : I w.caster) :
    ∃ r, particleLikelihood P lib m p s w = .ok r ∧ I r.2.caster := by
  obtain ⟨rb, h1, h2⟩ := beamMeasure_total hc s p.beamPc hr w.caster hw
  obtain ⟨rl, h3⟩ := likeMeasure_total (l := p.like) (search := search P lib m)
    (fun q => search_total hf m q hd) p.likePc s
  unfold particleLikelihood
  rw [h1, Outcome.bind_ok, h3]
  exact ⟨_, rfl, h2⟩

theorem weighLoop_total {P : Params} {lib : Lib C} (hf : FlannIds lib.flann) {m : MapSt} {p : Prep}
    {I : C → Prop} {ok : Vec3 ℝ → Vec3 ℝ → Prop} (hc : CastsRays p.beam (caster P lib m) I ok)
    (hd : p.like.params.matchDistMin ≤ P.mapChunk) (qs : List Particle)
    (hr : ∀ q ∈ qs, RaysOk ok p.origins q.state p.beamPc) (w : WeighSt C) (hw : I w.caster) :
    ∃ r, weighLoop P lib m p qs w = .ok r ∧ I r.2.caster := by
  induction qs generalizing w with
  | nil => exact ⟨_, rfl, hw⟩
  | cons q qs ih =>
    rw [weighLoop]
    obtain ⟨r, h1, h2⟩ := particleLikelihood_total hf hc hd q.state (hr q List.mem_cons_self) w hw
    obtain ⟨r', h3, h4⟩ := ih (fun q hq => hr q (List.mem_cons_of_mem _ hq)) r.2 h2
    rw [h1, Outcome.bind_ok, h3]
    exact ⟨_, rfl, h4⟩

theorem rayMarkers_total {b : Lidar.Beam} {c : Lidar.Caster C} {I : C → Prop} {ok : Vec3 ℝ → Vec3 ℝ → Prop}
    (hc : CastsRays b c I ok) {origins : List (Vec3 ℝ)} (e : State6 ℝ) (pts : List Point)
    (hr : ∀ p ∈ pts, ∃ o, origins[p.attr]? = some o ∧ ok (e.pos + e.rot.rotate o) p.pos) (id : ℕ) (w : C)
    (hw : I w) : ∃ r, rayMarkers b c origins e pts id w = .ok r ∧ I r.2 := by
  induction pts generalizing id w with
  | nil => exact ⟨_, rfl, hw⟩
  | cons p ps ih =>
    rw [rayMarkers]
    obtain ⟨o, ho, hk⟩ := hr p List.mem_cons_self
    obtain ⟨st, w', h1, h2⟩ := hc _ _ w hw hk
    rw [ho]
    simp only [h1, Outcome.bind_ok]
    obtain ⟨r, h3, h4⟩ := ih (fun q hq => hr q (List.mem_cons_of_mem _ hq))
      (id + (if st = .long then ([] : List Marker) else [⟨id, .collision, [], [collisionColor st]⟩]).length + 1) w' h2
    rw [h3]
    exact ⟨_, rfl, h4⟩

theorem markersOf_total {P : Params} {lib : Lib C} {m : MapSt} {p : Prep}
    {I : C → Prop} {ok : Vec3 ℝ → Vec3 ℝ → Prop} (hc : CastsRays p.beam (caster P lib m) I ok) (e : State6 ℝ)
    (hr : RaysOk ok p.origins e p.beamPc) (w : C) (hw : I w) :
    ∃ r, markersOf P lib m p e w = .ok r ∧ I r.2 := by
  obtain ⟨r, h1, h2⟩ := rayMarkers_total hc e (e.transform p.beamPc) hr 0 w hw
  unfold markersOf
  rw [h1]
  exact ⟨_, rfl, h2⟩

theorem splitMatch_total {P : Params} {lib : Lib C} (hf : FlannIds lib.flann) (m : MapSt)
    (hd : P.unmatchOutputDist ≤ P.mapChunk) (pts : List Point) : ∃ r, splitMatch P lib m pts = .ok r := by
  induction pts with
  | nil => exact ⟨_, rfl⟩
  | cons p ps ih =>
    rw [splitMatch]
    obtain ⟨l, hl⟩ := search_total hf m p.pos hd
    obtain ⟨r, hr⟩ := ih
    rw [hl, Outcome.bind_ok, hr, Outcome.bind_ok]
    cases l with
    | nil => exact ⟨_, rfl⟩
    | cons e es =>
      simp only
      split_ifs <;> exact ⟨_, rfl⟩

theorem matchOutput_total {P : Params} {lib : Lib C} (hf : FlannIds lib.flann) (env : Env) (m : MapSt)
    (hd : P.unmatchOutputDist ≤ P.mapChunk) (stamp last : ℝ) (pts : List Point) :
    ∃ r, matchOutput P lib env m stamp last pts = .ok r := by
  unfold matchOutput
  obtain ⟨r, hr⟩ := splitMatch_total hf m hd pts
  rw [hr, Outcome.bind_ok]
  split_ifs <;> exact ⟨_, rfl⟩

theorem covarianceOf_total {P : Params} {env : Env} (hv : env.Valid) (call : ℕ) (f : Filter) :
    ∃ cov, covarianceOf P env call f = .ok cov := by
  unfold covarianceOf
  simp only
  have hidx := hv.covIdx call (PF.passCount 1 0 f.particles)
    (decide (cmax (1 / 10) ((P.numParticles : ℝ) / (f.particles.length : ℝ)) < 1))
    ⌊(PF.passCount 1 0 f.particles : ℝ) * cmax (1 / 10) ((P.numParticles : ℝ) / (f.particles.length : ℝ))⌋₊
  revert hidx
  generalize env.covIdx call (PF.passCount 1 0 f.particles) _ _ = idx
  intro hidx
  have hlt : ∀ i ∈ idx, i < f.particles.length := by
    intro i hi
    have hle := PF.passCount_le (1 : ℝ) 0 f.particles
    unfold PF.CovIndices at hidx
    split_ifs at hidx
    · obtain ⟨sh, hp, rfl⟩ := hidx
      have := List.mem_range.1 (hp.mem_iff.1 (List.mem_of_mem_take hi))
      omega
    · rw [hidx] at hi
      have := List.mem_range.1 hi
      omega
  unfold PF.Filter.covariance
  simp only
  have he : (f.expectation State6.meanQuat 1 f.particles).2.particles.length = f.particles.length := by
    unfold PF.Filter.expectation
    split_ifs <;> rfl
  rw [if_pos (by rw [he]; exact hlt)]
  exact ⟨_, rfl⟩

/-- A localization ends normally. -/
theorem localize_total {P : Params} (h0 : 0 ≤ P.numParticles) (hl : 0 ≤ P.lpfStep)
    (hu : P.unmatchOutputDist ≤ P.mapChunk) {lib : Lib C} (hf : FlannIds lib.flann)
    {env : Env} (hv : env.Valid) {m : MapSt} {odo : OdoSt} {warn : Vec3 ℝ} {loc : LocSt C} {header : Header}
    {p : Prep} {I : C → Prop} {ok : Vec3 ℝ → Vec3 ℝ → Prop} (hc : CastsRays p.beam (caster P lib m) I ok)
    (hd : p.like.params.matchDistMin ≤ P.mapChunk)
    (hr : ∀ q ∈ loc.pf.particles, RaysOk ok p.origins q.state p.beamPc)
    (hre : ∀ w, weighLoop P lib m p loc.pf.particles ⟨loc.caster, 1, 0⟩ = .ok w →
      RaysOk ok p.origins (estimate (biasFilter P loc.statePrev (measureWith loc.pf w.1))) p.beamPc)
    (hw : I loc.caster)
    (hne : loc.pf.particles ≠ []) (ha : loc.allAccum ≠ none) :
    ∃ loc' o, localize P lib env m odo warn loc header p = .ok (loc', o) ∧ I loc'.caster := by
  obtain ⟨w, h1, hw1⟩ := weighLoop_total hf hc hd loc.pf.particles hr ⟨loc.caster, 1, 0⟩ hw
  have hlen : (biasFilter P loc.statePrev (measureWith loc.pf w.1)).particles.length = loc.pf.particles.length := by
    rw [(biasFilter_spec _ _ _).1, measureWith_length _ _ (weighLoop_length h1)]
  have hre1 := hre w h1
  unfold localize
  rw [h1, Outcome.bind_ok]
  simp only
  generalize hpf1 : biasFilter P loc.statePrev (measureWith loc.pf w.1) = pf1
  rw [hpf1] at hlen hre1
  have hne1 : pf1.particles ≠ [] := by
    intro h; rw [h] at hlen
    exact hne (List.length_eq_zero_iff.1 hlen.symm)
  have hmax : ∃ s, pf1.max = .ok s := by
    unfold PF.Filter.max
    cases h : pf1.particles with
    | nil => exact absurd h hne1
    | cons a l => exact ⟨_, rfl⟩
  obtain ⟨s, hmax⟩ := hmax
  rw [hmax, Outcome.bind_ok]
  obtain ⟨mk, hmk, hwm⟩ := markersOf_total hc (estimate pf1) hre1 w.2.caster hw1
  rw [hmk, Outcome.bind_ok]
  generalize hpf2 : (if (jumpOf P pf1.particles.length loc.statePrev (estimate pf1)).2 = true
    then pf1.predict resetInteg else pf1) = pf2
  have hlen2 : pf2.particles.length = loc.pf.particles.length := by
    rw [← hpf2]
    split_ifs
    · simp [PF.Filter.predict, hlen]
    · exact hlen
  obtain ⟨cov, hcov⟩ := covarianceOf_total (P := P) hv 1 pf2
  rw [hcov, Outcome.bind_ok]
  have hacc : ∀ q, ∃ a, accumAll P loc.allAccum q = .ok a := by
    intro q
    unfold accumAll
    split_ifs
    · cases h : loc.allAccum with
      | none => exact absurd h ha
      | some a => exact ⟨_, rfl⟩
    · exact ⟨_, rfl⟩
  obtain ⟨al, hal⟩ := hacc _
  rw [hal, Outcome.bind_ok]
  obtain ⟨mo, hmo⟩ := matchOutput_total hf env m hu header.stamp loc.matchLast _
  rw [hmo, Outcome.bind_ok]
  obtain ⟨pf3, hpf3⟩ := resampleFilter_total hv 0 P.resampleVar pf2
  rw [hpf3, Outcome.bind_ok]
  obtain ⟨pf5, hpf5⟩ := expandFilter_total P env w.2.ratioMax (driftFilter P env pf3)
  rw [hpf5, Outcome.bind_ok]
  have hlen5 : pf5.particles.length = loc.pf.particles.length := by
    rw [(expandFilter_spec hpf5).1, (driftFilter_spec _ _ _).1, (resampleFilter_spec hv hpf3).1, hlen2]
  have hne5 : pf5.particles ≠ [] := by
    intro h; rw [h] at hlen5
    exact hne (List.length_eq_zero_iff.1 hlen5.symm)
  obtain ⟨pf6, hpf6⟩ := reduceFilter_total hv hne5 h0
  rw [hpf6, Outcome.bind_ok]
  obtain ⟨fix, hfix⟩ := newFixCount_total hl pf5.particles.length loc.fixCnt
  rw [hfix, Outcome.bind_ok]
  exact ⟨_, _, rfl, hwm⟩

theorem sample_total {P : Params} (hu : P.useNormalSampler = false) {env : Env} (hv : env.Valid) (call : ℕ)
    (stats : Option (Sampler.Stats ℝ)) (pts : List Point) (num : ℕ) :
    ∃ ps, sample P env call stats pts num = .ok ps := by
  obtain ⟨out, h, _⟩ := Sampler.C72_uniform (env.index call pts.length) ⟨(), pts⟩ num
    (fun hne k => hv.index _ _ _ (List.length_pos_iff.2 hne))
  unfold sample
  rw [if_neg (by simp [hu]), h]
  exact ⟨_, rfl⟩

theorem prepare_total {P : Params} (hu : P.useNormalSampler = false) {lib : Lib C} {env : Env} (hv : env.Valid)
    {acc : AccSt} {loc : LocSt C} {header : Header} (ha : acc.cloud ≠ none) :
    ∃ r, prepare P lib env acc loc header = .ok r := by
  unfold prepare
  cases h : acc.cloud with
  | none => exact absurd h ha
  | some pts =>
    simp only
    cases env.tf P.baseFrame P.odomFrame header.stamp with
    | none => exact ⟨_, rfl⟩
    | some t =>
      simp only
      cases originsOf P env header.stamp acc.headers with
      | none => exact ⟨_, rfl⟩
      | some os =>
        simp only [particleStats, hu, Bool.false_eq_true, if_false, Outcome.bind_ok]
        have hb : ∃ bp, (loc.beam.setGlobalLocalizationStatus (Params.toSize P.numParticles)
            loc.pf.particles.length).filter (sample P env 0 loc.stats)
            (env.voxel P.downsample (pts.map fun p => { p with pos := t.point p.pos })) = .ok bp :=
          sample_total hu hv 0 _ _ _
        have hk : ∃ bp, (loc.like.setGlobalLocalizationStatus (Params.toSize P.numParticles)
            loc.pf.particles.length).filter (sample P env 1 loc.stats)
            (env.voxel P.downsample (pts.map fun p => { p with pos := t.point p.pos })) = .ok bp :=
          sample_total hu hv 1 _ _ _
        obtain ⟨bp, hb⟩ := hb
        obtain ⟨lp, hk⟩ := hk
        rw [hb, Outcome.bind_ok, hk]
        exact ⟨_, rfl⟩

/-- What the preparation computes. -/
theorem prepare_ready {P : Params} {lib : Lib C} {env : Env} {acc : AccSt} {loc : LocSt C} {header : Header}
    {p : Prep} (h : prepare P lib env acc loc header = .ok (.ready p)) :
    ∃ pts t, acc.cloud = some pts ∧ env.tf P.baseFrame P.odomFrame header.stamp = some t ∧
      originsOf P env header.stamp acc.headers = some p.origins ∧
      p.cloud = (pts.map fun q => { q with pos := t.point q.pos }) ∧
      p.full = env.voxel P.downsample p.cloud ∧
      particleStats P lib env loc.pf loc.stats = .ok p.stats ∧
      p.beam = loc.beam.setGlobalLocalizationStatus (Params.toSize P.numParticles) loc.pf.particles.length ∧
      p.like = loc.like.setGlobalLocalizationStatus (Params.toSize P.numParticles) loc.pf.particles.length ∧
      p.beam.filter (sample P env 0 p.stats) p.full = .ok p.beamPc ∧
      p.like.filter (sample P env 1 p.stats) p.full = .ok p.likePc := by
  unfold prepare at h
  cases hc : acc.cloud with
  | none => simp [hc] at h
  | some pts =>
    rw [hc] at h
    simp only at h
    cases ht : env.tf P.baseFrame P.odomFrame header.stamp with
    | none => simp [ht] at h
    | some t =>
      rw [ht] at h
      simp only at h
      cases ho : originsOf P env header.stamp acc.headers with
      | none => simp [ho] at h
      | some os =>
        rw [ho] at h
        obtain ⟨st, hst, h⟩ := Outcome.bind_eq_ok_iff.1 h
        obtain ⟨bp, hb, h⟩ := Outcome.bind_eq_ok_iff.1 h
        obtain ⟨lp, hlp, h⟩ := Outcome.bind_eq_ok_iff.1 h
        simp only [Outcome.ok.injEq, Prepared.ready.injEq] at h
        subst h
        exact ⟨pts, t, rfl, rfl, rfl, rfl, rfl, hst, rfl, rfl, hb, hlp⟩

end Node
end Mcl3dl
