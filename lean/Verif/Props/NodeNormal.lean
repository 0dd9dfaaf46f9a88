import Verif.Spec.NodeNormal
import Verif.Props.NodeCovariance
import Verif.Props.NodeEntropy
import Verif.Props.SamplerEnds
import Verif.Props.NodeSafe

/-! # C147: the node with the sampler that uses normals -/

set_option linter.unusedSectionVars false

namespace Mcl3dl
namespace Node

variable {C : Type}

/-- What a particle contributes: weight and pose. -/
noncomputable def weighted (n : Node C) : List (ℝ × Pose) :=
  n.loc.pf.particles.map fun p => (p.prob, (p.state.pos, p.state.rot))

theorem counted_take (a : ℝ) (ps : List Particle) :
    counted a (ps.map wPose) = (ps.take (PF.passCount 1 a ps)).map wPose := by
  induction ps generalizing a with
  | nil => rfl
  | cons p ps ih =>
    rw [List.map_cons, counted, PF.passCount]
    have e : (wPose p).1 = p.prob := rfl
    rw [e]
    split_ifs with h
    · simp
    · rw [ih, add_comm 1, List.take_succ_cons, List.map_cons]

theorem meanLoop_take (m : State6.MeanAcc ℝ) (ps : List Particle) :
    PF.meanLoop State6.meanQuat 1 m ps =
      (ps.take (PF.passCount 1 m.pSum ps)).foldl (fun m p => State6.meanQuat.add m p.state p.prob) m := by
  induction ps generalizing m with
  | nil => rfl
  | cons p ps ih =>
    have e : State6.meanQuat.total (State6.meanQuat.add m p.state p.prob) = m.pSum + p.prob := rfl
    have e' : (State6.meanQuat.add m p.state p.prob).pSum = m.pSum + p.prob := rfl
    rw [PF.meanLoop, PF.passCount, e]
    split_ifs with h
    · simp
    · rw [ih, e', add_comm 1, List.take_succ_cons, List.foldl_cons]

/-- The mean of a list of particles. -/
theorem foldMean (ps : List Particle) :
    MeanPose (ps.map wPose) ((State6.meanQuat.getMean
      (ps.foldl (fun m p => State6.meanQuat.add m p.state p.prob) State6.meanQuat.empty)).pos,
      (State6.meanQuat.getMean
      (ps.foldl (fun m p => State6.meanQuat.add m p.state p.prob) State6.meanQuat.empty)).rot) := by
  have e1 : ps.foldl (fun m p => State6.meanQuat.add m p.state p.prob) State6.meanQuat.empty =
      (ps.map fun p => { p with bias := 1 }).foldl
        (fun m p => State6.meanQuat.add m p.state (p.prob * p.bias)) State6.meanQuat.empty := by
    rw [List.foldl_map]
    simp
  have hv : ∀ g : State6 ℝ → ℝ, voteSum (ps.map fun p => { p with bias := 1 }) g =
      (ps.map fun p => p.prob * g p.state).sum := by
    intro g
    simp [voteSum, voteOf, Function.comp_def]
  rw [e1, fold_meanQuat]
  simp only [hv, State6.meanQuat, State6.ofQuat, MeanPose, weightedMean, weightedSum, List.map_map, Function.comp_def, wPose]
  constructor
  · ext <;> simp [Vec3.sdiv, vadd_x, vadd_y, vadd_z, vzero_x, vzero_y, vzero_z, div_eq_mul_inv, mul_comm]
  · congr 1 <;> ext <;> simp [vadd_x, vadd_y, vadd_z, vzero_x, vzero_y, vzero_z]

theorem counted_mean (f : Filter) (sorted : List Particle) :
    MeanPose (counted 0 (f.particles.map wPose)) ((f.expectation State6.meanQuat 1 sorted).1.pos,
      (f.expectation State6.meanQuat 1 sorted).1.rot) := by
  rw [counted_take]
  simp only [PF.Filter.expectation, lt_irrefl, if_false]
  rw [meanLoop_take]
  exact foldMean _

/-- The position covariances the node computes. -/
theorem cov_counted {P : Params} {env : Env} (hv : env.Valid) {call : ℕ} {f : Filter} (hne : f.particles ≠ [])
    {cov : ℕ → ℕ → ℝ} (h : covarianceOf P env call f = .ok cov) :
    ∃ used, UsedFor P.numParticles (f.particles.map wPose) used ∧
      ∀ i j : Fin 3, cov i j = spread (f.expectation State6.meanQuat 1 f.particles).1.pos used i j := by
  unfold covarianceOf at h
  simp only at h
  obtain ⟨⟨cov', f'⟩, hb1, h'⟩ := Outcome.bind_eq_ok_iff.1 h
  clear h
  simp only [Outcome.ok.injEq] at h'
  subst h'
  have hlen : (0 : ℝ) < f.particles.length := by exact_mod_cast List.length_pos_iff.2 hne
  set ratio := cmax (1 / 10) ((P.numParticles : ℝ) / (f.particles.length : ℝ)) with hr
  have hrm : ratio = max (1 / 10) ((P.numParticles : ℝ) / (f.particles.length : ℝ)) := by rw [hr, cmax_eq]
  have hlt : ratio < 1 ↔ P.numParticles < (f.particles.length : ℤ) := by
    rw [hrm, max_lt_iff, div_lt_one hlen]
    constructor
    · intro h; exact_mod_cast h.2
    · intro h; exact ⟨by norm_num, by exact_mod_cast h⟩
  set n := PF.passCount 1 0 f.particles with hn
  have hidx := hv.covIdx call n (decide (ratio < 1)) ⌊(n : ℝ) * ratio⌋₊
  set idx := env.covIdx call n (decide (ratio < 1)) ⌊(n : ℝ) * ratio⌋₊ with hix
  have hnl : n ≤ f.particles.length := PF.passCount_le 1 0 f.particles
  -- the particles used
  set sel := idx.filterMap fun i => f.particles[i]? with hsel
  unfold PF.Filter.covariance at hb1
  have hps : (f.expectation State6.meanQuat 1 f.particles).2.particles = f.particles := by
    simp [PF.Filter.expectation]
  simp only [hps] at hb1
  split_ifs at hb1 with hi
  simp only [Outcome.ok.injEq, Prod.mk.injEq] at hb1
  obtain ⟨rfl, _⟩ := hb1
  have htake : ∀ k, k ≤ f.particles.length → (List.range k).filterMap (fun i => f.particles[i]?) = f.particles.take k := by
    intro k hk
    induction k with
    | zero => simp
    | succ k ih =>
      rw [List.range_succ, List.filterMap_append, ih (by omega), List.take_add_one]
      simp [List.getElem?_eq_getElem (show k < f.particles.length by omega)]
  have hused : UsedFor P.numParticles (f.particles.map wPose) (sel.map wPose) := by
    unfold UsedFor
    rw [counted_take, ← hn]
    by_cases hs : ratio < 1
    · rw [decide_eq_true hs] at hidx
      simp only [PF.CovIndices, if_true] at hidx
      obtain ⟨sh, hperm, hsh⟩ := hidx
      have h1 : (sh.filterMap fun i => f.particles[i]?).Perm (f.particles.take n) := by
        rw [← htake n hnl]; exact hperm.filterMap _
      have h2 : sel.Subperm (f.particles.take n) := by
        rw [hsel, hsh]
        exact (((List.take_sublist _ _).filterMap _).subperm).trans h1.subperm
      refine ⟨?_, ?_, ?_⟩
      · obtain ⟨l, hl1, hl2⟩ := h2
        exact ⟨l.map wPose, hl1.map _, hl2.map _⟩
      · intro hle
        rw [List.length_map] at hle
        exact absurd (hlt.1 hs) (not_lt.2 hle)
      · intro _
        rw [List.length_map, List.length_map, List.length_map, List.length_take, min_eq_left hnl, ← hrm]
        have hfl : ⌊(n : ℝ) * ratio⌋₊ ≤ n := by
          apply Nat.floor_le_of_le
          have : (0 : ℝ) ≤ n := Nat.cast_nonneg _
          nlinarith
        have hall : ∀ l : List ℕ, (∀ i ∈ l, i < f.particles.length) →
            (l.filterMap fun i => f.particles[i]?).length = l.length := by
          intro l
          induction l with
          | nil => intro _; rfl
          | cons a l ih =>
            intro h
            rw [List.filterMap_cons, List.getElem?_eq_getElem (h a (by simp))]
            simp [ih fun i hi => h i (List.mem_cons_of_mem _ hi)]
        rw [hsel, hall idx (by simpa using hi), hsh, List.length_take, hperm.length_eq, List.length_range,
          min_eq_right hfl, min_eq_left hfl]
    · rw [decide_eq_false hs] at hidx
      simp only [PF.CovIndices, Bool.false_eq_true, if_false] at hidx
      have h1 : sel = f.particles.take n := by rw [hsel, hidx, htake n hnl]
      rw [h1]
      refine ⟨List.Subperm.refl _, fun _ => rfl, fun hgt => ?_⟩
      rw [List.length_map] at hgt
      exact absurd (hlt.2 hgt) hs
  refine ⟨sel.map wPose, hused, ?_⟩
  intro i j
  have hdev : ∀ (s e : State6 ℝ) (i : ℕ), i < 3 → State6.deviation s e i = some (s.pos.get i - e.pos.get i) := by
    intro s e i hi
    unfold State6.deviation
    rw [if_pos hi]
  have helem : ∀ (s e : State6 ℝ), (State6.covElement s e (min i.1 j.1) (max i.1 j.1)).getD 0 =
      (s.pos.get i - e.pos.get i) * (s.pos.get j - e.pos.get j) := by
    intro s e
    have h1 : min i.1 j.1 < 3 := by omega
    have h2 : max i.1 j.1 < 3 := by omega
    simp only [State6.covElement, hdev _ _ _ h1, hdev _ _ _ h2]
    rcases le_total i.1 j.1 with h | h
    · rw [min_eq_left h, max_eq_right h]; simp
    · rw [min_eq_right h, max_eq_left h]; simp [mul_comm]
  unfold PF.covarianceOf PF.covSum spread
  simp only [helem, PF.total_eq, PF.weightSum, List.map_map]
  congr 1
  set e := (f.expectation State6.meanQuat 1 f.particles).1
  have : ∀ (l : List Particle) (a : ℝ), l.foldl (fun a p => a + (p.state.pos.get i - e.pos.get i) *
      (p.state.pos.get j - e.pos.get j) * p.prob) a = a + (l.map ((fun a : ℝ × Pose => a.1 * ((a.2.1.get i - e.pos.get i) *
        (a.2.1.get j - e.pos.get j))) ∘ wPose)).sum := by
    intro l
    induction l with
    | nil => intro a; simp
    | cons p l ih =>
      intro a
      rw [List.foldl_cons, ih, List.map_cons, List.sum_cons]
      simp only [Function.comp, wPose]
      ring
  rw [this, zero_add]

theorem spread_symm (m : Vec3 ℝ) (used : List (ℝ × Pose)) (i j : Fin 3) : spread m used i j = spread m used j i := by
  unfold spread
  congr 2
  apply List.map_congr_left
  intro a _
  ring

theorem spread_psd (m : Vec3 ℝ) {used : List (ℝ × Pose)} (hw : ∀ a ∈ used, 0 ≤ a.1) (u : Fin 3 → ℝ) :
    0 ≤ ∑ i, ∑ j, u i * spread m used i j * u j := by
  have e : ∑ i, ∑ j, u i * spread m used i j * u j =
      (used.map fun a => a.1 * (∑ i, u i * (a.2.1.get i - m.get i)) ^ 2).sum / (used.map Prod.fst).sum := by
    simp only [Fin.sum_univ_three, spread]
    simp only [div_eq_mul_inv]
    have : ∀ c : ℝ, (used.map fun a => a.1 * (u 0 * (a.2.1.get (0 : Fin 3) - m.get (0 : Fin 3)) +
        u 1 * (a.2.1.get (1 : Fin 3) - m.get (1 : Fin 3)) + u 2 * (a.2.1.get (2 : Fin 3) - m.get (2 : Fin 3))) ^ 2).sum * c =
        ∑ i : Fin 3, ∑ j : Fin 3, u i * ((used.map fun a => a.1 * ((a.2.1.get i - m.get i) * (a.2.1.get j - m.get j))).sum * c) * u j := by
      intro c
      simp only [Fin.sum_univ_three]
      induction used with
      | nil => simp
      | cons a l ih =>
        simp only [List.map_cons, List.sum_cons]
        have ih := ih fun b hb => hw b (List.mem_cons_of_mem _ hb)
        linear_combination ih
    rw [this]
    simp only [Fin.sum_univ_three]
  rw [e]
  apply div_nonneg
  · apply List.sum_nonneg
    intro x hx
    obtain ⟨a, ha, rfl⟩ := List.mem_map.1 hx
    exact mul_nonneg (hw a ha) (sq_nonneg _)
  · apply List.sum_nonneg
    intro x hx
    obtain ⟨a, ha, rfl⟩ := List.mem_map.1 hx
    exact hw a ha

theorem sum_zero {l : List (ℝ × Pose)} {g : ℝ × Pose → ℝ} (hg : ∀ a ∈ l, 0 ≤ g a) (h : (l.map g).sum = 0) :
    ∀ a ∈ l, g a = 0 := by
  induction l with
  | nil => simp
  | cons b l ih =>
    rw [List.map_cons, List.sum_cons] at h
    have h0 : 0 ≤ (l.map g).sum := List.sum_nonneg (by
      intro x hx
      obtain ⟨a, ha, rfl⟩ := List.mem_map.1 hx
      exact hg a (List.mem_cons_of_mem _ ha))
    have hb := hg b (by simp)
    intro a ha
    rcases List.mem_cons.1 ha with rfl | ha
    · linarith
    · exact ih (fun a ha => hg a (List.mem_cons_of_mem _ ha)) (by linarith) a ha

/-- No spread: all at the same place. -/
theorem spread_zero {m : Vec3 ℝ} {used : List (ℝ × Pose)} (hw : ∀ a ∈ used, 0 < a.1)
    (h : ∀ i : Fin 3, spread m used i i = 0) : ∀ a ∈ used, a.2.1 = m := by
  rcases used with _ | ⟨b, l⟩
  · simp
  have hpos : 0 < ((b :: l).map Prod.fst).sum := by
    apply List.sum_pos
    · intro x hx
      obtain ⟨a, ha, rfl⟩ := List.mem_map.1 hx
      exact hw a ha
    · simp
  intro a ha
  have key : ∀ i : Fin 3, a.2.1.get i = m.get i := by
    intro i
    have h1 := h i
    unfold spread at h1
    rw [div_eq_zero_iff, or_iff_left hpos.ne'] at h1
    have := sum_zero (g := fun a => a.1 * ((a.2.1.get i - m.get i) * (a.2.1.get i - m.get i)))
      (fun a ha => mul_nonneg (hw a ha).le (mul_self_nonneg _)) h1 a ha
    rcases mul_eq_zero.1 this with h2 | h2
    · exact absurd h2 (hw a ha).ne'
    · rcases mul_eq_zero.1 h2 with h2 | h2 <;> linarith
  have k0 := key 0
  have k1 := key 1
  have k2 := key 2
  simp [Vec3.get] at k0 k1 k2
  ext
  · exact k0
  · exact k1
  · exact k2

/-- A correct eigen solver. -/
def Solves (solve : Matrix (Fin 3) (Fin 3) ℝ → (Fin 3 → ℝ) × Matrix (Fin 3) (Fin 3) ℝ) : Prop :=
  ∀ A, A.transpose = A → Sampler.EigenSolved A (solve A).1 (solve A).2

/-- What the sampler is given. -/
theorem stats_spec {P : Params} (hu : P.useNormalSampler = true) {lib : Lib C}
    {env : Env} (hv : env.Valid) {f : Filter} (hne : f.particles ≠ []) {old st : Option (Sampler.Stats ℝ)}
    (h : particleStats P lib env f old = .ok st) :
    ∃ mean used, MeanPose (counted 0 (f.particles.map wPose)) mean ∧ UsedFor P.numParticles (f.particles.map wPose) used ∧
      st = some (Sampler.setParticleStatistics lib.solve3 mean.2 (Matrix.of fun i j => spread mean.1 used i j)) := by
  unfold particleStats at h
  rw [if_pos hu] at h
  obtain ⟨cov, hcov, h⟩ := Outcome.bind_eq_ok_iff.1 h
  simp only [Outcome.ok.injEq] at h
  obtain ⟨used, h1, h2⟩ := cov_counted hv hne hcov
  refine ⟨_, used, counted_mean f f.particles, h1, ?_⟩
  rw [← h]
  congr 2
  ext i j
  simp [h2]

theorem stats_statistics {solve : Matrix (Fin 3) (Fin 3) ℝ → (Fin 3 → ℝ) × Matrix (Fin 3) (Fin 3) ℝ} (hsolve : Solves solve)
    {num : ℤ} {all : List (ℝ × Pose)} {mean : Pose} {used : List (ℝ × Pose)} (hm : MeanPose (counted 0 all) mean)
    (hu : UsedFor num all used) :
    StatisticsOf num all (Sampler.setParticleStatistics solve mean.2 (Matrix.of fun i j => spread mean.1 used i j)) := by
  refine ⟨mean, used, _, _, hm, hu, ?_, rfl⟩
  exact hsolve _ (by
    ext i j
    simp only [Matrix.transpose_apply, Matrix.of_apply]
    rw [spread_symm])

/-- Parameters of the sampler that make sense. -/
structure SamplesWell (P : Params) : Prop where
  weight : 1 ≤ P.samplerMaxWeight
  ratio : P.samplerPerform < P.samplerMaxRatio

theorem mem_counted {α : Type} {acc : ℝ} {l : List (ℝ × α)} {a : ℝ × α} (h : a ∈ counted acc l) : a ∈ l := by
  induction l generalizing acc with
  | nil => simp [counted] at h
  | cons b l ih =>
    rw [counted] at h
    rcases List.mem_cons.1 h with rfl | h
    · simp
    · split_ifs at h
      · simp at h
      · exact List.mem_cons_of_mem _ (ih h)

/-- Sampling ends if the particles tell an axis. -/
theorem sample_normal_total {P : Params} (hu : P.useNormalSampler = true) (hw : SamplesWell P) {lib : Lib C}
    (hsolve : Solves lib.solve3) {env : Env} (hv : env.Valid) (hfair : ∀ call, Sampler.Fair (env.canon call))
    {f : Filter} (hne : f.particles ≠ []) (hpos : AllPos f) (hax : ¬ NoAxis P.numParticles (f.particles.map wPose))
    {old st : Option (Sampler.Stats ℝ)} (hst : particleStats P lib env f old = .ok st) (call : ℕ) (pts : List Point)
    (num : ℕ) : ∃ out, sample P env call st pts num = .ok out := by
  obtain ⟨mean, used, h1, h2, rfl⟩ := stats_spec hu hv hne hst
  have hwpos : ∀ a ∈ used, 0 < a.1 := by
    intro a ha
    have := mem_counted (h2.1.subset ha)
    obtain ⟨p, hp, rfl⟩ := List.mem_map.1 this
    exact hpos p hp
  have hrot : mean.2.dot mean.2 = 1 := by
    rw [h1.2]
    exact Quat.C38_unit _ _ fun h0 => hax (.inr h0)
  have hC : (Matrix.of fun i j => spread mean.1 used i j : Matrix (Fin 3) (Fin 3) ℝ) ≠ 0 := by
    intro h0
    apply hax
    left
    refine ⟨used, h2, ?_⟩
    have h3 := spread_zero (m := mean.1) hwpos fun i => by
      have := congrFun (congrFun h0 i) i
      simpa using this
    intro a ha b hb
    rw [h3 a ha, h3 b hb]
  have hok := (Sampler.C74_returns_iff (p := ⟨P.samplerPerform, P.samplerMaxRatio, P.samplerMaxWeight⟩) hsolve hrot
    (C := Matrix.of fun i j => spread mean.1 used i j)
    (by ext i j; simp only [Matrix.transpose_apply, Matrix.of_apply]; rw [spread_symm])
    (fun u => by simpa using spread_psd mean.1 (fun a ha => (hwpos a ha).le) u) (normalsOf := env.normals) hv.normals
    (hfair call) hv.order hw.weight hw.ratio (⟨(), pts⟩ : Sampler.Cloud Unit Point) num).2 (fun h => hC h.1)
  unfold sample
  rw [if_pos hu]
  simp only [Option.map_some]
  cases hs : Sampler.sampleWithNormal (Sampler.finP ⟨P.samplerPerform, P.samplerMaxRatio, P.samplerMaxWeight⟩)
      (some (Sampler.finS (Sampler.setParticleStatistics lib.solve3 mean.2 (Matrix.of fun i j => spread mean.1 used i j))))
      (fun l => (env.normals l).map (Option.map Sampler.finV)) (fun k => .fin (env.canon call k)) env.order ⟨(), pts⟩ num with
  | ok c => exact ⟨c.points, rfl⟩
  | throws m => rw [hs] at hok; simp [Outcome.isOk] at hok
  | ub m => rw [hs] at hok; simp [Outcome.isOk] at hok

theorem prepare_normal_total {P : Params} (hu : P.useNormalSampler = true) (hw : SamplesWell P) {lib : Lib C}
    (hsolve : Solves lib.solve3) {env : Env} (hv : env.Valid) (hfair : ∀ call, Sampler.Fair (env.canon call))
    {acc : AccSt} {loc : LocSt C} {header : Header} (ha : acc.cloud ≠ none)
    (hne : loc.pf.particles ≠ []) (hpos : AllPos loc.pf)
    (hax : ¬ NoAxis P.numParticles (loc.pf.particles.map wPose)) :
    ∃ r, prepare P lib env acc loc header = .ok r := by
  unfold prepare
  cases h : acc.cloud with
  | none => exact absurd h ha
  | some pts =>
    simp only
    cases env.tf P.baseFrame P.odomFrame header.stamp with
    | none => exact ⟨_, rfl⟩
    | some t =>
      simp only
      cases originsOf P env header.stamp acc.headers with
      | none => exact ⟨_, rfl⟩
      | some os =>
        simp only
        obtain ⟨st, hst⟩ : ∃ st, particleStats P lib env loc.pf loc.stats = .ok st := by
          unfold particleStats
          rw [if_pos hu]
          obtain ⟨cov, hcov⟩ := covarianceOf_total (P := P) hv 0 loc.pf
          rw [hcov]
          exact ⟨_, rfl⟩
        rw [hst, Outcome.bind_ok]
        have key := fun call pts num => sample_normal_total hu hw hsolve hv hfair hne hpos hax hst call pts num
        obtain ⟨bp, hb⟩ := key 0 ((env.voxel P.downsample (pts.map fun p => { p with pos := t.point p.pos })).filter
          fun p => !Lidar.rejected loc.beam.params.clip loc.beam.clipNearSq loc.beam.clipFarSq p.pos)
          (loc.beam.setGlobalLocalizationStatus (Params.toSize P.numParticles) loc.pf.particles.length).numPoints
        obtain ⟨lp, hl⟩ := key 1 ((env.voxel P.downsample (pts.map fun p => { p with pos := t.point p.pos })).filter
          fun p => !Lidar.rejected loc.like.params.clip loc.like.clipNearSq loc.like.clipFarSq p.pos)
          (loc.like.setGlobalLocalizationStatus (Params.toSize P.numParticles) loc.pf.particles.length).numPoints
        have hb' : (loc.beam.setGlobalLocalizationStatus (Params.toSize P.numParticles) loc.pf.particles.length).filter
            (sample P env 0 st) (env.voxel P.downsample (pts.map fun p => { p with pos := t.point p.pos })) = .ok bp := hb
        have hl' : (loc.like.setGlobalLocalizationStatus (Params.toSize P.numParticles) loc.pf.particles.length).filter
            (sample P env 1 st) (env.voxel P.downsample (pts.map fun p => { p with pos := t.point p.pos })) = .ok lp := hl
        rw [hb', Outcome.bind_ok, hl']
        exact ⟨_, rfl⟩

theorem start_pos {P : Params} {lib : Lib C} {env0 : Env} {motion0 : Motion ℝ} {n0 : Node C}
    (hs : start P lib env0 motion0 = .ok n0) : AllPos n0.loc.pf := by
  obtain ⟨_, ns, _, rfl⟩ := start_ok hs
  exact init_pos _ _

/-- C147: with the sampler that uses normals (sensible parameters, working libraries, a correct eigen solver and fair
random numbers) the node goes on running after every history of sensible events, unless a batch of clouds is completed
while the particles do not tell an axis. -/
theorem C147_no_crash {P : Params} (hP : Sensible P) (hu : P.useNormalSampler = true) (hw : SamplesWell P)
    (ha : P.accVar ≠ 0) {lib : Lib C} {I : C → Prop} (hL : Works P lib I) (hsolve : Solves lib.solve3) (env0 : Env)
    (motion0 : Motion ℝ) (h : History) (hv : ∀ e ∈ h, e.2.Valid ∧ KeepsPoints e.2 ∧ SafeEvent e.1)
    (hreg : RegularClouds h) (hfair : ∀ e ∈ h, ∀ call, Sampler.Fair (e.2.canon call)) :
    ∃ n0, start P lib env0 motion0 = .ok n0 ∧
      ((∃ n outs, run P lib n0 h = .ok (n, outs) ∧ outs.length = h.length) ∨
        ∃ h1 e h2 n outs, h = h1 ++ e :: h2 ∧ run P lib n0 h1 = .ok (n, outs) ∧
          (batchStep P (batchView P h1).1 (batchView P h1).2 e).1 ≠ none ∧ NoAxis P.numParticles (weighted n)) := by
  obtain ⟨n0, hs, hs0⟩ := start_safe hP hL env0 motion0
  refine ⟨n0, hs, ?_⟩
  have key : (∃ n outs, run P lib n0 h = .ok (n, outs) ∧ outs.length = h.length ∧
        Safe P I n (h.foldl (MapView.step P) MapView.init) ∧ AllPos n.loc.pf) ∨
      ∃ h1 e h2 n outs, h = h1 ++ e :: h2 ∧ run P lib n0 h1 = .ok (n, outs) ∧
          (batchStep P (batchView P h1).1 (batchView P h1).2 e).1 ≠ none ∧ NoAxis P.numParticles (weighted n) := by
    induction h using List.reverseRecOn with
    | nil => exact .inl ⟨n0, [], rfl, rfl, hs0, start_pos hs⟩
    | append_singleton h e ih =>
      have hregh : RegularClouds h := fun e he => hreg e (List.mem_append_left _ he)
      rcases ih (fun e he => hv e (List.mem_append_left _ he)) hregh (fun e he => hfair e (List.mem_append_left _ he)) with
        ⟨n, outs, hr, hl, hsafe, hpos⟩ | ⟨h1, e1, h2, n, outs, hh, hr, hbad⟩
      · obtain ⟨hve, hk, he⟩ := hv e (by simp)
        by_cases hbad : (batchStep P (batchView P h).1 (batchView P h).2 e).1 ≠ none ∧ NoAxis P.numParticles (weighted n)
        · exact .inr ⟨h, e, [], n, outs, rfl, hr, hbad⟩
        · left
          have hi : BInv P (batchView P h) n := run_batchView hregh hr (start_batch hs)
          obtain ⟨n', o, hst, hs'⟩ : ∃ n' o, step P lib e.2 n e.1 = .ok (n', o) ∧
              Safe P I n' ((h.foldl (MapView.step P) MapView.init).step P (e.1, e.2)) := by
            refine step_safe' hP hL.sound hve hk hsafe he fun header msg hev => ?_
            have hrm := hreg e (by simp) header msg hev
            rw [hev] at he
            refine cbCloud_total hP hsafe.acc hsafe.loc header he fun hm a hl hc hcase => ?_
            refine measure_works hP hL hve (n := { freshen e.2 n with acc := a }) hl
              (fun header' _ => ?_) (hsafe.acc.all hm) ⟨hsafe.loc.1, hsafe.loc.2, hsafe.loc.3, hsafe.loc.4⟩
            refine prepare_normal_total hu hw hsolve hve (hfair e (by simp)) hc hsafe.loc.pf hpos
              (fun h0 => hbad ⟨?_, h0⟩)
            have hmv : (batchView P h).1 = true := by rw [← hi.map, hm]
            simp only [batchStep, hev, hmv, if_true]
            rcases hcase with ⟨hz, hacc⟩ | ⟨hz, _, hcase⟩
            · rw [if_pos hz]
              have := (accumCloud_clear hrm hacc).1
              cases hsc : scanOf P e.2 header msg with
              | none => rw [hsc] at this; simp at this
              | some x => simp
            · obtain ⟨hgood, _, hkeys, _⟩ := hi.acc hz
              have hcomp : completes P (batchView P h).2 header.frame := by
                rw [← keysComplete_iff, ← hkeys]
                rcases hcase with hc1 | ⟨hc1, hc2⟩
                · exact .inl hc1
                · right
                  cases hks : n.acc.logic.keys with
                  | nil => rw [hks] at hc1; simp at hc1
                  | cons k t =>
                    rw [hks] at hc1
                    simp only [List.head?_cons, Option.some.injEq] at hc1
                    have := hgood k t hks
                    rw [hks] at this
                    subst hc1
                    exact ⟨t, rfl, by rw [← this]; exact hc2⟩
              rw [if_neg hz, if_pos hcomp]
              simp
          refine ⟨n', outs ++ [o], ?_, by simp [hl], by rw [List.foldl_append]; exact hs', step_pos ha hP.divYaw hve hst hpos⟩
          rw [run_append, hr, Outcome.bind_ok]
          obtain ⟨ev, env⟩ := e
          simp only [run]
          rw [hst]
          rfl
      · exact .inr ⟨h1, e1, h2 ++ [e], n, outs, by rw [hh]; simp, hr, hbad⟩
  rcases key with ⟨n, outs, h1, h2, _⟩ | h0
  · exact .inl ⟨n, outs, h1, h2⟩
  · exact .inr h0

/-- The scan and the preparation behind a callback that completes a batch, if it is measured. -/
theorem batch_prepared {P : Params} {lib : Lib C} {env0 : Env} {motion0 : Motion ℝ} {h : History} {e : Event × Env}
    (hreg : RegularClouds (h ++ [e])) {n0 n1 n : Node C} {outs : List (List Out)} {o : List Out}
    (hs : start P lib env0 motion0 = .ok n0) (hr1 : run P lib n0 h = .ok (n1, outs))
    (hr : step P lib e.2 n1 e.1 = .ok (n, o))
    {b : List Scan} {s : Scan} (hb : (batchStep P (batchView P h).1 (batchView P h).2 e).1 = some (b ++ [s])) :
    ∃ acc, acc.headers = (b ++ [s]).map Scan.header ∧ acc.cloud = some (labelled (b ++ [s])) ∧
      (((n1.cnt + 1) % 2 ^ 64 % Params.toSize P.skipMeasure ≠ 0 ∧ o = [.batch false]) ∨
        ∃ r, prepare P lib e.2 acc (freshen e.2 n1).loc s.header = .ok r ∧
          ((∃ p, r = .ready p ∧ p.likePc ≠ []) ∨ ∀ x ∈ o, Out.poseCov x = none)) := by
  have hi := run_batchView (fun e he => hreg e (List.mem_append_left _ he)) hr1 (start_batch hs)
  obtain ⟨_, _, hsome⟩ := step_batch hi (hreg e (by simp)) hr
  obtain ⟨_, acc, c, hh, hc, hcore⟩ := hsome _ hb
  refine ⟨acc, hh, hc, ?_⟩
  have hlast : acc.headers.getLast? = some s.header := by rw [hh]; simp
  obtain ⟨_, hcnt, ⟨hk, _, _, ho⟩ | ⟨_, hme⟩⟩ := measureCore_ok hcore
  · left; rw [← hcnt]; exact ⟨hk, ho⟩
  · right
    generalize n.loc = loc2 at hme
    cases hme with
    | noHeader h0 => rw [h0] at hlast; simp at hlast
    | noTf header hl hpr => rw [hlast, Option.some.injEq] at hl; subst hl; exact ⟨_, hpr, by simp [Out.poseCov]⟩
    | noOrigin header cloud hl hpr => rw [hlast, Option.some.injEq] at hl; subst hl; exact ⟨_, hpr, by simp [Out.poseCov]⟩
    | noPoints header p hl hpr hne =>
      rw [hlast, Option.some.injEq] at hl; subst hl
      refine ⟨_, hpr, .inr ?_⟩
      simp [publishStatus, Out.poseCov]
    | localized header p _ outs' hl hpr hne _ =>
      rw [hlast, Option.some.injEq] at hl; subst hl
      exact ⟨_, hpr, .inl ⟨p, rfl, hne⟩⟩

/-- The points a batch offers to a model with the clip `c`. -/
noncomputable def offered (P : Params) (env : Env) (t : Tf) (scans : List Scan) (c : Lidar.Clip ℝ) : List Point :=
  open Classical in
  (env.voxel P.downsample ((labelled scans).map fun p => { p with pos := t.point p.pos })).filter fun p => inClip c p.pos

theorem offered_eq (P : Params) (env : Env) (t : Tf) (scans : List Scan) (c : Lidar.Clip ℝ) :
    ((env.voxel P.downsample ((labelled scans).map fun p => { p with pos := t.point p.pos })).filter fun q =>
      !Lidar.rejected c (c.near * c.near) (c.far * c.far) q.pos) = offered P env t scans c := by
  unfold offered
  apply List.filter_congr
  intro q _
  have := inClip_iff c q.pos
  classical
  by_cases hu : inClip c q.pos
  · rw [this.2 hu, decide_eq_true hu]
  · rw [decide_eq_false hu, Bool.eq_false_iff]
    exact fun h => hu (this.1 h)

theorem normal_distinct {P : Params} (hu : P.useNormalSampler = true) {env : Env} (hv : env.Valid) {call : ℕ}
    {st : Option (Sampler.Stats ℝ)} {pts out : List Point} {num : ℕ} (h : sample P env call st pts num = .ok out) :
    DistinctFrom num pts out := by
  unfold sample at h
  rw [if_pos hu] at h
  obtain ⟨c, hc1, hc2⟩ := Outcome.bind_eq_ok_iff.1 h
  simp only [Outcome.ok.injEq] at hc2
  obtain ⟨_, g1, g2, g3⟩ := Sampler.C73_distinct hv.order hc1
  subst hc2
  have hrange : ∀ l : List Point, List.Forall₂ (fun i x => l[i]? = some x) (List.range l.length) l := by
    intro l
    rw [List.forall₂_iff_get]
    refine ⟨by simp, fun i h1 h2 => ?_⟩
    simp
  rcases Nat.eq_zero_or_pos num with h0 | h0
  · rw [g1 (.inl h0), h0]
    refine ⟨by simp, ?_, [], by simp, .nil⟩
    intro hl
    rw [List.length_eq_zero_iff.1 (Nat.le_zero.1 hl)]
  · by_cases hl : pts.length ≤ num
    · have e : c = ⟨(), pts⟩ := g2 h0 hl
      rw [e]
      exact ⟨(min_eq_right hl).symm, fun _ => rfl, _, List.nodup_range, hrange pts⟩
    · obtain ⟨e, ids, h1, h2⟩ := g3 h0 (not_le.1 hl)
      exact ⟨by rw [e, min_eq_left (not_le.1 hl).le], fun h => absurd h hl, ids, h1, h2⟩

/-- C147: what the node with this sampler does in a measurement.  Its statistics are those of the particles as they are
at this moment (not those of an earlier measurement), the points of both models are selected with the same statistics,
and no point is taken twice. -/
theorem C147_statistics {P : Params} (hP : Measures P) (hu : P.useNormalSampler = true) {lib : Lib C}
    (hsolve : Solves lib.solve3) {env0 : Env} (hv0 : env0.Valid) {motion0 : Motion ℝ} {h : History} {e : Event × Env}
    (hv : HistValid (h ++ [e])) (hreg : RegularClouds (h ++ [e])) {n0 n1 n : Node C} {outs : List (List Out)} {o : List Out}
    (hs : start P lib env0 motion0 = .ok n0) (hr1 : run P lib n0 h = .ok (n1, outs))
    (hr : run P lib n0 (h ++ [e]) = .ok (n, outs ++ [o])) (hne : n1.loc.pf.particles ≠ [])
    {b : List Scan} {s : Scan} (hb : (batchStep P (batchView P h).1 (batchView P h).2 e).1 = some (b ++ [s]))
    {t : Tf} (ht : e.2.tf P.baseFrame P.odomFrame s.header.stamp = some t)
    {stamp : ℝ} {frame : String} {pos : Vec3 ℝ} {rot : Quat ℝ} {cov : ℕ → ℕ → ℝ}
    (hp : .pose stamp frame pos rot cov ∈ o) :
    let count := n1.loc.pf.particles.length
    let numBeam := pointsUsed P.beam.numDefault P.beam.numGlobal P.numParticles count
    let numLike := pointsUsed P.like.numDefault P.like.numGlobal P.numParticles count
    let select := fun (st : Sampler.Stats ℝ) call pts num =>
      Sampler.sampleWithNormal (Sampler.finP ⟨P.samplerPerform, P.samplerMaxRatio, P.samplerMaxWeight⟩)
        (some (Sampler.finS st)) (fun l => (e.2.normals l).map (Option.map Sampler.finV))
        (fun k => .fin (e.2.canon call k)) e.2.order (⟨(), pts⟩ : Sampler.Cloud Unit Point) num
    ∃ (st : Sampler.Stats ℝ) (beamSel likeSel : List Point),
      StatisticsOf P.numParticles (weighted n1) st ∧
      select st 0 (offered P e.2 t (b ++ [s]) P.beam.clip) numBeam = .ok ⟨(), beamSel⟩ ∧
      select st 1 (offered P e.2 t (b ++ [s]) P.like.clip) numLike = .ok ⟨(), likeSel⟩ ∧
      DistinctFrom numBeam (offered P e.2 t (b ++ [s]) P.beam.clip) beamSel ∧
      DistinctFrom numLike (offered P e.2 t (b ++ [s]) P.like.clip) likeSel ∧ likeSel ≠ [] := by
  obtain ⟨n1', os, o1, h1, h2', h3⟩ := run_snoc_ok hr
  obtain ⟨hos, ho1⟩ := List.append_inj' h3 rfl
  simp only [List.cons.injEq, and_true] at ho1
  subst hos ho1
  rw [hr1] at h1
  simp only [Outcome.ok.injEq, Prod.mk.injEq, and_true] at h1
  subst h1
  obtain ⟨acc, hh, hc, ⟨_, ho⟩ | ⟨r, hpr, hrp⟩⟩ := batch_prepared hreg hs hr1 h2' hb
  · rw [ho] at hp; simp at hp
  have hve : e.2.Valid := hv e (by simp)
  have hreach : Reachable P lib n1 := ⟨env0, motion0, n0, h, _, hv0, fun e he => hv e (List.mem_append_left _ he), hs, hr1⟩
  have hlike : Lidar.Like.Reach P.like (freshen e.2 n1).loc.like := (reachable_models hreach).1
  have hbeam : Lidar.Beam.Reach P.beam (freshen e.2 n1).loc.beam := (reachable_models hreach).2
  rcases hrp with ⟨p, rfl, hlk⟩ | hno
  swap
  · have := hno _ hp
    simp [Out.poseCov] at this
  obtain ⟨pts, t', q1, q2, q3, q4, q5, q6, q7, q8, q9, q10⟩ := prepare_ready hpr
  rw [hc] at q1
  rw [ht] at q2
  simp only [Option.some.injEq] at q1 q2
  subst q1 q2
  have hpl : Lidar.Like.Reach P.like p.like := by rw [q8]; exact .set _ _ hlike
  have hpb : Lidar.Beam.Reach P.beam p.beam := by rw [q7]; exact .set _ _ hbeam
  obtain ⟨b1, b2, b3⟩ := beam_fields hpb
  obtain ⟨e1, e2, e3⟩ := like_fields hpl
  have hov : ∀ d : ℕ, d < 2 ^ 31 → d * P.numParticles.toNat < 2 ^ 64 := by
    intro d hd
    have : P.numParticles.toNat < 2 ^ 31 := by have := hP.particles; omega
    calc d * P.numParticles.toNat ≤ 2 ^ 31 * 2 ^ 31 := Nat.mul_le_mul hd.le this.le
      _ < 2 ^ 64 := by norm_num
  have hnl : p.like.numPoints = pointsUsed P.like.numDefault P.like.numGlobal P.numParticles n1.loc.pf.particles.length := by
    rw [q8, (Lidar.C70_models P.beam P.like _ _).2.2.2 _ hlike]
    exact pointsUsed_eq hP.particles.1 (lt_trans hP.particles.2 (by norm_num)) (hov _ hP.points.2)
  have hnb : p.beam.numPoints = pointsUsed P.beam.numDefault P.beam.numGlobal P.numParticles n1.loc.pf.particles.length := by
    rw [q7, (Lidar.C70_models P.beam P.like _ _).2.2.1 _ hbeam]
    exact pointsUsed_eq hP.particles.1 (lt_trans hP.particles.2 (by norm_num)) (hov _ hP.points.1)
  unfold Lidar.Like.filter Lidar.filter at q10
  unfold Lidar.Beam.filter Lidar.filter at q9
  rw [e1, e2, e3, q5, q4, offered_eq, hnl] at q10
  rw [b1, b2, b3, q5, q4, offered_eq, hnb] at q9
  obtain ⟨mean, used, m1, m2, m3⟩ := stats_spec hu hve hne q6
  rw [m3] at q9 q10
  refine ⟨_, p.beamPc, p.likePc, stats_statistics hsolve m1 m2, ?_, ?_, normal_distinct hu hve q9,
    normal_distinct hu hve q10, hlk⟩
  · unfold sample at q9
    rw [if_pos hu] at q9
    obtain ⟨c, hc1, hc2⟩ := Outcome.bind_eq_ok_iff.1 q9
    simp only [Outcome.ok.injEq] at hc2
    rw [← hc2]; exact hc1
  · unfold sample at q10
    rw [if_pos hu] at q10
    obtain ⟨c, hc1, hc2⟩ := Outcome.bind_eq_ok_iff.1 q10
    simp only [Outcome.ok.injEq] at hc2
    rw [← hc2]; exact hc1

theorem weightedMean_same {l : List (ℝ × Pose)} (hpos : 0 < (l.map Prod.fst).sum) {x : Vec3 ℝ}
    (h : ∀ a ∈ l, a.2.1 = x) : weightedMean (l.map fun a => (a.1, a.2.1)) = x := by
  have key : ∀ g : Vec3 ℝ → ℝ, ((l.map fun a => (a.1, a.2.1)).map fun a => a.1 * g a.2).sum = (l.map Prod.fst).sum * g x := by
    intro g
    clear hpos
    induction l with
    | nil => simp
    | cons a l ih =>
      simp only [List.map_cons, List.sum_cons]
      rw [ih fun b hb => h b (List.mem_cons_of_mem _ hb), h a (by simp)]
      ring
  have hf : (l.map fun a => (a.1, a.2.1)).map Prod.fst = l.map Prod.fst := by simp [Function.comp_def]
  unfold weightedMean
  rw [key fun v => v.x, key fun v => v.y, key fun v => v.z, hf]
  ext <;> simp only <;> field_simp

theorem counted_sum_pos {α : Type} {acc : ℝ} {l : List (ℝ × α)} (h : 0 < acc + (l.map Prod.fst).sum) :
    0 < acc + ((counted acc l).map Prod.fst).sum := by
  induction l generalizing acc with
  | nil => simpa [counted] using h
  | cons a l ih =>
    rw [counted]
    simp only [List.map_cons, List.sum_cons] at h ⊢
    split_ifs with hc
    · simp; linarith
    · have := ih (acc := acc + a.1) (by linarith)
      linarith

/-- C147, the exception: while all particles are at the same place (for example after an initial pose without
uncertainty), a cloud with more usable points than wanted, the normal of one of which is known, is never dealt with:
the selection of points does not end. -/
theorem C147_stuck {P : Params} (hP : Measures P) (hu : P.useNormalSampler = true) (hskip : P.skipMeasure = 1)
    (hd : 0 < P.divYaw) {lib : Lib C} (hsolve : Solves lib.solve3) {env0 : Env} (hv0 : env0.Valid) {motion0 : Motion ℝ}
    {h : History} {e : Event × Env} (hv : HistValid (h ++ [e])) (hreg : RegularClouds (h ++ [e])) {n0 n1 : Node C}
    {outs : List (List Out)} (hs : start P lib env0 motion0 = .ok n0) (hr1 : run P lib n0 h = .ok (n1, outs))
    {b : List Scan} {s : Scan} (hb : (batchStep P (batchView P h).1 (batchView P h).2 e).1 = some (b ++ [s]))
    {t : Tf} (ht : e.2.tf P.baseFrame P.odomFrame s.header.stamp = some t)
    (horigin : ∀ x ∈ b ++ [s],
      e.2.tfFull P.baseFrame s.header.stamp x.header.frame x.header.stamp P.odomFrame ≠ none)
    (hpart : 0 < n1.loc.pf.particles.length ∧ (n1.loc.pf.particles.length : ℤ) ≤ P.numParticles) {x : Vec3 ℝ}
    (hsame : ∀ p ∈ n1.loc.pf.particles, p.state.pos = x)
    (hmany : 2 ≤ P.like.numDefault ∧ P.like.numDefault < (offered P e.2 t (b ++ [s]) P.like.clip).length)
    {v : Vec3 ℝ} (hn : some v ∈ e.2.normals (offered P e.2 t (b ++ [s]) P.like.clip)) (r : Node C × List (List Out)) :
    run P lib n0 (h ++ [e]) ≠ .ok r := by
  intro hr
  obtain ⟨n, outs2⟩ := r
  obtain ⟨n1', os, o, h1, h2', h3⟩ := run_snoc_ok hr
  rw [hr1] at h1
  simp only [Outcome.ok.injEq, Prod.mk.injEq] at h1
  obtain ⟨rfl, rfl⟩ := h1
  obtain ⟨acc, hh, hc, ⟨hk, ho⟩ | ⟨r, hpr, _⟩⟩ := batch_prepared hreg hs hr1 h2' hb
  · rw [hskip] at hk
    simp [Params.toSize, Nat.mod_one] at hk
  have hve : e.2.Valid := hv e (by simp)
  have hvh : HistValid h := fun e he => hv e (List.mem_append_left _ he)
  have hreach : Reachable P lib n1 := ⟨env0, motion0, n0, h, _, hv0, hvh, hs, hr1⟩
  have hlike : Lidar.Like.Reach P.like (freshen e.2 n1).loc.like := (reachable_models hreach).1
  have hready : ∃ p, r = .ready p := by
    have hor : originsOf P e.2 s.header.stamp acc.headers ≠ none := by
      rw [originsOf_none_iff, hh]
      intro y hy
      obtain ⟨z, hz, rfl⟩ := List.mem_map.1 hy
      exact horigin z hz
    obtain ⟨os, hos⟩ := Option.ne_none_iff_exists'.1 hor
    unfold prepare at hpr
    rw [hc] at hpr
    simp only [ht, hos] at hpr
    obtain ⟨_, _, hpr⟩ := Outcome.bind_eq_ok_iff.1 hpr
    obtain ⟨_, _, hpr⟩ := Outcome.bind_eq_ok_iff.1 hpr
    obtain ⟨_, _, hpr⟩ := Outcome.bind_eq_ok_iff.1 hpr
    simp only [Outcome.ok.injEq] at hpr
    exact ⟨_, hpr.symm⟩
  obtain ⟨p, rfl⟩ := hready
  obtain ⟨pts, t', q1, q2, q3, q4, q5, q6, q7, q8, q9, q10⟩ := prepare_ready hpr
  rw [hc] at q1
  rw [ht] at q2
  simp only [Option.some.injEq] at q1 q2
  subst q1 q2
  have hpl : Lidar.Like.Reach P.like p.like := by rw [q8]; exact .set _ _ hlike
  obtain ⟨e1, e2, e3⟩ := like_fields hpl
  have hov : ∀ d : ℕ, d < 2 ^ 31 → d * P.numParticles.toNat < 2 ^ 64 := by
    intro d hd
    have : P.numParticles.toNat < 2 ^ 31 := by have := hP.particles; omega
    calc d * P.numParticles.toNat ≤ 2 ^ 31 * 2 ^ 31 := Nat.mul_le_mul hd.le this.le
      _ < 2 ^ 64 := by norm_num
  have hnl : p.like.numPoints = P.like.numDefault := by
    rw [q8, (Lidar.C70_models P.beam P.like _ _).2.2.2 _ hlike]
    rw [pointsUsed_eq hP.particles.1 (lt_trans hP.particles.2 (by norm_num)) (hov _ hP.points.2), pointsUsed]
    exact if_pos hpart.2
  unfold Lidar.Like.filter Lidar.filter at q10
  rw [e1, e2, e3, q5, q4, offered_eq, hnl] at q10
  have hne : n1.loc.pf.particles ≠ [] := List.length_pos_iff.1 hpart.1
  obtain ⟨mean, used, m1, m2, m3⟩ := stats_spec hu hve (f := n1.loc.pf) hne q6
  rw [m3] at q10
  -- the position covariance is zero
  have hused : used = counted 0 (n1.loc.pf.particles.map wPose) := m2.2.1 (by rw [List.length_map]; exact hpart.2)
  have hat : ∀ a ∈ used, a.2.1 = x := by
    intro a ha
    rw [hused] at ha
    obtain ⟨q, hq, rfl⟩ := List.mem_map.1 (mem_counted ha)
    exact hsame q hq
  have hmean : ∀ a ∈ used, a.2.1 = mean.1 := by
    obtain ⟨_, hsum⟩ := C115_weights hd hvh hs hr1
    have hpos : 0 < weightSum n1 := by
      rcases hsum hne with h | ⟨_, h⟩ <;> rw [h]
      · norm_num
      · exact_mod_cast hd
    have h0 : 0 < ((counted 0 (n1.loc.pf.particles.map wPose)).map Prod.fst).sum := by
      have := counted_sum_pos (acc := 0) (l := n1.loc.pf.particles.map wPose) (by
        rw [zero_add, List.map_map]; exact hpos)
      rwa [zero_add] at this
    intro a ha
    rw [m1.1, weightedMean_same h0 (x := x) (by rw [← hused]; exact hat), hat a ha]
  have hzero : (Matrix.of fun i j : Fin 3 => spread mean.1 used i j) = 0 := by
    ext i j
    have : (used.map fun a => a.1 * ((a.2.1.get i - mean.1.get i) * (a.2.1.get j - mean.1.get j))) =
        used.map fun _ => (0 : ℝ) := List.map_congr_left fun a ha => by rw [hmean a ha]; ring
    simp [spread, this]
  have hev := Sampler.C74_zero_covariance_eigenvalues (hsolve (Sampler.posCov 0) (by
    ext i j; simp [Sampler.posCov]))
  unfold sample at q10
  rw [if_pos hu, hzero] at q10
  simp only [Option.map_some] at q10
  rw [Sampler.C74_zero_covariance (n := Sampler.finV v) ?_ ?_ hmany.1 hmany.2 ?_] at q10
  · simp at q10
  · change XR.fin ((lib.solve3 (Sampler.posCov 0)).1 1) = XR.fin 0; rw [hev.1]
  · change XR.fin ((lib.solve3 (Sampler.posCov 0)).1 2) = XR.fin 0; rw [hev.2]
  · exact List.mem_map.2 ⟨some v, hn, rfl⟩

end Node
end Mcl3dl
