import Verif.Proofs.NoiseLaw
import Verif.Props.NodeServices
import Verif.Props.NodeExpand
import Verif.Props.NodeOdomError

/-!
# C168: particles are normally distributed
-/

set_option linter.unusedSectionVars false

namespace Mcl3dl
namespace Node

open MeasureTheory ProbabilityTheory

variable {C : Type}

theorem withNormal_normal (env : Env) (call : ℕ) (ω : ℕ → ℝ) (k : ℕ) : (env.withNormal call ω).normal call k = ω k := by
  simp [Env.withNormal]

theorem allIn_iff {N : ℕ} {ps : List Particle} (hl : ps.length = N) {g : ℕ → Vec3 ℝ × Quat ℝ}
    (h : ∀ k p, ps[k]? = some p → poseOf p = g k) (B : ℕ → Set (Vec3 ℝ × Quat ℝ)) :
    AllIn B ps ↔ ∀ k : Fin N, g k ∈ B k := by
  constructor
  · intro hin k
    have hk : ps[(k : ℕ)]? = some (ps[(k : ℕ)]'(by omega)) := List.getElem?_eq_getElem (by omega)
    rw [← h k _ hk]
    exact hin k _ hk
  · intro hin k p hp
    rw [h k p hp]
    have := (List.getElem?_eq_some_iff.1 hp).1
    exact hin ⟨k, by omega⟩

/-- C168: at the start the particles are independent and normally distributed, with the configured pose as mean and the
configured standard deviations. -/
theorem C168_start {P : Params} {lib : Lib C} {env : Env} {motion0 : Motion ℝ} (hN : 0 ≤ P.numParticles) {r : Vec3 ℝ}
    (hr : P.initialPose.rot = Quat.ofRPY r) (h1 : r.x ∈ Set.Ioc (-Real.pi) Real.pi)
    (h2 : r.y ∈ Set.Ioo (-(Real.pi / 2)) (Real.pi / 2)) (h3 : r.z ∈ Set.Ioc (-Real.pi) Real.pi)
    {B : ℕ → Set (Vec3 ℝ × Quat ℝ)} (hB : ∀ k, MeasurableSet (poseAt ⁻¹' B k)) :
    normalStream.real {ω | ∃ n, start P lib (env.withNormal 0 ω) motion0 = .ok n ∧ AllIn B n.loc.pf.particles} =
      ∏ k ∈ Finset.range P.numParticles.toNat,
        (normal6 ![P.initialPose.pos.x, P.initialPose.pos.y, P.initialPose.pos.z, r.x, r.y, r.z]
          (sigmas P.initialPoseStd)).real (poseAt ⁻¹' B k) := by
  have hrpy := Quat.C33_getRPY_ofRPY r.x r.y r.z h1 h2 h3
  rw [← hr] at hrpy
  rw [← prob_blocks (X := fun ω (k : Fin P.numParticles.toNat) i => ![P.initialPose.pos.x, P.initialPose.pos.y, P.initialPose.pos.z, r.x, r.y, r.z] i +
    sigmas P.initialPoseStd i * ω (idxOf P.initialPoseStd k i)) (by fun_prop) (diagonal_law (idxOf_fresh _)) hB]
  congr 1
  ext ω
  simp only [Set.mem_ofPred_eq]
  have hm : ∀ k, noiseState P.initialPose (noiseComp (env.withNormal 0 ω) 0 P.initialPose P.initialPoseStd (idxOf P.initialPoseStd k)) =
      noiseState P.initialPose fun i => ![P.initialPose.pos.x, P.initialPose.pos.y, P.initialPose.pos.z, r.x, r.y, r.z] i +
        sigmas P.initialPoseStd i * ω (idxOf P.initialPoseStd k i) := by
    intro k
    congr 1
    funext i
    rw [noiseComp, withNormal_normal]
    congr 1
    simp only [State6.meanVec, hrpy]
    fin_cases i <;> rfl
  have hns : (env.withNormal 0 ω).noiseStates 0 P.initialPose P.initialPoseStd P.numParticles.toNat = _ := noiseStates_explicit _ _ _ _ _
  obtain ⟨n, hn⟩ := start_total P lib (env.withNormal 0 ω) motion0 hN
  have key : AllIn B n.loc.pf.particles ↔ ∀ k : Fin P.numParticles.toNat, poseAt (fun i => ![P.initialPose.pos.x, P.initialPose.pos.y,
      P.initialPose.pos.z, r.x, r.y, r.z] i + sigmas P.initialPoseStd i * ω (idxOf P.initialPoseStd k i)) ∈ B k := by
    obtain ⟨_, ns, hns', rfl⟩ := start_ok hn
    rw [hns, Outcome.ok.injEq] at hns'
    subst hns'
    refine allIn_iff (by simp [PF.Filter.init, PF.Filter.new]) (g := fun k => poseAt (fun i => ![P.initialPose.pos.x, P.initialPose.pos.y,
      P.initialPose.pos.z, r.x, r.y, r.z] i + sigmas P.initialPoseStd i * ω (idxOf P.initialPoseStd k i))) ?_ B
    intro k p hp
    simp only [PF.Filter.init, PF.Filter.new, List.getElem?_mapIdx, Option.map_eq_some_iff] at hp
    obtain ⟨q, hq, rfl⟩ := hp
    have hlt : k < P.numParticles.toNat := by
      have := (List.getElem?_eq_some_iff.1 hq).1
      simpa using this
    simp only [poseOf, pickNoise, List.getD, List.getElem?_map, List.getElem?_range hlt, Option.map_some, Option.getD_some, hm]
    rfl
  constructor
  · rintro ⟨n', hn', hin⟩
    rw [hn, Outcome.ok.injEq] at hn'
    subst hn'
    exact key.1 hin
  · exact fun h => ⟨n, hn, key.2 h⟩

/-- C168: the expansion resetting service moves the particles by independent normally distributed amounts with the
standard deviations `expansion_var`. -/
theorem C168_expansion {P : Params} {lib : Lib C} {env : Env} (n : Node C)
    {B : ℕ → Set (Vec3 ℝ × Quat ℝ)} (q : ℕ → Vec3 ℝ × Quat ℝ) (hq : ∀ k p, n.loc.pf.particles[k]? = some p → poseOf p = q k)
    (hB : ∀ k, MeasurableSet (shiftedBy (q k) ⁻¹' B k)) :
    normalStream.real {ω | ∃ n' o, step P lib (env.withNormal 0 ω) n .expansionReset = .ok (n', o) ∧ AllIn B n'.loc.pf.particles} =
      ∏ k ∈ Finset.range n.loc.pf.particles.length, (normal6 0 (sigmas P.expansionVar)).real (shiftedBy (q k) ⁻¹' B k) := by
  rw [← prob_blocks (X := fun ω (k : Fin n.loc.pf.particles.length) i => (0 : Fin 6 → ℝ) i +
    sigmas P.expansionVar i * ω (idxOf P.expansionVar k i)) (by fun_prop) (diagonal_law (idxOf_fresh _)) hB]
  congr 1
  ext ω
  simp only [Set.mem_ofPred_eq]
  have hns : (env.withNormal 0 ω).noiseStates 0 State6.default P.expansionVar n.loc.pf.particles.length = .ok
      ((List.range n.loc.pf.particles.length).map fun k => noiseState State6.default
      (noiseComp (env.withNormal 0 ω) 0 State6.default P.expansionVar (idxOf P.expansionVar k))) := noiseStates_explicit _ _ _ _ _
  have ha : addNoise (env.withNormal 0 ω) 0 P.expansionVar n.loc.pf = .ok (n.loc.pf.noise (pickNoise ((List.range n.loc.pf.particles.length).map fun k => noiseState State6.default
      (noiseComp (env.withNormal 0 ω) 0 State6.default P.expansionVar (idxOf P.expansionVar k))))) := by
    rw [addNoise, hns]; rfl
  have hst : ∃ o, step P lib (env.withNormal 0 ω) n .expansionReset = .ok ({ n with loc := { n.loc with pf := n.loc.pf.noise (pickNoise ((List.range n.loc.pf.particles.length).map fun k => noiseState State6.default
      (noiseComp (env.withNormal 0 ω) 0 State6.default P.expansionVar (idxOf P.expansionVar k)))) } }, o) := by
    rw [step, cbExpansionReset, ha, Outcome.bind_ok]
    exact ⟨_, rfl⟩
  obtain ⟨o, hst⟩ := hst
  have key : AllIn B (n.loc.pf.noise (pickNoise ((List.range n.loc.pf.particles.length).map fun k => noiseState State6.default
      (noiseComp (env.withNormal 0 ω) 0 State6.default P.expansionVar (idxOf P.expansionVar k))))).particles ↔
      ∀ k : Fin n.loc.pf.particles.length, shiftedBy (q k) (fun i => (0 : Fin 6 → ℝ) i + sigmas P.expansionVar i * ω (idxOf P.expansionVar k i)) ∈ B k := by
    refine allIn_iff (by simp [PF.Filter.noise]) (g := fun k => shiftedBy (q k) (fun i => (0 : Fin 6 → ℝ) i +
      sigmas P.expansionVar i * ω (idxOf P.expansionVar k i))) ?_ B
    intro k p hp
    simp only [PF.Filter.noise, List.getElem?_mapIdx, Option.map_eq_some_iff] at hp
    obtain ⟨p0, hp0, rfl⟩ := hp
    have hlt := (List.getElem?_eq_some_iff.1 hp0).1
    obtain ⟨⟨hd1, hd2⟩, -⟩ := disturbed_add (env.withNormal 0 ω) 0 P.expansionVar (idxOf P.expansionVar k) p0.state
    simp only [withNormal_normal] at hd1 hd2
    have hz : (fun i => (0 : Fin 6 → ℝ) i + sigmas P.expansionVar i * ω (idxOf P.expansionVar k i)) =
        fun i => sigmas P.expansionVar i * ω (idxOf P.expansionVar k i) := by funext i; simp
    rw [hz, ← hq k p0 hp0]
    simp only [poseOf, pickNoise, List.getD, List.getElem?_map, List.getElem?_range hlt, Option.map_some, Option.getD_some, shiftedBy]
    exact Prod.ext hd1 hd2
  constructor
  · rintro ⟨n', o', hn', hin⟩
    rw [hst, Outcome.ok.injEq] at hn'
    cases hn'
    exact key.1 hin
  · exact fun h => ⟨_, o, hst, key.2 h⟩

/-- C168: after an accepted initial pose with a symmetric positive semidefinite covariance the particles are independent
and normally distributed, with the pose (in the map frame) as mean and with that covariance. -/
theorem C168_initialpose {P : Params} {lib : Lib C} {env : Env} (n : Node C) {msg : PoseMsg}
    (hrot : |msg.rot.dot msg.rot - 1| ≤ 1 / 10) {t : Tf} (ht : env.tf P.mapFrame msg.frame msg.stamp = some t)
    (hsolve : ∀ A, MultiNoise.Solved A (lib.solve6 A).1 (lib.solve6 A).2)
    {S : Matrix (Fin 6) (Fin 6) ℝ} (hS : ∀ i j : Fin 6, S i j = msg.cov ⟨6 * i + j, by omega⟩) (hpsd : S.PosSemidef)
    {B : ℕ → Set (Vec3 ℝ × Quat ℝ)} (hB : ∀ k, MeasurableSet (poseAt ⁻¹' B k)) :
    normalStream.real {ω | ∃ n' o, step P lib (env.withNormal 0 ω) n (.initialpose msg) = .ok (n', o) ∧ AllIn B n'.loc.pf.particles} =
      ∏ k ∈ Finset.range n.loc.pf.particles.length,
        (multivariateGaussian (WithLp.toLp 2 ![(t.point msg.pos).x, (t.point msg.pos).y, (t.point msg.pos).z,
          (t.rot * msg.rot).getRPY.x, (t.rot * msg.rot).getRPY.y, (t.rot * msg.rot).getRPY.z]) S).real {v | poseAt v.ofLp ∈ B k} := by
  set cov : ℕ → ℝ := fun i => if h : i < 36 then msg.cov ⟨i, h⟩ else 0 with hcov
  set A : Fin 6 → Fin 6 → ℝ := MultiNoise.covMatrix cov with hA
  have hAS : ∀ i j, A i j = S i j := by
    intro i j
    have h1 : (j : ℕ) + i * 6 < 36 := by omega
    rw [hS, hA]
    simp only [MultiNoise.covMatrix, hcov, h1, dif_pos]
    congr 2
    omega
  set T : Matrix (Fin 6) (Fin 6) ℝ := MultiNoise.normTransform (lib.solve6 A).1 (lib.solve6 A).2 with hT
  have hlow : ∀ i j, MultiNoise.lowerSym A i j = S i j := by
    intro i j
    simp only [MultiNoise.lowerSym, hAS]
    split_ifs
    · rfl
    · have := hpsd.1.apply i j
      simpa using this
  have hTS : T * T.transpose = S := by
    ext i j
    rw [Matrix.mul_apply]
    simp only [Matrix.transpose_apply]
    rw [hT, ← hlow]
    refine MultiNoise.transform_sq (hsolve A) (MultiNoise.vals_nonneg (hsolve A) fun u => ?_) i j
    simp only [hlow]
    have := hpsd.dotProduct_mulVec_nonneg u
    simp only [dotProduct, Matrix.mulVec, star_trivial, Finset.mul_sum] at this
    simpa only [mul_assoc] using this
  have hlaw := multi_law (poseVec t msg) T S hTS
  set ν : Measure (Fin 6 → ℝ) := (Measure.pi fun _ : Fin 6 => gaussianReal 0 1).map fun z i => poseVec t msg i + ∑ j, T i j * z j with hν
  have hmeas : Measurable fun (z : Fin 6 → ℝ) i => poseVec t msg i + ∑ j, T i j * z j := by
    refine measurable_pi_lambda _ fun i => ?_
    fun_prop
  have : IsProbabilityMeasure ν := Measure.isProbabilityMeasure_map hmeas.aemeasurable
  have hνB : ∀ k, (multivariateGaussian (WithLp.toLp 2 ![(t.point msg.pos).x, (t.point msg.pos).y, (t.point msg.pos).z,
      (t.rot * msg.rot).getRPY.x, (t.rot * msg.rot).getRPY.y, (t.rot * msg.rot).getRPY.z]) S).real {v | poseAt v.ofLp ∈ B k} =
      ν.real (poseAt ⁻¹' B k) := by
    intro k
    have e : (fun z : Fin 6 → ℝ => WithLp.toLp 2 fun i => poseVec t msg i + ∑ j, T i j * z j) =
      WithLp.toLp 2 ∘ fun z i => poseVec t msg i + ∑ j, T i j * z j := rfl
    have : multivariateGaussian (WithLp.toLp 2 ![(t.point msg.pos).x, (t.point msg.pos).y, (t.point msg.pos).z,
      (t.rot * msg.rot).getRPY.x, (t.rot * msg.rot).getRPY.y, (t.rot * msg.rot).getRPY.z]) S = ν.map (WithLp.toLp 2) := by
      rw [hν, Measure.map_map (by fun_prop) hmeas, ← e, hlaw]
      rfl
    rw [this, map_measureReal_apply (by fun_prop)]
    · rfl
    · exact (show Measurable fun v : EuclideanSpace ℝ (Fin 6) => v.ofLp by fun_prop) (hB k)
  simp only [hνB]
  have hblock : normalStream.map (fun ω (k : Fin n.loc.pf.particles.length) i => poseVec t msg i + ∑ j : Fin 6, T i j * ω (6 * k + j)) =
      Measure.pi fun _ => ν := by
    have hinj : Function.Injective fun p : Fin n.loc.pf.particles.length × Fin 6 => 6 * (p.1 : ℕ) + p.2 := by
      rintro ⟨k, i⟩ ⟨k', i'⟩ h
      simp only at h
      refine Prod.ext (Fin.ext ?_) (Fin.ext ?_) <;> simp only <;> omega
    have e : (fun (ω : ℕ → ℝ) (k : Fin n.loc.pf.particles.length) i => poseVec t msg i + ∑ j : Fin 6, T i j * ω (6 * k + j)) =
        (fun (x : Fin n.loc.pf.particles.length → Fin 6 → ℝ) k i => poseVec t msg i + ∑ j, T i j * x k j) ∘ fun ω k i => ω (6 * k + i) := rfl
    rw [e, ← Measure.map_map (by fun_prop) (by fun_prop), normalStream_block hinj]
    rw [Measure.pi_map_pi (f := fun _ (z : Fin 6 → ℝ) i => poseVec t msg i + ∑ j, T i j * z j) (fun _ => hmeas.aemeasurable)]
  rw [← prob_blocks (by fun_prop) hblock hB]
  congr 1
  ext ω
  simp only [Set.mem_ofPred_eq]
  obtain ⟨ss, e', hg, hl⟩ := multiNoise_total ((env.withNormal 0 ω).gauss 0 0 1) lib.solve6
    (State6.ofQuat (t.point msg.pos) (t.rot * msg.rot)) cov n.loc.pf.particles.length 0
  have hd := (drawn _ _ _ _ _ _ hg).2
  have hst : ∃ o, step P lib (env.withNormal 0 ω) n (.initialpose msg) = .ok ({ n with
      map := { n.map with update := none }, loc := { n.loc with pf := (n.loc.pf.init (pickNoise ss)).predict resetInteg } }, o) := by
    rw [step]
    unfold cbPosition
    have ht' : (env.withNormal 0 ω).tf P.mapFrame msg.frame msg.stamp = some t := ht
    rw [if_neg (not_lt.2 hrot), ht']
    simp only [← hcov, hg, Outcome.bind_ok]
    exact ⟨_, rfl⟩
  obtain ⟨o, hst⟩ := hst
  have key : AllIn B ((n.loc.pf.init (pickNoise ss)).predict resetInteg).particles ↔ ∀ k : Fin n.loc.pf.particles.length,
      poseAt (fun i => poseVec t msg i + ∑ j : Fin 6, T i j * ω (6 * k + j)) ∈ B k := by
    refine allIn_iff (by simp [PF.Filter.init, PF.Filter.predict]) (g := fun k => poseAt (fun i => poseVec t msg i + ∑ j : Fin 6, T i j * ω (6 * k + j))) ?_ B
    intro k p hp
    simp only [PF.Filter.predict, PF.Filter.init, List.getElem?_map, List.getElem?_mapIdx, Option.map_map,
      Option.map_eq_some_iff] at hp
    obtain ⟨q, hq, rfl⟩ := hp
    have hk : k < ss.length := by
      have := (List.getElem?_eq_some_iff.1 hq).1
      omega
    obtain ⟨x, hx, hp1, hp2⟩ := hd k (pickNoise ss k) (by simp [pickNoise, List.getD, hk])
    have hx' : x = fun i => poseVec t msg i + ∑ j : Fin 6, T i j * ω (6 * k + j) := by
      rw [hx]
      funext i
      simp only [MultiNoise.noise, withNormal_normal, Nat.zero_add]
      rw [MultiNoise.matVec_eq]
      congr 1
      fin_cases i <;> rfl
    show (_, _) = _
    simp only [Function.comp, resetInteg, hp1, hp2, ← hx']
    rfl
  constructor
  · rintro ⟨n', o', hn', hin⟩
    rw [hst, Outcome.ok.injEq] at hn'
    cases hn'
    exact key.1 hin
  · exact fun h => ⟨_, o, hst, key.2 h⟩

theorem measurable_x {I : Set ℝ} (hI : MeasurableSet I) : MeasurableSet (poseAt ⁻¹' {q : Vec3 ℝ × Quat ℝ | q.1.x ∈ I}) :=
  (measurable_pi_apply (0 : Fin 6)) hI

/-- Example: with the default parameters, 64 particles start at the origin with a standard deviation of 2 along x; the
probability that all of them start with an x coordinate in `I` is the 64th power of that of a single normally
distributed number. -/
example {I : Set ℝ} (hI : MeasurableSet I) :
    normalStream.real {ω | ∃ n, start Demo.P0 Demo.lib ((Demo.env 0).withNormal 0 ω) Demo.motion0 = .ok n ∧
      ∀ p ∈ n.loc.pf.particles, p.state.pos.x ∈ I} = (gaussianReal 0 4).real I ^ 64 := by
  have hpi := Real.pi_pos
  have h := C168_start (P := Demo.P0) (lib := Demo.lib) (env := Demo.env 0) (motion0 := Demo.motion0) (by simp) (r := ⟨0, 0, 0⟩)
    (by norm_num [Demo.P0, Params.loadFrom, Server.dblD, Server.getDouble, State6.ofQuat]) ⟨by linarith, by linarith⟩
    ⟨by linarith, by linarith⟩ ⟨by linarith, by linarith⟩ (B := fun _ => {q | q.1.x ∈ I}) (fun _ => measurable_x hI)
  have e : ∀ n : Node Unit, AllIn (fun _ => {q | q.1.x ∈ I}) n.loc.pf.particles ↔ ∀ p ∈ n.loc.pf.particles, p.state.pos.x ∈ I := by
    intro n
    constructor
    · intro h p hp
      obtain ⟨k, hk⟩ := List.mem_iff_getElem?.1 hp
      exact h k p hk
    · intro h k p hp
      exact h p (List.mem_of_getElem? hp)
  simp only [e] at h
  rw [h, Finset.prod_const, Finset.card_range]
  have h64 : Demo.P0.numParticles.toNat = 64 := by simp
  rw [h64]
  congr 1
  have hs : sigmas Demo.P0.initialPoseStd 0 = 2 := by
    norm_num [sigmas, Demo.P0, Params.loadFrom, Server.dblD, Server.getDouble, State6.ofRPY]
  have hm : Demo.P0.initialPose.pos.x = 0 := by
    norm_num [Demo.P0, Params.loadFrom, Server.dblD, Server.getDouble, State6.ofQuat]
  have := (measurePreserving_eval (fun i : Fin 6 => gaussianReal (![Demo.P0.initialPose.pos.x, Demo.P0.initialPose.pos.y,
    Demo.P0.initialPose.pos.z, 0, 0, 0] i) (NNReal.mk (sigmas Demo.P0.initialPoseStd i ^ 2) (sq_nonneg _))) 0).measureReal_preimage
    hI.nullMeasurableSet
  refine this.trans ?_
  simp only [hs, Matrix.cons_val_zero, hm]
  have : NNReal.mk ((2 : ℝ) ^ 2) (sq_nonneg _) = 4 := by
    apply NNReal.eq
    norm_num
  rw [this]

/-- Example: an initial pose at (1, 2, 3) with independent standard deviations of 1: the probability that all particles
get an x coordinate in `I` is the power of that of a normally distributed number with mean 1. -/
example {I : Set ℝ} (hI : MeasurableSet I) : ∃ (lib : Lib Unit) (n : Node Unit), n.loc.pf.particles.length = 64 ∧
    normalStream.real {ω | ∃ n' o, step Demo.P0 lib ((Demo.env 1).withNormal 0 ω) n
        (.initialpose ⟨1, "map", ⟨1, 2, 3⟩, 1, fun i => if (i : ℕ) % 7 = 0 then 1 else 0⟩) = .ok (n', o) ∧
      AllIn (fun _ => {q | q.1.x ∈ I}) n'.loc.pf.particles} = (gaussianReal 1 1).real I ^ 64 := by
  choose vals vecs hs using MultiNoise.solved_exists (n := 6)
  let lib : Lib Unit := { Demo.lib with solve6 := fun A => (vals A, vecs A) }
  obtain ⟨n, hn⟩ := start_total Demo.P0 lib (Demo.env 0) Demo.motion0 (by simp)
  have hl : n.loc.pf.particles.length = 64 := by
    obtain ⟨_, ns, _, rfl⟩ := start_ok hn
    simp [PF.Filter.init, PF.Filter.new]
  refine ⟨lib, n, hl, ?_⟩
  have h := C168_initialpose (P := Demo.P0) (lib := lib) (env := Demo.env 1) n
    (msg := ⟨1, "map", ⟨1, 2, 3⟩, 1, fun i => if (i : ℕ) % 7 = 0 then 1 else 0⟩) (by norm_num [Quat.dot]) (t := ⟨⟨0, 0, 0⟩, 1⟩) rfl hs
    (S := 1) (by
      intro i j
      rw [Matrix.one_apply]
      fin_cases i <;> fin_cases j <;> rfl) Matrix.PosSemidef.one (B := fun _ => {q | q.1.x ∈ I}) (fun _ => measurable_x hI)
  rw [h, Finset.prod_const, Finset.card_range, hl]
  congr 1
  refine ((measurePreserving_eval_multivariateGaussian (Matrix.PosSemidef.one (n := Fin 6) (R := ℝ)) (i := 0)).measureReal_preimage
    hI.nullMeasurableSet).trans ?_
  have hx : ((⟨⟨0, 0, 0⟩, 1⟩ : Tf).point ⟨1, 2, 3⟩).x = 1 := by
    show ((⟨0, 0, 0, 1⟩ : Quat ℝ).rotate ⟨1, 2, 3⟩ + (⟨0, 0, 0⟩ : Vec3 ℝ)).x = 1
    norm_num [Quat.rotate_x, Vec3.add_x]
  show (gaussianReal ((⟨⟨0, 0, 0⟩, 1⟩ : Tf).point ⟨1, 2, 3⟩).x _).real I = _
  rw [hx]
  simp

/-- Example: the probability that a request for expansion resetting moves no particle by more than `c` along x is the power
of that of a single normally distributed number with the standard deviation of the parameter. -/
example {P : Params} {lib : Lib C} {env : Env} (n : Node C) (c : ℝ) :
    ∃ q : ℕ → Vec3 ℝ × Quat ℝ, (∀ k p, n.loc.pf.particles[k]? = some p → poseOf p = q k) ∧
    normalStream.real {ω | ∃ n' o, step P lib (env.withNormal 0 ω) n .expansionReset = .ok (n', o) ∧
      AllIn (fun k => {r | |r.1.x - (q k).1.x| ≤ c}) n'.loc.pf.particles} =
      (gaussianReal 0 (NNReal.mk (P.expansionVar.pos.x ^ 2) (sq_nonneg _))).real {d | |d| ≤ c} ^ n.loc.pf.particles.length := by
  refine ⟨fun k => ((n.loc.pf.particles[k]?).map poseOf).getD (0, 1), fun k p hp => by simp [hp], ?_⟩
  have hc : MeasurableSet {d : ℝ | |d| ≤ c} := measurableSet_le (by fun_prop) (by fun_prop)
  have e : ∀ q : Vec3 ℝ × Quat ℝ, shiftedBy q ⁻¹' {r | |r.1.x - q.1.x| ≤ c} = (fun d : Fin 6 → ℝ => d 0) ⁻¹' {d | |d| ≤ c} := by
    intro q
    ext d
    simp [shiftedBy, Vec3.add_x]
  rw [C168_expansion n (fun k => ((n.loc.pf.particles[k]?).map poseOf).getD (0, 1)) (fun k p hp => by simp [hp])]
  · simp only [e, Finset.prod_const, Finset.card_range]
    congr 1
    exact (measurePreserving_eval (fun i : Fin 6 => gaussianReal ((0 : Fin 6 → ℝ) i) (NNReal.mk (sigmas P.expansionVar i ^ 2) (sq_nonneg _)))
      0).measureReal_preimage hc.nullMeasurableSet
  · intro k
    rw [e]
    exact (measurable_pi_apply (0 : Fin 6)) hc

end Node
end Mcl3dl
