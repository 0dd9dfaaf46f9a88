import Verif.Props.NodeUnit
import Verif.Props.NodePosterior

/-! # Property C121: the accumulated odometry error -/

set_option linter.unusedSectionVars false

namespace Mcl3dl
namespace Node

variable {C : Type}

/-- The parameters with another `odom_err_integ_ang_sigma`. -/
def withAngSigma (P : Params) (x : ℝ) : Params := { P with integAngSigma := x }

theorem originsOf_angSigma (P : Params) (x : ℝ) (env : Env) (stamp : ℝ) (hs : List Header) :
    originsOf (withAngSigma P x) env stamp hs = originsOf P env stamp hs := by
  induction hs with
  | nil => rfl
  | cons h hs ih => rw [originsOf, originsOf, ih]; rfl

theorem prepare_angSigma (P : Params) (x : ℝ) (lib : Lib C) (env : Env) (acc : AccSt) (loc : LocSt C) (header : Header) :
    prepare (withAngSigma P x) lib env acc loc header = prepare P lib env acc loc header := by
  unfold prepare
  rw [originsOf_angSigma]
  rfl

theorem weighLoop_angSigma (P : Params) (x : ℝ) (lib : Lib C) (m : MapSt) (p : Prep) (qs : List Particle) :
    weighLoop (withAngSigma P x) lib m p qs = weighLoop P lib m p qs := by
  induction qs with
  | nil => rfl
  | cons q qs ih => funext w; rw [weighLoop, weighLoop, ih]; rfl

theorem splitMatch_angSigma (P : Params) (x : ℝ) (lib : Lib C) (m : MapSt) (pts : List Point) :
    splitMatch (withAngSigma P x) lib m pts = splitMatch P lib m pts := by
  induction pts with
  | nil => rfl
  | cons q qs ih => rw [splitMatch, splitMatch, ih]; rfl

theorem matchOutput_angSigma (P : Params) (x : ℝ) (lib : Lib C) (env : Env) (m : MapSt) (stamp last : ℝ) (pts : List Point) :
    matchOutput (withAngSigma P x) lib env m stamp last pts = matchOutput P lib env m stamp last pts := by
  unfold matchOutput
  rw [splitMatch_angSigma]
  rfl

theorem localize_angSigma (P : Params) (x : ℝ) (lib : Lib C) (env : Env) (m : MapSt) (odo : OdoSt) (warn : Vec3 ℝ)
    (loc : LocSt C) (header : Header) (p : Prep) :
    localize (withAngSigma P x) lib env m odo warn loc header p = localize P lib env m odo warn loc header p := by
  unfold localize
  simp only [weighLoop_angSigma, matchOutput_angSigma]
  rfl

theorem measure_angSigma (P : Params) (x : ℝ) (lib : Lib C) (env : Env) :
    measure (withAngSigma P x) lib env = measure P lib env := by
  funext n
  unfold measure measureCore
  simp only [prepare_angSigma, localize_angSigma]
  rfl

/-- C121, the rotational error: `odom_err_integ_ang_sigma` has no effect on anything the node does. -/
theorem C121_angular_ignored (P : Params) (x : ℝ) (lib : Lib C) (env : Env) (motion0 : Motion ℝ) (n : Node C) (e : Event) :
    start { P with integAngSigma := x } lib env motion0 = start P lib env motion0 ∧
    step { P with integAngSigma := x } lib env n e = step P lib env n e := by
  refine ⟨rfl, ?_⟩
  cases e with
  | cloud header msg =>
    show cbCloud (withAngSigma P x) lib env n header msg = cbCloud P lib env n header msg
    unfold cbCloud
    have hc : callbacks (withAngSigma P x) lib env header = callbacks P lib env header := by
      unfold callbacks
      rw [measure_angSigma]
      rfl
    rw [hc]
    rfl
  | _ => rfl

/-- C121, the start: before any odometry message, the accumulated error recorded for a particle is its
position in the map. -/
theorem C121_start {P : Params} {lib : Lib C} {env : Env} {motion0 : Motion ℝ} {n : Node C}
    (h : start P lib env motion0 = .ok n) : ∀ p ∈ n.loc.pf.particles, p.state.integLin = p.state.pos := by
  obtain ⟨h0, ns, hns, rfl⟩ := start_ok h
  obtain ⟨hl, idx, _, hk⟩ := noiseStates_spec hns
  intro p hp
  obtain ⟨k, hk'⟩ := List.mem_iff_getElem?.1 hp
  simp only [PF.Filter.init, PF.Filter.new, List.getElem?_mapIdx, Option.map_eq_some_iff] at hk'
  obtain ⟨q, hq, rfl⟩ := hk'
  have hlt : k < P.numParticles.toNat := by
    have := (List.getElem?_eq_some_iff.1 hq).1
    simpa using this
  simp only [hk k hlt, noiseState]

/-- C121: what the recorded translational error does to the likelihood of a particle: it contributes exactly the
factor of a normal distribution with the standard deviation `odom_err_integ_lin_sigma`; the recorded rotational
error does nothing (see also `C121_angular_ignored`; for what is recorded at the start see `C121_start`). -/
theorem C121_linear {P : Params} {b : Lidar.Beam} {caster : Lidar.Caster C}
    {w : Vec3 ℝ} {map : List Point} {origins : List (Vec3 ℝ)} {beamSel sel : List Point} {s : State6 ℝ} {l : ℝ}
    (h : LikelihoodOf P b caster w map origins beamSel sel s l) (e a : Vec3 ℝ) :
    LikelihoodOf P b caster w map origins beamSel sel { s with integLin := e, integAng := a }
      (l * Real.exp ((s.integLin.norm ^ 2 - e.norm ^ 2) / (2 * P.integLinSigma ^ 2))) := by
  obtain ⟨c, c', sts, h1, h2⟩ := h
  have hst : ∀ (pts : List Point) (c c' : C) (sts : List Lidar.BeamStatus), Lidar.Statuses b caster origins s pts c sts c' →
      Lidar.Statuses b caster origins { s with integLin := e, integAng := a } pts c sts c' := by
    intro pts c c' sts h
    induction h with
    | nil => exact .nil
    | cons g1 g2 _ ih => exact .cons g1 g2 ih
  refine ⟨c, c', sts, hst _ _ _ _ h1, ?_⟩
  have hf : fieldScore P.like w map { s with integLin := e, integAng := a } sel = fieldScore P.like w map s sel := rfl
  have hg : gaussian P.integLinSigma e.norm = gaussian P.integLinSigma s.integLin.norm *
      Real.exp ((s.integLin.norm ^ 2 - e.norm ^ 2) / (2 * P.integLinSigma ^ 2)) := by
    unfold gaussian
    rw [mul_assoc, ← Real.exp_add]
    congr 2
    ring
  rw [h2, hf]
  simp only
  rw [hg]
  ring

/-- C121, the last theorem is not empty: a particle without beams has a likelihood. -/
example {P : Params} {b : Lidar.Beam} {caster : Lidar.Caster C}
    {w : Vec3 ℝ} {map : List Point} {origins : List (Vec3 ℝ)} {sel : List Point} (c : C) :
    ∃ l, LikelihoodOf P b caster w map origins [] sel { (State6.default : State6 ℝ) with integLin := ⟨3, 4, 0⟩ } l :=
  ⟨_, c, c, [], .nil, rfl⟩

/-- The start: a particle far from the origin of the map starts with a large recorded error. -/
example : ∃ n, start { Demo.P0 with initialPose := State6.ofQuat ⟨50, 0, 0⟩ 1 } Demo.lib (Demo.env 0) Demo.motion0 = .ok n ∧
    n.loc.pf.particles ≠ [] := by
  obtain ⟨n, hn⟩ := start_total { Demo.P0 with initialPose := State6.ofQuat ⟨50, 0, 0⟩ 1 } Demo.lib (Demo.env 0)
    Demo.motion0 (by simp)
  refine ⟨n, hn, ?_⟩
  obtain ⟨_, ns, _, rfl⟩ := start_ok hn
  simp [PF.Filter.init, PF.Filter.new]

/-! ## C130: the particles at the start -/

/-- C130: at the start there are `num_particles` particles of equal weight; particle `k` has the configured initial
pose plus normal noise with the configured standard deviations, made of numbers that are used only once, with the
orientation given by roll, pitch and yaw. -/
theorem C130_start {P : Params} {lib : Lib C} {env : Env} {motion0 : Motion ℝ} {n : Node C} {r : Vec3 ℝ}
    (hr : P.initialPose.rot = Quat.ofRPY r) (h1 : r.x ∈ Set.Ioc (-Real.pi) Real.pi)
    (h2 : r.y ∈ Set.Ioo (-(Real.pi / 2)) (Real.pi / 2)) (h3 : r.z ∈ Set.Ioc (-Real.pi) Real.pi)
    (h : start P lib env motion0 = .ok n) :
    (n.loc.pf.particles.length : ℤ) = P.numParticles ∧
    ∃ idx : ℕ → Fin 6 → ℕ, Fresh (sigmas P.initialPoseStd) idx ∧
      ∀ (k : ℕ) (p : Particle), n.loc.pf.particles[k]? = some p →
        p.prob = 1 / (P.numParticles : ℝ) ∧
        p.state.pos = P.initialPose.pos + ⟨P.initialPoseStd.pos.x * env.normal 0 (idx k 0),
          P.initialPoseStd.pos.y * env.normal 0 (idx k 1), P.initialPoseStd.pos.z * env.normal 0 (idx k 2)⟩ ∧
        p.state.rot = Quat.ofRPY (r + ⟨P.initialPoseStd.rpy.x * env.normal 0 (idx k 3),
          P.initialPoseStd.rpy.y * env.normal 0 (idx k 4), P.initialPoseStd.rpy.z * env.normal 0 (idx k 5)⟩) := by
  obtain ⟨h0, ns, hns, rfl⟩ := start_ok h
  obtain ⟨hl, idx, hf, hk⟩ := noiseStates_spec hns
  have hN : ((P.numParticles.toNat : ℕ) : ℤ) = P.numParticles := Int.toNat_of_nonneg h0
  have hNr : ((P.numParticles.toNat : ℕ) : ℝ) = (P.numParticles : ℝ) := by exact_mod_cast hN
  refine ⟨by simp [PF.Filter.init, PF.Filter.new, h0], idx, hf, fun k p hp => ?_⟩
  simp only [PF.Filter.init, PF.Filter.new, List.getElem?_mapIdx, Option.map_eq_some_iff] at hp
  obtain ⟨q, hq, rfl⟩ := hp
  have hlt : k < P.numParticles.toNat := by
    have := (List.getElem?_eq_some_iff.1 hq).1
    simpa using this
  have hrpy := Quat.C33_getRPY_ofRPY r.x r.y r.z h1 h2 h3
  rw [← hr] at hrpy
  refine ⟨?_, ?_, ?_⟩
  · rw [← hNr]
    simp
  · simp only [hk k hlt, noiseState, noiseComp, State6.meanVec]
    rfl
  · simp only [hk k hlt, noiseState, noiseComp, State6.meanVec]
    congr 1
    show _ = (⟨_ + _, _ + _, _ + _⟩ : Vec3 ℝ)
    ext <;> simp [hrpy, sigmas]

/-- C130 is not empty. -/
example : ∃ n, start Demo.P0 Demo.lib (Demo.env 0) Demo.motion0 = .ok n ∧ n.loc.pf.particles.length = 64 := by
  obtain ⟨n, hn⟩ := start_total Demo.P0 Demo.lib (Demo.env 0) Demo.motion0 (by simp)
  refine ⟨n, hn, ?_⟩
  obtain ⟨_, ns, _, rfl⟩ := start_ok hn
  simp [PF.Filter.init, PF.Filter.new]

end Node
end Mcl3dl
