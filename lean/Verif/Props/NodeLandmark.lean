import Verif.Spec.NodeLandmark
import Verif.Props.NodeResample
import Verif.Props.Likelihood

/-! # C128: the landmark measurement -/

set_option linter.unusedSectionVars false

namespace Mcl3dl
namespace Node

open Matrix

variable {C : Type}

theorem landmark_density (msg : PoseMsg) (s : State6 ℝ) :
    landmarkLikelihood msg.cov (State6.ofQuat msg.pos msg.rot) s = gaussian6 (covOf msg) (errorTo msg s) := by
  have hT : (fun (i j : Fin 6) => msg.cov ⟨i + 6 * j, by omega⟩) = (covOf msg)ᵀ := by
    ext i j; simp only [covOf, transpose_apply]; congr 1; ext; simp only; omega
  have e : (![(s.sub (State6.ofQuat msg.pos msg.rot)).pos.x, (s.sub (State6.ofQuat msg.pos msg.rot)).pos.y,
      (s.sub (State6.ofQuat msg.pos msg.rot)).pos.z, (s.sub (State6.ofQuat msg.pos msg.rot)).rot.getRPY.x,
      (s.sub (State6.ofQuat msg.pos msg.rot)).rot.getRPY.y, (s.sub (State6.ofQuat msg.pos msg.rot)).rot.getRPY.z] :
        Fin 6 → ℝ) = errorTo msg s := rfl
  simp only [landmarkLikelihood, hT]
  rw [e, NormalLikelihoodNd.eval_eq, gaussian6, ← Matrix.transpose_nonsing_inv, Matrix.mulVec_transpose, dotProduct_comm,
    ← Matrix.dotProduct_mulVec]
  simp only [NormalLikelihoodNd.make, Matrix.det_transpose]
  rw [show (1 / 2 * ((6 : ℕ) : ℝ)) = ((3 : ℕ) : ℝ) by norm_num, Real.rpow_natCast]
  congr 2
  ring

theorem drawn_spec {P : Params} {env : Env} (hv : env.Valid) {f f3 : Filter}
    (hne : f.particles ≠ []) (hnn : ∀ p ∈ f.particles, 0 ≤ p.prob) (hW : 0 < (f.particles.map PF.Particle.prob).sum)
    (h3 : resampleFilter env 0 P.resampleVar f = .ok f3) :
    ∃ (anc ord : ℕ → ℕ) (idx : ℕ → Fin 6 → ℕ), Drawn P env (f.particles.map PF.Particle.prob)
      (f.particles.map PF.Particle.state) (f3.particles.map PF.Particle.state) anc ord idx := by
  have hlen0 : 0 < f.particles.length := List.length_pos_iff.2 hne
  obtain ⟨ns, hns, h3⟩ := Outcome.bind_eq_ok_iff.1 h3
  obtain ⟨hnl, idx, hfr, hpick⟩ := noiseStates_spec hns
  obtain ⟨f3', anc, ord, hf3, hl3, hsrc, hslot⟩ := resample_sources hv f (pickNoise ns) hne hnn hW
  rw [hf3] at h3
  simp only [Outcome.ok.injEq] at h3
  subst h3
  have hdist : ∀ (k : ℕ), k < f.particles.length → ∀ a : State6 ℝ, Scattered
      (fun i => sigmas P.resampleVar i * env.normal 0 (idx k i)) a
      (PF.StateOps.normalize (PF.StateOps.add a (pickNoise ns k))) := by
    intro k hk a
    rw [hpick k hk]
    exact ⟨_, disturbed_add env 0 P.resampleVar (idx k) a, rfl⟩
  refine ⟨anc, ord, idx, by simp [hl3], hfr, hsrc, ?_⟩
  intro k s' hs'
  rw [List.getElem?_map, Option.map_eq_some_iff] at hs'
  obtain ⟨p3, e3, rfl⟩ := hs'
  obtain ⟨hk3, rfl⟩ := List.getElem?_eq_some_iff.1 e3
  have hkf : k < f.particles.length := by omega
  obtain ⟨ha, hc⟩ := hslot k hk3
  refine ⟨_, by rw [List.getElem?_map, List.getElem?_eq_getElem ha]; rfl, ?_⟩
  by_cases hd : anc k = (if k = 0 then ord 0 else anc (k - 1))
  · rw [if_pos hd] at hc ⊢
    rw [hc]
    exact hdist k hkf _
  · rw [if_neg hd] at hc ⊢
    exact hc

theorem measure_probs (f : Filter) (lik : State6 ℝ → ℝ) :
    (f.measure Real.log lik).particles.map PF.Particle.prob =
      posterior (f.particles.map PF.Particle.prob) (f.particles.map fun p => lik p.state) ∧
    (f.measure Real.log lik).particles.map PF.Particle.state = f.particles.map PF.Particle.state := by
  have e1 : (PF.weigh lik f.particles).map PF.Particle.prob =
      List.zipWith (· * ·) (f.particles.map PF.Particle.prob) (f.particles.map fun p => lik p.state) := by
    simp [PF.weigh, List.zipWith_map, List.zipWith_self, Function.comp_def]
  have e2 : PF.total (PF.weigh lik f.particles) =
      (List.zipWith (· * ·) (f.particles.map PF.Particle.prob) (f.particles.map fun p => lik p.state)).sum := by
    rw [← e1, PF.total_eq]; rfl
  simp only [PF.Filter.measure, posterior, ← e2]
  split_ifs with h
  · constructor
    · rw [← e1]; simp [Function.comp_def]
    · simp [PF.weigh, Function.comp_def]
  · exact ⟨rfl, rfl⟩

/-- C128: after any history, a landmark message with a positive definite covariance is always processed: the weights
are multiplied with the normal density of the particles' distances to the pose of the message and normalised, and
the particles are drawn anew from these; all get equal weights; nothing else changes, and the particles are
published. -/
theorem C128_landmark {P : Params} (hd : 0 < P.divYaw) {lib : Lib C} {env0 env : Env} {motion0 : Motion ℝ}
    {h : History} (hv : HistValid h) (hve : env.Valid) {n0 n : Node C} {outs : List (List Out)}
    (hs : start P lib env0 motion0 = .ok n0) (hr : run P lib n0 h = .ok (n, outs)) {msg : PoseMsg}
    (hcov : (covOf msg).PosDef) (hne : n.loc.pf.particles ≠ []) :
    ∃ (n' : Node C) (weights : List ℝ) (anc ord : ℕ → ℕ) (idx : ℕ → Fin 6 → ℕ),
      step P lib env n (.landmark msg) = .ok (n', [publishParticles P n.odo n.loc.tolBase (env.now 0) n'.loc.pf]) ∧
      n' = { n with loc := { n.loc with pf := n'.loc.pf } } ∧
      weights = posterior (n.loc.pf.particles.map PF.Particle.prob)
        (n.loc.pf.particles.map fun p => gaussian6 (covOf msg) (errorTo msg p.state)) ∧
      Drawn P env weights (n.loc.pf.particles.map PF.Particle.state) (n'.loc.pf.particles.map PF.Particle.state) anc ord idx ∧
      ∀ p ∈ n'.loc.pf.particles, p.prob = 1 / (n.loc.pf.particles.length : ℝ) := by
  obtain ⟨hnn, hsum⟩ := C115_weights hd hv hs hr
  set lik := landmarkLikelihood msg.cov (State6.ofQuat msg.pos msg.rot) with hlik
  have hpos : ∀ s, 0 ≤ lik s := by
    intro s
    rw [hlik, landmark_density, gaussian6]
    have := hcov.det_pos
    positivity
  obtain ⟨pf, hpf⟩ := resampleFilter_total hve 0 P.resampleVar (n.loc.pf.measure Real.log lik)
  obtain ⟨m1, m2⟩ := measure_probs n.loc.pf lik
  have hW : Weighted (fun x => 0 < x) (n.loc.pf.measure Real.log lik) := by
    refine Weighted.measure one_pos ⟨hnn, fun hne => ?_⟩ hpos
    rcases hsum hne with e | ⟨_, e⟩
    · rw [show (n.loc.pf.particles.map PF.Particle.prob).sum = 1 from e]; exact one_pos
    · rw [show (n.loc.pf.particles.map PF.Particle.prob).sum = P.divYaw from e]; exact_mod_cast hd
  have hlen : (n.loc.pf.measure Real.log lik).particles.length = n.loc.pf.particles.length := by
    have := congrArg List.length m2; simpa using this
  have hne2 : (n.loc.pf.measure Real.log lik).particles ≠ [] := by
    intro h0
    rw [h0] at hlen
    exact hne (List.length_eq_zero_iff.1 hlen.symm)
  obtain ⟨anc, ord, idx, hD⟩ := drawn_spec hve hne2 hW.1 (hW.2 hne2) hpf
  rw [m1, m2] at hD
  have hu := (resampleFilter_uniform hve hpf).2
  rw [hlen] at hu
  refine ⟨{ n with loc := { n.loc with pf := pf } }, _, anc, ord, idx, ?_, rfl, rfl, ?_, hu⟩
  · show cbLandmark P env n msg = _
    unfold cbLandmark
    simp only [← hlik, hpf, Outcome.bind_ok]
  · have : (fun p : Particle => lik p.state) = fun p => gaussian6 (covOf msg) (errorTo msg p.state) := by
      funext p
      rw [hlik, landmark_density]
    rw [← this]
    exact hD

/-- C128: the frame and the stamp of the message are ignored; the pose is taken as one in the frame of the map. -/
theorem C128_frame_ignored (P : Params) (lib : Lib C) (env : Env) (n : Node C) (msg : PoseMsg) (frame : String) (stamp : ℝ) :
    step P lib env n (.landmark { msg with frame := frame, stamp := stamp }) = step P lib env n (.landmark msg) := rfl

/-- C128 is not empty: the identity covariance, at the start. -/
example : ∃ n, start Demo.P0 Demo.lib (Demo.env 0) Demo.motion0 = .ok n ∧ n.loc.pf.particles ≠ [] ∧
    (covOf ⟨1, "map", ⟨1, 2, 3⟩, 1, fun i => if i.val % 7 = 0 then 1 else 0⟩).PosDef := by
  obtain ⟨n, hn⟩ := start_total Demo.P0 Demo.lib (Demo.env 0) Demo.motion0 (by simp)
  refine ⟨n, hn, ?_, ?_⟩
  · obtain ⟨_, ns, _, rfl⟩ := start_ok hn
    simp [PF.Filter.init, PF.Filter.new]
  · have : covOf ⟨1, "map", ⟨1, 2, 3⟩, 1, fun i => if i.val % 7 = 0 then 1 else 0⟩ = (1 : Matrix (Fin 6) (Fin 6) ℝ) := by
      ext i j
      fin_cases i <;> fin_cases j <;> simp [covOf]
    rw [this]
    exact Matrix.PosDef.one

end Node
end Mcl3dl
