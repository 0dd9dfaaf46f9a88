import Verif.Proofs.NodeNoise
import Verif.Proofs.NodeTotal
import Verif.Props.NodeSafe

/-! # C123: expansion resetting -/

set_option linter.unusedSectionVars false

namespace Mcl3dl
namespace Node

variable {C : Type}

/-- A noise state of mean zero disturbs a state by the standard deviations times the numbers drawn. -/
theorem disturbed_add (env : Env) (call : ℕ) (sigma : State6 ℝ) (idx : Fin 6 → ℕ) (s : State6 ℝ) :
    Disturbed (fun i => sigmas sigma i * env.normal call (idx i)) s
      (s.add (noiseState State6.default (noiseComp env call State6.default sigma idx))) := by
  have hc : noiseComp env call State6.default sigma idx = fun i => sigmas sigma i * env.normal call (idx i) := by
    funext i
    rw [noiseComp, default_meanVec, zero_add]
  rw [hc]
  have h : (State6.default : State6 ℝ).rot.getRPY = ⟨0, 0, 0⟩ := by
    have h3 := default_meanVec 3
    have h4 := default_meanVec 4
    have h5 := default_meanVec 5
    exact Vec3.ext h3 h4 h5
  refine ⟨⟨rfl, rfl⟩, rfl, ?_, rfl⟩
  simp only [State6.add, noiseState]
  rw [h]
  congr 1
  show (⟨_ - 0, _ - 0, _ - 0⟩ : Vec3 ℝ) = _
  simp

/-- What adding noise to the particles does. -/
theorem addNoise_disturbs {env : Env} {call : ℕ} {sigma : State6 ℝ} {f f' : Filter}
    (h : addNoise env call sigma f = .ok f') :
    f'.particles.length = f.particles.length ∧ f'.entropy = f.entropy ∧
    ∃ idx : ℕ → Fin 6 → ℕ, Fresh (sigmas sigma) idx ∧
      List.Forall₂ (fun (a : Particle × ℕ) p' => p'.prob = a.1.prob ∧ p'.bias = a.1.bias ∧
        p'.accum = a.1.accum ∧
        Disturbed (fun i => sigmas sigma i * env.normal call (idx a.2 i)) a.1.state p'.state)
        f.particles.zipIdx f'.particles := by
  obtain ⟨ns, hns, h⟩ := Outcome.bind_eq_ok_iff.1 h
  obtain ⟨hl, idx, hf, hp⟩ := noiseStates_spec hns
  simp only [Outcome.ok.injEq] at h
  subst h
  refine ⟨by simp [PF.Filter.noise], rfl, idx, hf, ?_⟩
  rw [List.forall₂_iff_get]
  refine ⟨by simp [PF.Filter.noise], fun i h1 h2 => ?_⟩
  have hi : i < f.particles.length := by simpa using h1
  simp only [PF.Filter.noise, List.get_eq_getElem, List.getElem_zipIdx, List.getElem_mapIdx, zero_add, true_and]
  rw [hp i hi]
  exact disturbed_add env call sigma (idx i) _

/-- C123: the expansion resetting service disturbs every particle by independent normal noise with the standard
deviations `expansion_var`, keeps the number, the weights and the bias of the particles and everything else the
node remembers, publishes the disturbed particles, and reports success. -/
theorem C123_service (P : Params) (lib : Lib C) (env : Env) (n : Node C) :
    ∃ (n' : Node C) (idx : ℕ → Fin 6 → ℕ), Fresh (sigmas P.expansionVar) idx ∧
      step P lib env n .expansionReset = .ok (n',
        [.particles (outStamp P n.odo n.loc.tolBase (env.now 0))
          (n'.loc.pf.particles.map fun p => (p.state.pos, p.state.rot.normalized)), .response true]) ∧
      n' = { n with loc := { n.loc with pf := { n.loc.pf with particles := n'.loc.pf.particles } } } ∧
      List.Forall₂ (fun (a : Particle × ℕ) p' => p'.prob = a.1.prob ∧ p'.bias = a.1.bias ∧
        Disturbed (fun i => sigmas P.expansionVar i * env.normal 0 (idx a.2 i)) a.1.state p'.state)
        n.loc.pf.particles.zipIdx n'.loc.pf.particles := by
  obtain ⟨ns, hns, _⟩ := noiseStates_total env 0 State6.default P.expansionVar n.loc.pf.particles.length
  have ha : addNoise env 0 P.expansionVar n.loc.pf = .ok (n.loc.pf.noise (pickNoise ns)) := by
    rw [addNoise, hns]; rfl
  obtain ⟨_, _, idx, hf, hd⟩ := addNoise_disturbs ha
  refine ⟨{ n with loc := { n.loc with pf := n.loc.pf.noise (pickNoise ns) } }, idx, hf, ?_, rfl, ?_⟩
  · simp only [step, cbExpansionReset, ha, Outcome.bind, publishParticles]
  · exact hd.imp fun a p' h => ⟨h.1, h.2.1, h.2.2.2⟩

end Node
end Mcl3dl
