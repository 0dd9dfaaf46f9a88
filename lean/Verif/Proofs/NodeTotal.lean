import Verif.Proofs.NodeBasic
import Verif.Props.State6DOF

/-! # Which steps of the node always succeed -/

namespace Mcl3dl
namespace Node

variable {C : Type}

theorem noiseStates_total (env : Env) (call : ℕ) (mean sigma : State6 ℝ) (n : ℕ) :
    ∃ ns, env.noiseStates call mean sigma n = .ok ns ∧ ns.length = n := by
  obtain ⟨ss, e, h, hl, _⟩ := State6.C43_init (env.gauss call) mean sigma n 0
  exact ⟨ss, by simp [Env.noiseStates, h], hl⟩

theorem start_total (P : Params) (lib : Lib C) (env : Env) (motion0 : Motion ℝ) (h : 0 ≤ P.numParticles) :
    ∃ n, start P lib env motion0 = .ok n := by
  obtain ⟨ns, hns, _⟩ := noiseStates_total env 0 P.initialPose P.initialPoseStd P.numParticles.toNat
  unfold start
  rw [if_neg (by omega)]
  simp only [hns, Outcome.bind_ok]
  exact ⟨_, rfl⟩

theorem resampleFilter_total {env : Env} (hv : env.Valid) (call : ℕ) (sigma : State6 ℝ) (f : Filter) :
    ∃ f', resampleFilter env call sigma f = .ok f' := by
  obtain ⟨ns, hns, _⟩ := noiseStates_total env call State6.default sigma f.particles.length
  obtain ⟨f2, h2, _⟩ := PF.resample_spec f _ (env.unit * (PF.total f.particles / (f.particles.length : ℝ)))
    (pickNoise ns) (hv.sort (PF.accumulate 0 f.particles))
  exact ⟨f2, by simp only [resampleFilter, hns, Outcome.bind_ok, h2]⟩

theorem addNoise_total (env : Env) (call : ℕ) (sigma : State6 ℝ) (f : Filter) :
    ∃ f', addNoise env call sigma f = .ok f' := by
  obtain ⟨ns, hns, _⟩ := noiseStates_total env call State6.default sigma f.particles.length
  exact ⟨_, by simp only [addNoise, hns, Outcome.bind_ok]; rfl⟩

theorem expandFilter_total (P : Params) (env : Env) (r : ℝ) (f : Filter) :
    ∃ f', expandFilter P env r f = .ok f' := by
  unfold expandFilter
  split_ifs
  · exact addNoise_total env 1 P.expansionVar f
  · exact ⟨_, rfl⟩

theorem resizeFilter_total {env : Env} (hv : env.Valid) {f : Filter} (hf : f.particles ≠ []) {n : ℤ}
    (hn : 0 ≤ n) : ∃ f', resizeFilter env f n = .ok f' := by
  unfold resizeFilter
  rw [if_neg (by omega)]
  obtain ⟨f2, h2, _⟩ := PF.resize_spec State6.default env.junk f n.toNat _
    (hv.sort (PF.accumulate 0 f.particles)) (.inl hf)
  exact ⟨f2, h2⟩

theorem reduceFilter_total {P : Params} {env : Env} (hv : env.Valid) {f : Filter} (hf : f.particles ≠ [])
    (hn : 0 ≤ P.numParticles) : ∃ f', reduceFilter P env f = .ok f' := by
  unfold reduceFilter
  by_cases h : P.numParticles < (f.particles.length : ℤ)
  · rw [if_pos h]
    apply resizeFilter_total hv hf
    split_ifs with h2
    · exact Int.natCast_nonneg _
    · exact hn
  · rw [if_neg h]; exact ⟨_, rfl⟩

theorem newFixCount_total {P : Params} (h : 0 ≤ P.lpfStep) (n c : ℕ) : ∃ k, newFixCount P n c = .ok k := by
  unfold newFixCount fixCount
  have : 0 ≤ ⌈P.lpfStep⌉ := Int.ceil_nonneg h
  rw [if_neg (show ¬ 1 + ⌈P.lpfStep⌉ * 3 < 0 by omega)]
  split_ifs <;> exact ⟨_, rfl⟩

/-- Drawing states for an initial pose always succeeds. -/
theorem multiNoise_total {E : Type} (nd : E → ℝ × E)
    (solve : (Fin 6 → Fin 6 → ℝ) → (Fin 6 → ℝ) × (Fin 6 → Fin 6 → ℝ)) (mean : State6 ℝ) (cov : ℕ → ℝ)
    (n : ℕ) (e : E) :
    ∃ ss e', State6.generateN (MultiNoise.gen nd solve mean.meanVec cov) n e = .ok (ss, e') ∧ ss.length = n := by
  induction n generalizing e with
  | zero => exact ⟨[], e, rfl, rfl⟩
  | succ n ih =>
    have h1 : ∃ s e', State6.generateNoise (MultiNoise.gen nd solve mean.meanVec cov) e = .ok (s, e') := by
      unfold State6.generateNoise
      simp only [MultiNoise.gen, Outcome.bind_ok, State6.meanVec]
      simp only [List.ofFn_succ, List.ofFn_zero, State6.ofNoise, Outcome.bind_ok]
      exact ⟨_, _, rfl⟩
    obtain ⟨s, e1, h1⟩ := h1
    obtain ⟨ss, e2, h2, h3⟩ := ih e1
    refine ⟨s :: ss, e2, ?_, by simp [h3]⟩
    simp [State6.generateN, h1, h2, Outcome.bind]

theorem cbPosition_total (P : Params) (lib : Lib C) (env : Env) (n : Node C) (msg : PoseMsg) :
    ∃ n' o, cbPosition P lib env n msg = .ok (n', o) := by
  unfold cbPosition
  split_ifs
  · exact ⟨_, _, rfl⟩
  · split
    · exact ⟨_, _, rfl⟩
    · rename_i t _
      obtain ⟨ss, e', h, _⟩ := multiNoise_total (env.gauss 0 0 1) lib.solve6
        (State6.ofQuat (t.point msg.pos) (t.rot * msg.rot)) (fun i => if h : i < 36 then msg.cov ⟨i, h⟩ else 0)
        n.loc.pf.particles.length 0
      simp only [h, Outcome.bind_ok]
      exact ⟨_, _, rfl⟩

end Node
end Mcl3dl
