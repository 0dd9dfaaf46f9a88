import Verif.Spec.NodeNoise
import Verif.Props.QuatAngles
import Verif.Proofs.NodeBasic

/-! # The noise given to particles -/

set_option linter.unusedSectionVars false

namespace Mcl3dl
namespace Node

variable {C : Type}

/-- How many random numbers a list of standard deviations uses. -/
noncomputable def drawsUsed (l : List ℝ) : ℕ := by
  classical exact l.countP fun s => decide (s ≠ 0)

theorem drawsUsed_cons (s : ℝ) (l : List ℝ) : drawsUsed (s :: l) = (if s = 0 then 0 else 1) + drawsUsed l := by
  classical
  unfold drawsUsed
  rw [List.countP_cons]
  by_cases h : s = 0 <;> simp [h, add_comm]

theorem drawsUsed_append (l l' : List ℝ) : drawsUsed (l ++ l') = drawsUsed l + drawsUsed l' := by
  classical
  unfold drawsUsed
  exact List.countP_append

theorem diagonalLoop_draws (env : Env) (call : ℕ) (mean : List ℝ) (sigma : List ℝ) (i e : ℕ)
    (h : i + sigma.length ≤ mean.length) :
    ∃ xs, NoiseGen.diagonalLoop (env.gauss call) mean sigma i e = .ok (xs, e + drawsUsed sigma) ∧
      xs.length = sigma.length ∧ ∀ j (hj : j < sigma.length) (hj' : j < xs.length), xs[j] =
        mean[i + j]'(by omega) + sigma[j] * env.normal call (e + drawsUsed (sigma.take j)) := by
  induction sigma generalizing i e with
  | nil => exact ⟨[], by simp [NoiseGen.diagonalLoop, drawsUsed], rfl, by simp⟩
  | cons s sigma ih =>
    simp only [List.length_cons] at h
    have hm : mean[i]? = some mean[i] := List.getElem?_eq_getElem (by omega)
    obtain ⟨xs, h1, h2, h3⟩ := ih (i + 1) (e + if s = 0 then 0 else 1) (by omega)
    have key : NoiseGen.diagonalLoop (env.gauss call) mean (s :: sigma) i e =
        .ok ((mean[i] + s * env.normal call e) :: xs, e + drawsUsed (s :: sigma)) := by
      unfold NoiseGen.diagonalLoop
      rw [hm]
      simp only
      rw [drawsUsed_cons]
      by_cases h0 : s = 0
      · rw [if_pos h0] at h1
        simp only [h0, if_true]
        rw [show e = e + 0 from rfl, h1]
        simp [Outcome.bind]
      · rw [if_neg h0] at h1
        simp only [h0, if_false, Env.gauss]
        rw [h1]
        simp [Outcome.bind, add_assoc]
    refine ⟨_, key, by simp [h2], ?_⟩
    intro j hj hj'
    cases j with
    | zero => simp [drawsUsed]
    | succ j =>
      simp only [List.length_cons, Nat.add_lt_add_iff_right] at hj
      have := h3 j hj (by omega)
      simp only [List.getElem_cons_succ, List.take_succ_cons, drawsUsed_cons]
      rw [this]
      congr 1
      · congr 1; omega
      · congr 2; omega

/-- The components of a noise state with the numbers from position `e` on. -/
noncomputable def noiseComp (env : Env) (call : ℕ) (mean sigma : State6 ℝ) (idx : Fin 6 → ℕ) (i : Fin 6) : ℝ :=
  mean.meanVec.getD i 0 + sigmas sigma i * env.normal call (idx i)

theorem sigmas_get (s : State6 ℝ) (i : Fin 6) : sigmas s i = s.sigmaVec.getD i 0 := by
  fin_cases i <;> rfl

/-- The state made of six components. -/
noncomputable def noiseState (mean : State6 ℝ) (x : Fin 6 → ℝ) : State6 ℝ :=
  { (State6.default : State6 ℝ) with
    pos := ⟨x 0, x 1, x 2⟩, rot := Quat.ofRPY ⟨x 3, x 4, x 5⟩, integLin := ⟨x 0, x 1, x 2⟩
    integAng := (⟨x 3, x 4, x 5⟩ : Vec3 ℝ) - mean.rot.getRPY }

theorem generateNoise_draws (env : Env) (call : ℕ) (mean sigma : State6 ℝ) (e : ℕ) :
    State6.generateNoise (State6.diagonalGen (env.gauss call) mean sigma) e =
      .ok (noiseState mean (noiseComp env call mean sigma fun i => e + drawsUsed (sigma.sigmaVec.take i)),
        e + drawsUsed sigma.sigmaVec) := by
  obtain ⟨xs, h1, h2, h3⟩ := diagonalLoop_draws env call mean.meanVec sigma.sigmaVec 0 e (by simp [State6.meanVec, State6.sigmaVec])
  have h2' : xs.length = 6 := h2
  obtain ⟨x0, x1, x2, x3, x4, x5, rfl⟩ : ∃ a b c d e f, xs = [a, b, c, d, e, f] := by
    match xs, h2' with
    | [a, b, c, d, e, f], _ => exact ⟨a, b, c, d, e, f, rfl⟩
  have g : ∀ i : Fin 6, [x0, x1, x2, x3, x4, x5][i] =
      noiseComp env call mean sigma (fun i => e + drawsUsed (sigma.sigmaVec.take i)) i := by
    intro i
    have hs : sigma.sigmaVec.length = 6 := rfl
    have hm : mean.meanVec.length = 6 := rfl
    have := h3 i (by omega) (by simp)
    rw [Fin.getElem_fin, this, noiseComp, sigmas_get]
    simp [List.getD, hs, hm]
  have g0 := g 0
  have g1 := g 1
  have g2 := g 2
  have g3 := g 3
  have g4 := g 4
  have g5 := g 5
  simp only [Fin.getElem_fin, Fin.isValue, Fin.val_zero, Fin.val_one, Fin.val_two, List.getElem_cons_zero, List.getElem_cons_succ] at g0 g1 g2
  change x3 = _ at g3
  change x4 = _ at g4
  change x5 = _ at g5
  rw [State6.generateNoise]
  show (Outcome.bind (NoiseGen.diagonalLoop (env.gauss call) mean.meanVec sigma.sigmaVec 0 e) _) = _
  rw [h1]
  simp only [Outcome.bind, State6.diagonalGen, NoiseGen.diagonal, State6.meanVec, State6.ofNoise]
  rw [noiseState, ← g0, ← g1, ← g2, ← g3, ← g4, ← g5]
  rfl

theorem generateN_draws (env : Env) (call : ℕ) (mean sigma : State6 ℝ) (n e : ℕ) :
    ∃ e', State6.generateN (State6.diagonalGen (env.gauss call) mean sigma) n e =
      .ok ((List.range n).map fun k => noiseState mean (noiseComp env call mean sigma fun i =>
        e + k * drawsUsed sigma.sigmaVec + drawsUsed (sigma.sigmaVec.take i)), e') := by
  induction n generalizing e with
  | zero => exact ⟨e, rfl⟩
  | succ n ih =>
    obtain ⟨e', h⟩ := ih (e + drawsUsed sigma.sigmaVec)
    refine ⟨e', ?_⟩
    rw [State6.generateN, generateNoise_draws]
    simp only [Outcome.bind]
    rw [h]
    simp only [Outcome.ok.injEq, Prod.mk.injEq, and_true]
    rw [List.range_succ_eq_map, List.map_cons, List.map_map]
    congr 1
    · simp
    · apply List.map_congr_left
      intro k _
      simp only [Function.comp]
      congr 2
      funext i
      congr 1
      rw [Nat.succ_eq_add_one]
      ring

/-- The position of the random number for component `i` of particle `k`. -/
noncomputable def idxOf (sigma : State6 ℝ) (k : ℕ) (i : Fin 6) : ℕ :=
  k * drawsUsed sigma.sigmaVec + drawsUsed (sigma.sigmaVec.take i)

theorem idxOf_fresh (sigma : State6 ℝ) : Fresh (sigmas sigma) (idxOf sigma) := by
  intro k i k' i' hi hi' he
  simp only [idxOf] at he
  have hlen : sigma.sigmaVec.length = 6 := rfl
  have lt : ∀ i : Fin 6, sigmas sigma i ≠ 0 → drawsUsed (sigma.sigmaVec.take i) < drawsUsed (sigma.sigmaVec.take (i + 1)) := by
    intro i hi
    rw [List.take_add_one, drawsUsed_append]
    rw [sigmas_get] at hi
    have : i.val < sigma.sigmaVec.length := by omega
    rw [List.getElem?_eq_getElem this]
    have h' : sigma.sigmaVec[i.val] ≠ 0 := by simpa [List.getD, this] using hi
    simp only [Option.toList_some, drawsUsed_cons, if_neg h']
    omega
  have mono : ∀ a b : ℕ, a ≤ b → drawsUsed (sigma.sigmaVec.take a) ≤ drawsUsed (sigma.sigmaVec.take b) := by
    intro a b hab
    have : sigma.sigmaVec.take b = sigma.sigmaVec.take a ++ (sigma.sigmaVec.take b).drop a := by
      conv_lhs => rw [← List.take_append_drop a (sigma.sigmaVec.take b), List.take_take, min_eq_left hab]
    rw [this, drawsUsed_append]
    omega
  have all : ∀ a, drawsUsed (sigma.sigmaVec.take a) ≤ drawsUsed sigma.sigmaVec := by
    intro a
    have := mono a (a + 6) (by omega)
    have e : sigma.sigmaVec.take (a + 6) = sigma.sigmaVec := List.take_of_length_le (by omega)
    rw [e] at this
    exact this
  have l1 := lt i hi
  have l2 := lt i' hi'
  have a1 := all (i + 1)
  have a2 := all (i' + 1)
  have hk : k = k' := by
    set M := drawsUsed sigma.sigmaVec
    set u := drawsUsed (sigma.sigmaVec.take i)
    set v := drawsUsed (sigma.sigmaVec.take i')
    have hu : u < M := by omega
    have hv : v < M := by omega
    have h1 : (k * M + u) / M = k := by
      rw [mul_comm, Nat.mul_add_div (by omega), Nat.div_eq_of_lt hu, add_zero]
    have h2 : (k' * M + v) / M = k' := by
      rw [mul_comm, Nat.mul_add_div (by omega), Nat.div_eq_of_lt hv, add_zero]
    rw [← h1, ← h2, he]
  subst hk
  refine ⟨rfl, ?_⟩
  by_contra hne
  rcases lt_or_gt_of_ne hne with hl | hl
  · have := mono (i + 1) i' (by omega)
    omega
  · have := mono (i' + 1) i (by omega)
    omega

/-- The noise states of a generator. -/
theorem noiseStates_explicit (env : Env) (call : ℕ) (mean sigma : State6 ℝ) (n : ℕ) :
    env.noiseStates call mean sigma n =
      .ok ((List.range n).map fun k => noiseState mean (noiseComp env call mean sigma (idxOf sigma k))) := by
  obtain ⟨e', hg⟩ := generateN_draws env call mean sigma n 0
  rw [Env.noiseStates, hg]
  simp only [Outcome.bind, Nat.zero_add]
  rfl

/-- The noise states of a generator. -/
theorem noiseStates_spec {env : Env} {call : ℕ} {mean sigma : State6 ℝ} {n : ℕ} {ns : List (State6 ℝ)}
    (h : env.noiseStates call mean sigma n = .ok ns) :
    ns.length = n ∧ ∃ idx : ℕ → Fin 6 → ℕ, Fresh (sigmas sigma) idx ∧
      ∀ k, k < n → pickNoise ns k = noiseState mean (noiseComp env call mean sigma (idx k)) := by
  rw [noiseStates_explicit] at h
  simp only [Outcome.ok.injEq] at h
  rw [← h]
  refine ⟨by simp, idxOf sigma, idxOf_fresh sigma, fun k hk => ?_⟩
  unfold pickNoise
  simp [List.getD, hk]

theorem default_meanVec (i : Fin 6) : (State6.default : State6 ℝ).meanVec.getD i 0 = 0 := by
  have h : (1 : Quat ℝ).getRPY = ⟨0, 0, 0⟩ := by
    have h0 : (1 : Quat ℝ) = Quat.ofRPY ⟨0, 0, 0⟩ := by
      show (⟨0, 0, 0, 1⟩ : Quat ℝ) = _
      simp [Quat.ofRPY]
    have hpi := Real.pi_pos
    rw [h0, Quat.C33_getRPY_ofRPY 0 0 0 ⟨by linarith, by linarith⟩ ⟨by linarith, by linarith⟩ ⟨by linarith, by linarith⟩]
  fin_cases i
  · rfl
  · rfl
  · rfl
  · show (1 : Quat ℝ).getRPY.x = 0; rw [h]
  · show (1 : Quat ℝ).getRPY.y = 0; rw [h]
  · show (1 : Quat ℝ).getRPY.z = 0; rw [h]

end Node
end Mcl3dl
