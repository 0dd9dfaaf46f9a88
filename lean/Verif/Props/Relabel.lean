import Verif.Spec.Relabel
import Verif.Spec.Frame
import Verif.Props.FrameInvariance

/-! # C150: the particle filter does not look at the states -/

set_option linter.unusedSectionVars false

namespace Mcl3dl
namespace PF
variable {S T F : Type}

theorem relabelOut_bind {A A' B B' : Type} (φ : A → A') (ψ : B → B') (x : Outcome A) (k : A → Outcome B) (k' : A' → Outcome B')
    (h : ∀ a, k' (φ a) = relabelOut ψ (k a)) : (relabelOut φ x).bind k' = relabelOut ψ (x.bind k) := by
  cases x with
  | ok a => exact h a
  | throws m => rfl
  | ub w => rfl

section
variable [Zero F] [One F] [Neg F] [Add F] [Mul F] [Div F] [NatCast F] [LT F] [DecidableLT F]

theorem accumulate_relabel (φ : S → T) (a : F) (ps : List (Particle S F)) :
    accumulate a (ps.map (Particle.relabel φ)) = (accumulate a ps).map (Particle.relabel φ) := by
  induction ps generalizing a with
  | nil => rfl
  | cons p ps ih => simp only [List.map_cons, accumulate, ih]; rfl

theorem accumulate_length_eq (a : F) (ps : List (Particle S F)) : (accumulate a ps).length = ps.length := by
  induction ps generalizing a with
  | nil => rfl
  | cons p ps ih => simp [accumulate, ih]

theorem total_relabel (φ : S → T) (ps : List (Particle S F)) : total (ps.map (Particle.relabel φ)) = total ps := by
  unfold total
  rw [List.foldl_map]
  rfl

theorem lowerBound_relabel (φ : S → T) (d : List (Particle S F)) (it : ℕ) (v : F) :
    lowerBound (d.map (Particle.relabel φ)) it v = lowerBound d it v := by
  unfold lowerBound
  rw [← List.map_drop]
  congr 1
  generalize d.drop it = l
  induction l with
  | nil => rfl
  | cons p ps ih =>
    rw [List.map_cons, List.takeWhile_cons, List.takeWhile_cons]
    by_cases h : p.accum < v
    · have h' : (Particle.relabel φ p).accum < v := h
      simp only [decide_eq_true h, decide_eq_true h', if_true, List.length_cons, ih]
    · have h' : ¬ (Particle.relabel φ p).accum < v := h
      simp only [decide_eq_false h, decide_eq_false h', Bool.false_eq_true, if_false, List.length_nil]

theorem deref_relabel (φ : S → T) (d : List (Particle S F)) (it : ℕ) :
    deref (d.map (Particle.relabel φ)) it = relabelOut φ (deref d it) := by
  unfold deref
  rw [List.getElem?_map]
  cases d[it]? <;> rfl

theorem resampleLoop_relabel [StateOps S] [StateOps T] (φ : S → T) (d : List (Particle S F)) (pstep u prob : F) (n : ℕ → S) (n' : ℕ → T)
    (h : ∀ s i, StateOps.normalize (StateOps.add (φ s) (n' i)) = φ (StateOps.normalize (StateOps.add s (n i))))
    (ps : List (Particle S F)) : ∀ i it itPrev : ℕ,
    resampleLoop (d.map (Particle.relabel φ)) pstep u prob n' (ps.map (Particle.relabel φ)) i it itPrev =
      relabelOut (List.map (Particle.relabel φ)) (resampleLoop d pstep u prob n ps i it itPrev) := by
  induction ps with
  | nil => intros; rfl
  | cons p ps ih =>
    intro i it itPrev
    simp only [List.map_cons, resampleLoop, lowerBound_relabel, List.length_map]
    split_ifs
    · rw [deref_relabel]
      refine relabelOut_bind φ _ _ _ _ fun s => ?_
      rw [ih]
      exact relabelOut_bind _ _ _ _ _ fun r => rfl
    · rw [deref_relabel]
      refine relabelOut_bind φ _ _ _ _ fun s => ?_
      rw [ih]
      refine relabelOut_bind _ _ _ _ _ fun r => ?_
      simp only [relabelOut, List.map_cons, h]; rfl
    · rw [deref_relabel]
      refine relabelOut_bind φ _ _ _ _ fun s => ?_
      rw [ih]
      exact relabelOut_bind _ _ _ _ _ fun r => rfl

theorem resizeLoop_relabel (φ : S → T) (d : List (Particle S F)) (pstep prob : F)
    (ps : List (Particle S F)) : ∀ (x : F) (it itPrev : ℕ),
    resizeLoop (d.map (Particle.relabel φ)) pstep prob (ps.map (Particle.relabel φ)) x it itPrev =
      relabelOut (List.map (Particle.relabel φ)) (resizeLoop d pstep prob ps x it itPrev) := by
  induction ps with
  | nil => intros; rfl
  | cons p ps ih =>
    intro x it itPrev
    simp only [List.map_cons, resizeLoop, lowerBound_relabel, List.length_map]
    split_ifs
    · rw [deref_relabel]
      refine relabelOut_bind φ _ _ _ _ fun s => ?_
      rw [ih]
      exact relabelOut_bind _ _ _ _ _ fun r => rfl
    · rw [deref_relabel]
      refine relabelOut_bind φ _ _ _ _ fun s => ?_
      rw [ih]
      exact relabelOut_bind _ _ _ _ _ fun r => rfl

theorem weigh_relabel (φ : S → T) (l : S → F) (l' : T → F) (h : ∀ s, l' (φ s) = l s) (ps : List (Particle S F)) :
    weigh l' (ps.map (Particle.relabel φ)) = (weigh l ps).map (Particle.relabel φ) := by
  unfold weigh
  rw [List.map_map, List.map_map]
  apply List.map_congr_left
  intro p _
  simp [Particle.relabel, h]

theorem entropy_relabel (φ : S → T) (log : F → F) (ps : List (Particle S F)) :
    entropyOf log (ps.map (Particle.relabel φ)) = entropyOf log ps := by
  unfold entropyOf
  rw [List.foldl_map]
  rfl

theorem step_relabel [StateOps S] [StateOps T] (φ : S → T) (s0 : S) (log : F → F) (f : Filter S F) {op : Op S F} {op' : Op T F}
    (h : Corresponds φ op op') :
    step (φ s0) log (f.relabel φ) op' = relabelOut (Filter.relabel φ) (step s0 log f op) := by
  cases h with
  | init h =>
    simp only [step, relabelOut, Filter.relabel, Filter.init, List.length_map, Outcome.ok.injEq, Filter.mk.injEq, and_true]
    apply List.ext_getElem?
    intro i
    simp only [List.getElem?_mapIdx, List.getElem?_map]
    cases f.particles[i]? <;> simp [Particle.relabel, h]
  | resample h =>
    simp only [step, Filter.resample, Filter.relabel, accumulate_relabel, total_relabel, List.length_map]
    rw [resampleLoop_relabel φ _ _ _ _ _ _ h]
    exact relabelOut_bind _ _ _ _ _ fun r => rfl
  | noise h =>
    simp only [step, relabelOut, Filter.relabel, Filter.noise, Outcome.ok.injEq, Filter.mk.injEq, and_true]
    apply List.ext_getElem?
    intro i
    simp only [List.getElem?_mapIdx, List.getElem?_map]
    cases f.particles[i]? <;> simp [Particle.relabel, h]
  | predict h =>
    simp only [step, relabelOut, Filter.relabel, Filter.predict, List.map_map, Outcome.ok.injEq, Filter.mk.injEq, and_true]
    apply List.map_congr_left
    intro p _
    simp [Particle.relabel, h]
  | bias h =>
    simp only [step, relabelOut, Filter.relabel, Filter.bias, List.map_map, Outcome.ok.injEq, Filter.mk.injEq, and_true]
    apply List.map_congr_left
    intro p _
    simp [Particle.relabel, h]
  | measure h =>
    simp only [step, relabelOut, Filter.relabel, Filter.measure, weigh_relabel φ _ _ h, total_relabel, Outcome.ok.injEq]
    split_ifs
    · have e : ∀ (qs : List (Particle S F)) (x : F), (List.map (Particle.relabel φ) qs).map
          (fun p => { p with prob := p.prob / x }) =
          (qs.map fun p => { p with prob := p.prob / x }).map (Particle.relabel φ) := by
        intro qs x
        rw [List.map_map, List.map_map]
        rfl
      rw [e, entropy_relabel]
    · rfl
  | expectation =>
    simp only [step, relabelOut, Filter.relabel, Outcome.ok.injEq, Filter.mk.injEq, and_true]
    split_ifs <;> rfl
  | covariance => rfl
  | resize =>
    rename_i n junk d
    simp only [step, Filter.resize, Filter.relabel, accumulate_relabel, total_relabel]
    have e : vectorResize (φ s0) junk n ((accumulate 0 f.particles).map (Particle.relabel φ)) =
        (vectorResize s0 junk n (accumulate 0 f.particles)).map (Particle.relabel φ) := by
      unfold vectorResize
      rw [List.map_append, List.map_take, List.length_map, List.map_map]
      rfl
    rw [e, resizeLoop_relabel]
    exact relabelOut_bind _ _ _ _ _ fun r => rfl
  | append =>
    simp only [step, relabelOut, Filter.relabel, Filter.append, List.map_append, List.map_map, Outcome.ok.injEq, Filter.mk.injEq,
      and_true]
    rfl

/-- C150: a filter over translated states, with the same random numbers and corresponding user functions, goes through the
translated history: the same weights, biases, entropy and crashes, the translated states.  In particular the weights
depend on the states only through the likelihoods. -/
theorem C150_relabel [StateOps S] [StateOps T] (φ : S → T) (s0 : S) (log : F → F) (f : Filter S F) {ops : List (Op S F)}
    {ops' : List (Op T F)} (h : List.Forall₂ (Corresponds φ) ops ops') :
    runOps (φ s0) log (f.relabel φ) ops' = relabelOut (Filter.relabel φ) (runOps s0 log f ops) := by
  induction h generalizing f with
  | nil => rfl
  | cons hop _ ih =>
    simp only [runOps]
    rw [step_relabel φ s0 log f hop]
    exact relabelOut_bind _ _ _ _ _ fun f' => ih f'

/-- C150: the particle chosen by `max` and `maxBiased` and the one read by `getParticle` are the translated ones. -/
theorem C150_queries (φ : S → T) (f : Filter S F) (i : ℕ) :
    (f.relabel φ).max = relabelOut φ f.max ∧ (f.relabel φ).maxBiased = relabelOut φ f.maxBiased ∧
    (f.relabel φ).getParticle i = relabelOut φ (f.getParticle i) := by
  have key : ∀ (k : Particle S F → F) (k' : Particle T F → F), (∀ p, k' (p.relabel φ) = k p) →
      ∀ (ps : List (Particle S F)) (s : S) (b : F), maxLoop k' (φ s) b (ps.map (Particle.relabel φ)) = φ (maxLoop k s b ps) := by
    intro k k' hk ps
    induction ps with
    | nil => intros; rfl
    | cons p ps ih =>
      intro s b
      simp only [List.map_cons, maxLoop, hk]
      split_ifs
      · exact ih p.state _
      · exact ih s b
  obtain ⟨ps, en⟩ := f
  refine ⟨?_, ?_, ?_⟩
  · cases ps with
    | nil => rfl
    | cons p ps =>
      have := key (fun p => p.prob) (fun p => p.prob) (fun _ => rfl) (p :: ps) p.state p.prob
      exact congrArg Outcome.ok this
  · cases ps with
    | nil => rfl
    | cons p ps =>
      have := key (fun p => p.prob * p.bias) (fun p => p.prob * p.bias) (fun _ => rfl) (p :: ps) p.state (p.prob * p.bias)
      exact congrArg Outcome.ok this
  · simp only [Filter.relabel, Filter.getParticle, List.getElem?_map]
    cases ps[i]? <;> rfl

end

/-- C150: poses: the whole filter commutes with a rigid motion `g` of the map frame, if the noise is moved too: to
the noise state `n` of the original run belongs the noise state `n'` with position and orientation turned by `g`. -/
theorem C150_poses (g : Rigid) (n n' : State6 ℝ) (hp : n'.pos = g.rot.rotate n.pos) (hr : n'.rot = g.rot * n.rot * g.rot.conj)
    (hl : n'.integLin = n.integLin) (ha : n'.integAng = n.integAng) (s : State6 ℝ) :
    (StateOps.add (g.pose s) n' : State6 ℝ) = g.pose (StateOps.add s n) ∧
    (StateOps.normalize (StateOps.add (g.pose s) n') : State6 ℝ) = g.pose (StateOps.normalize (StateOps.add s n)) := by
  have h1 : (StateOps.add (g.pose s) n' : State6 ℝ) = g.pose (StateOps.add s n) := by
    show (g.pose s).add n' = g.pose (s.add n)
    unfold State6.add Rigid.pose
    simp only [State6.mk.injEq, and_true, hl, ha]
    constructor
    · rw [hp, Rigid.point_add]
    · rw [hr, Quat.C29_mul_assoc, ← Quat.C29_mul_assoc g.rot.conj, Quat.C29_mul_assoc]
      have : g.rot.conj * g.rot = 1 := by
        rw [← Quat.C30_inv_unit _ g.unit]
        exact (Quat.C30_inv_mul _ (by rw [g.unit]; exact one_ne_zero)).1
      rw [this, (Quat.C29_one _ 0).1]
  refine ⟨h1, ?_⟩
  rw [h1]
  show State6.normalize (g.pose _) = g.pose (State6.normalize _)
  unfold State6.normalize Rigid.pose
  simp only [Rigid.normalized_mul]

/-- For a shift the noise is the same. -/
theorem C150_shift (g : Rigid) (h : g.rot = 1) (n s : State6 ℝ) :
    (StateOps.add (g.pose s) n : State6 ℝ) = g.pose (StateOps.add s n) ∧
    (StateOps.normalize (StateOps.add (g.pose s) n) : State6 ℝ) = g.pose (StateOps.normalize (StateOps.add s n)) := by
  have hc : (1 : Quat ℝ).conj = 1 := by ext <;> simp
  refine C150_poses g n n ?_ ?_ rfl rfl s
  · rw [h, (Quat.C29_one 1 _).2.2]
  · rw [h, hc, (Quat.C29_one _ 0).1, (Quat.C29_one _ 0).2.1]

/-- C150 applied: one run of prediction, measurement and resampling in the original and in the shifted frame. -/
example (g : Rigid) (h : g.rot = 1) (m : Motion ℝ) (lik : State6 ℝ → ℝ) (lik' : State6 ℝ → ℝ) (hlik : ∀ s, lik' (g.pose s) = lik s)
    (hla : g.Level) (d : List (Particle (State6 ℝ) ℝ)) (u : ℝ) (n : ℕ → State6 ℝ) (f : Filter (State6 ℝ) ℝ) (s0 : State6 ℝ) :
    runOps (g.pose s0) Real.log (f.relabel g.pose) [.predict m.predict, .measure lik', .resample (d.map (Particle.relabel g.pose)) u n] =
      relabelOut (Filter.relabel g.pose) (runOps s0 Real.log f [.predict m.predict, .measure lik, .resample d u n]) := by
  apply C150_relabel
  refine .cons (.predict fun s => Motion.predict_move g m s (.inl hla)) (.cons (.measure hlik) (.cons (.resample fun s i => ?_) .nil))
  exact (C150_shift g h (n i) s).2

end PF
end Mcl3dl
