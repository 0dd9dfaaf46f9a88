import Verif.Props.PFEstimate
import Verif.Model.XR

/-! # C25 (which particles a covariance takes into account) and C120 (what an operation leaves alone) -/

set_option linter.unusedSectionVars false

namespace Mcl3dl
namespace PF

variable {S K : Type} [Field K] [LinearOrder K] [IsStrictOrderedRing K]

/-- The number of particles that pass: the shortest non-empty prefix of weight above `r`, or all. -/
theorem passCount_spec (r a : K) (ps : List (Particle S K)) :
    (passCount r a ps = ps.length ∨ r < a + ((ps.take (passCount r a ps)).map Particle.prob).sum) ∧
    (∀ k, 0 < k → k < passCount r a ps → a + ((ps.take k).map Particle.prob).sum ≤ r) ∧
    (ps ≠ [] → 0 < passCount r a ps) := by
  induction ps generalizing a with
  | nil => simp [passCount]
  | cons p ps ih =>
    simp only [passCount]
    by_cases h : r < a + p.prob
    · rw [if_pos h]
      exact ⟨Or.inr (by simpa using h), by omega, by simp⟩
    · rw [if_neg h]
      obtain ⟨h1, h2, _⟩ := ih (a + p.prob)
      refine ⟨?_, ?_, by intro _; omega⟩
      · rcases h1 with h1 | h1
        · left; rw [h1, List.length_cons, add_comm]
        · right
          rw [add_comm 1, List.take_succ_cons, List.map_cons, List.sum_cons, ← add_assoc]
          exact h1
      · intro k hk hk2
        cases k with
        | zero => omega
        | succ k =>
          rw [List.take_succ_cons, List.map_cons, List.sum_cons, ← add_assoc]
          rcases Nat.eq_zero_or_pos k with h0 | h0
          · subst h0; simpa using h
          · exact h2 k h0 (by omega)

theorem filterMap_range {α : Type} (l : List α) (n : ℕ) (hn : n ≤ l.length) :
    ((List.range n).filterMap fun i => l[i]?) = l.take n := by
  induction n with
  | zero => simp
  | succ n ih =>
    rw [List.range_succ, List.filterMap_append, ih (by omega), List.take_add_one]
    simp [show n < l.length by omega]

/-- C25: the particles a covariance takes into account.  With the default pass ratio they come in the order of
the filter, otherwise in the sorted order; counting stops with the first particle that brings the weight above
the ratio.  Without random sampling all counted particles are used, with it the given number of them, each at
most once. -/
theorem C25_selection {M : Type} (mo : MeanOps S K M) (dev : S → S → Nat → K) (f : Filter S K) (r : K)
    (sorted : List (Particle S K)) (_hsort : IsSortedDesc f.particles sorted) (sampling : Bool) (m : Nat)
    (indices : List Nat)
    (hidx : CovIndices (passCount r 0 (if r < 1 then sorted else f.particles)) sampling m indices) :
    ∃ (cov : Nat → Nat → K) (n : ℕ) (sel : List (Particle S K)),
      f.covariance mo (fun s e j k => dev s e j * dev s e k) r sorted indices =
        .ok (cov, (f.expectation mo r sorted).2) ∧
      (let ps := if r < 1 then sorted else f.particles
       n ≤ ps.length ∧ (n = ps.length ∨ r < ((ps.take n).map Particle.prob).sum) ∧
       (∀ k, 0 < k → k < n → ((ps.take k).map Particle.prob).sum ≤ r) ∧ (ps ≠ [] → 0 < n) ∧
       (if sampling then sel.Subperm (ps.take n) ∧ sel.length = min n m else sel = ps.take n)) ∧
      (∀ j k, cov j k = (sel.map fun p => p.prob * (dev p.state (f.expectation mo r sorted).1 j *
          dev p.state (f.expectation mo r sorted).1 k)).sum / (sel.map Particle.prob).sum) := by
  have hps : (f.expectation mo r sorted).2.particles = if r < 1 then sorted else f.particles := rfl
  generalize hpd : (if r < 1 then sorted else f.particles) = ps at *
  have hpc := passCount_le r 0 ps
  have hin : ∀ i ∈ indices, i < ps.length := by
    intro i hi
    unfold CovIndices at hidx
    split at hidx
    · obtain ⟨sh, hperm, rfl⟩ := hidx
      have := hperm.mem_iff.mp (List.mem_of_mem_take hi)
      rw [List.mem_range] at this
      omega
    · subst hidx
      rw [List.mem_range] at hi; omega
  have hin' : ∀ i ∈ indices, i < (f.expectation mo r sorted).2.particles.length := by rw [hps]; exact hin
  obtain ⟨h1, h2, h3⟩ := passCount_spec r 0 ps
  refine ⟨covarianceOf (fun s e j k => dev s e j * dev s e k) (f.expectation mo r sorted).1
      (indices.filterMap fun i => ps[i]?), passCount r 0 ps, indices.filterMap (fun i => ps[i]?), ?_, ?_, ?_⟩
  · simp only [Filter.covariance]
    rw [if_pos hin', hps]
  · refine ⟨hpc, by simpa using h1, by simpa using h2, h3, ?_⟩
    cases sampling with
    | false =>
      simp only [CovIndices] at hidx
      subst hidx
      exact filterMap_range ps _ hpc
    | true =>
      simp only [CovIndices, if_true] at hidx
      obtain ⟨sh, hperm, rfl⟩ := hidx
      refine ⟨?_, ?_⟩
      · have hp1 : (sh.filterMap fun i => ps[i]?).Perm (ps.take (passCount r 0 ps)) := by
          rw [← filterMap_range ps _ hpc]
          exact hperm.filterMap _
        exact ((List.take_sublist _ _).filterMap _).subperm.trans hp1.subperm
      · have hall : ∀ l : List ℕ, (∀ i ∈ l, i < ps.length) → (l.filterMap fun i => ps[i]?).length = l.length := by
          intro l hl
          induction l with
          | nil => rfl
          | cons i l ih =>
            rw [List.filterMap_cons, List.getElem?_eq_getElem (hl i (by simp))]
            simp only [List.length_cons]
            rw [ih (fun k hk => hl k (by simp [hk]))]
        rw [hall _ hin, List.length_take, hperm.length_eq, List.length_range]
        omega
  · intro j k
    simp only [covarianceOf, covSum, total_eq, weightSum]
    rw [foldl_add_eq_sum (fun p : Particle S K =>
      dev p.state (f.expectation mo r sorted).1 (min j k) * dev p.state (f.expectation mo r sorted).1 (max j k) * p.prob),
      zero_add]
    congr 2
    apply List.map_congr_left
    intro p _
    rcases le_total j k with h | h
    · rw [min_eq_left h, max_eq_right h]; ring
    · rw [min_eq_right h, max_eq_left h]; ring

/-- With weights that form a distribution the covariance at the default pass ratio uses every particle. -/
theorem C25_uses_all {M : Type} (mo : MeanOps S K M) (dev : S → S → Nat → K) (f : Filter S K)
    (hnn : ∀ p ∈ f.particles, 0 ≤ p.prob) (hsum : (f.particles.map Particle.prob).sum = 1)
    (sorted : List (Particle S K)) {cov : Nat → Nat → K} {f' : Filter S K}
    {indices : List Nat} (hidx : CovIndices (passCount 1 0 f.particles) false 0 indices)
    (hc : f.covariance mo (fun s e j k => dev s e j * dev s e k) 1 sorted indices = .ok (cov, f')) :
    f' = f ∧ ∀ j k, cov j k = (f.particles.map fun p =>
      p.prob * (dev p.state (f.expectation mo 1 sorted).1 j * dev p.state (f.expectation mo 1 sorted).1 k)).sum := by
  have hall : passCount 1 0 f.particles = f.particles.length := by
    obtain ⟨h1, _⟩ := passCount_spec 1 0 f.particles
    rcases h1 with h1 | h1
    · exact h1
    · exfalso
      have := weightSum_take_le f.particles hnn (passCount 1 0 f.particles)
      unfold weightSum at this
      rw [hsum] at this
      rw [zero_add] at h1
      exact absurd this (not_le.2 h1)
  rw [hall] at hidx
  simp only [CovIndices, Bool.false_eq_true, if_false] at hidx
  subst hidx
  simp only [Filter.covariance, Filter.expectation, lt_irrefl, if_false] at hc
  rw [if_pos (by intro i hi; simpa using hi)] at hc
  simp only [Outcome.ok.injEq, Prod.mk.injEq] at hc
  obtain ⟨hc, rfl⟩ := hc
  refine ⟨rfl, fun j k => ?_⟩
  rw [← hc, filterMap_range _ _ le_rfl, List.take_length]
  simp only [covarianceOf, covSum, total_eq, weightSum, hsum, div_one, Filter.expectation, lt_irrefl, if_false]
  rw [foldl_add_eq_sum (fun p : Particle S K =>
    dev p.state (mo.getMean (meanLoop mo 1 mo.empty f.particles)) (min j k) *
      dev p.state (mo.getMean (meanLoop mo 1 mo.empty f.particles)) (max j k) * p.prob), zero_add]
  congr 1
  apply List.map_congr_left
  intro p _
  rcases le_total j k with h | h
  · rw [min_eq_left h, max_eq_right h]; ring
  · rw [min_eq_right h, max_eq_left h]; ring

/-- The hypotheses of `C25_uses_all` are met by a filter with two weighted particles. -/
example : ∃ f : Filter (Fin 1 → ℚ) ℚ, (∀ p ∈ f.particles, 0 ≤ p.prob) ∧
    (f.particles.map Particle.prob).sum = 1 ∧ CovIndices (passCount 1 0 f.particles) false 0 [0, 1] :=
  ⟨⟨[⟨fun _ => 0, 3/4, 1, 0⟩, ⟨fun _ => 1, 1/4, 1, 0⟩], none⟩, by
    intro p hp; simp at hp; rcases hp with rfl | rfl <;> norm_num, by norm_num, by
    norm_num [CovIndices, passCount]; rfl⟩

/-- The operations that act on every particle alone. -/
inductive Local (S F : Type) where
  | predict (model : S → S)
  | noise (noise : Nat → S)
  | bias (b : S → F → F)
  | measure (lik : S → F)

/-- The operation of the filter. -/
def Local.op {F : Type} : Local S F → Op S F
  | .predict m => .predict m
  | .noise n => .noise n
  | .bias b => .bias b
  | .measure l => .measure l

/-- What an operation does to the state and the bias of the particle in slot `i`. -/
def Local.effect {F : Type} [StateOps S] (i : ℕ) (x : S × F) : Local S F → S × F
  | .predict m => (m x.1, x.2)
  | .noise n => (StateOps.add x.1 (n i), x.2)
  | .bias b => (x.1, b x.1 x.2)
  | .measure _ => x

/-- C120: whatever sequence of predictions, noise, biases and measurements is applied, the number of particles
stays, and the state and the bias of the particle in slot `i` are what the operations make, in turn, of its own
state and bias: no particle influences another one or moves to another slot. -/
theorem C120_slots [StateOps S] (s0 : S) (log : K → K) (ops : List (Local S K)) (f : Filter S K) :
    ∃ f', (ops.foldl (fun (g : Outcome (Filter S K)) o => g.bind fun g => step s0 log g o.op) (.ok f)) = .ok f' ∧
      f'.particles.length = f.particles.length ∧
      ∀ i p, f.particles[i]? = some p → ∃ p', f'.particles[i]? = some p' ∧
        (p'.state, p'.bias) = ops.foldl (Local.effect i) (p.state, p.bias) := by
  induction ops generalizing f with
  | nil => exact ⟨f, rfl, rfl, fun i p hp => ⟨p, hp, rfl⟩⟩
  | cons o ops ih =>
    have h1 : ∃ g, step s0 log f o.op = .ok g ∧ g.particles.length = f.particles.length ∧
        ∀ i p, f.particles[i]? = some p → ∃ p', g.particles[i]? = some p' ∧
          (p'.state, p'.bias) = Local.effect i (p.state, p.bias) o := by
      cases o with
      | predict m =>
        exact ⟨_, rfl, by simp [Filter.predict], fun i p hp => ⟨{ p with state := m p.state }, by simp [Filter.predict, hp], rfl⟩⟩
      | noise n =>
        exact ⟨_, rfl, by simp [Filter.noise],
          fun i p hp => ⟨{ p with state := StateOps.add p.state (n i) }, by simp [Filter.noise, hp], rfl⟩⟩
      | bias b =>
        exact ⟨_, rfl, by simp [Filter.bias],
          fun i p hp => ⟨{ p with bias := b p.state p.bias }, by simp [Filter.bias, hp], rfl⟩⟩
      | measure l =>
        refine ⟨_, rfl, ?_, fun i p hp => ?_⟩
        · simp only [Filter.measure]
          split_ifs <;> simp [weigh]
        · simp only [Filter.measure]
          split_ifs
          · exact ⟨{ p with prob := p.prob * l p.state / total (weigh l f.particles) }, by simp [weigh, hp], rfl⟩
          · exact ⟨p, hp, rfl⟩
    obtain ⟨g, hg, hl, hs⟩ := h1
    obtain ⟨f', hf', hl', hs'⟩ := ih g
    refine ⟨f', ?_, hl'.trans hl, fun i p hp => ?_⟩
    · rw [List.foldl_cons]
      show List.foldl _ (step s0 log f o.op) ops = _
      rw [hg]
      exact hf'
    · obtain ⟨p1, hp1, e1⟩ := hs i p hp
      obtain ⟨p2, hp2, e2⟩ := hs' i p1 hp1
      exact ⟨p2, hp2, by rw [e2, e1, List.foldl_cons]⟩

/-- C120: of these operations only a measurement changes the weights. -/
theorem C120_weights [StateOps S] (s0 : S) (log : K → K) (ops : List (Local S K)) (f f' : Filter S K)
    (hops : ∀ o ∈ ops, ∀ l, o ≠ .measure l)
    (hr : (ops.foldl (fun (g : Outcome (Filter S K)) o => g.bind fun g => step s0 log g o.op) (.ok f)) = .ok f') :
    f'.particles.map Particle.prob = f.particles.map Particle.prob := by
  induction ops generalizing f with
  | nil =>
    simp only [List.foldl_nil, Outcome.ok.injEq] at hr
    rw [hr]
  | cons o ops ih =>
    have h1 : ∃ g, step s0 log f o.op = .ok g ∧ g.particles.map Particle.prob = f.particles.map Particle.prob := by
      cases o with
      | predict m => exact ⟨_, rfl, by simp [Filter.predict, Function.comp_def]⟩
      | noise n =>
        refine ⟨_, rfl, ?_⟩
        apply List.ext_getElem?
        intro i
        simp only [Filter.noise, List.getElem?_map, List.getElem?_mapIdx]
        cases f.particles[i]? <;> rfl
      | bias b => exact ⟨_, rfl, by simp [Filter.bias, Function.comp_def]⟩
      | measure l => exact absurd rfl (hops _ (by simp) l)
    obtain ⟨g, hg, hp⟩ := h1
    rw [List.foldl_cons] at hr
    change List.foldl _ (step s0 log f o.op) ops = _ at hr
    rw [hg] at hr
    rw [ih g (fun o ho => hops o (by simp [ho])) hr, hp]

/-- A case with noise, prediction and bias. -/
example : ([.noise (fun i => i), .predict (fun s => 2 * s), .bias (fun s b => s + b), .measure (fun _ => 0)] :
    List (Local ℚ ℚ)).length = 4 ∧
    letI : StateOps ℚ := ⟨(· + ·), id⟩
    ([.noise (fun i => i), .predict (fun s => 2 * s), .bias (fun s b => s + b), .measure (fun _ => 0)] :
      List (Local ℚ ℚ)).foldl (Local.effect 3) (1, 5) = (8, 13) := by
  refine ⟨rfl, ?_⟩
  norm_num [Local.effect, StateOps.add]

/-- **C25** for small sampling ratios: with fewer than `1 / ratio` particles `⌊pNum * ratio⌋ = 0`; then, in any
arithmetic, `covariance` is defined and every entry is zero divided by zero. -/
theorem C25_empty_selection {S F M : Type} [Zero F] [One F] [Add F] [Mul F] [Div F] [LT F] [DecidableLT F]
    (mo : MeanOps S F M) (elem : S → S → Nat → Nat → F) (f : Filter S F) (r : F) (sorted : List (Particle S F))
    (pNum : Nat) (indices : List Nat) (hidx : CovIndices pNum true 0 indices) :
    f.covariance mo elem r sorted indices = .ok (fun _ _ => 0 / 0, (f.expectation mo r sorted).2) := by
  have : indices = [] := by
    simp only [CovIndices, if_true] at hidx
    obtain ⟨sh, _, rfl⟩ := hidx
    simp
  subst this
  unfold Filter.covariance
  rw [if_pos (by simp)]
  rfl

/-- **C25**: with infinities and not-a-number, this is not a number in every entry. -/
theorem C25_empty_selection_nan {S M : Type} (mo : MeanOps S XR M) (elem : S → S → Nat → Nat → XR) (f : Filter S XR) (r : XR)
    (sorted : List (Particle S XR)) (pNum : Nat) (indices : List Nat) (hidx : CovIndices pNum true 0 indices) :
    f.covariance mo elem r sorted indices = .ok (fun _ _ => XR.nan, (f.expectation mo r sorted).2) := by
  rw [C25_empty_selection mo elem f r sorted pNum indices hidx]
  congr 2
  funext j k
  exact XR.zero_div_zero

/-- There is such a selection for every number of particles. -/
example (pNum : Nat) : CovIndices pNum true 0 [] := by
  simp only [CovIndices, if_true]
  exact ⟨List.range pNum, List.Perm.refl _, by simp⟩

end PF
end Mcl3dl
