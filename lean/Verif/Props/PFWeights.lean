import Verif.Proofs.PFCount
import Verif.Props.PFStructural
import Mathlib.Analysis.SpecialFunctions.Log.NegMulLog
import Mathlib.Analysis.Convex.Jensen

/-!
# Particle filter properties in exact arithmetic: weights (C11, C13, C14, C15)
-/

set_option linter.unusedSectionVars false

namespace Mcl3dl
namespace PF

variable {S K : Type} [Field K] [LinearOrder K] [IsStrictOrderedRing K]

/-- Total of weight times likelihood. -/
def evidence (lik : S → K) (ps : List (Particle S K)) : K :=
  (ps.map fun p => p.prob * lik p.state).sum

theorem total_weigh (lik : S → K) (ps : List (Particle S K)) :
    total (weigh lik ps) = evidence lik ps := by
  rw [total_eq, weightSum, evidence, weigh, List.map_map]; rfl

theorem sum_div (l : List K) (c : K) : (l.map fun x => x / c).sum = l.sum / c := by
  induction l with
  | nil => simp
  | cons a l ih => simp [ih, add_div]

theorem sum_mul_const (l : List K) (c : K) : (l.map fun x => c * x).sum = c * l.sum := by
  induction l with
  | nil => simp
  | cons a l ih => simp [ih, mul_add]

theorem measure_pos (log : K → K) (f : Filter S K) (lik : S → K)
    (h : 0 < evidence lik f.particles) :
    f.measure log lik =
      ⟨(weigh lik f.particles).map fun p => { p with prob := p.prob / evidence lik f.particles },
        some (entropyOf log ((weigh lik f.particles).map fun p =>
          { p with prob := p.prob / evidence lik f.particles }))⟩ := by
  simp only [Filter.measure, total_weigh]
  rw [if_pos h]

/-- **C11**: a measurement with positive evidence is a Bayes update: state, bias and order are
unchanged, each weight becomes prior × likelihood / evidence, and the weights sum to 1. -/
theorem C11_measure_bayes (log : K → K) (f : Filter S K) (lik : S → K)
    (h : 0 < (f.particles.map fun p => p.prob * lik p.state).sum) :
    (f.measure log lik).particles =
      (f.particles.map fun p => { p with prob := p.prob * lik p.state /
        (f.particles.map fun p => p.prob * lik p.state).sum }) ∧
    ((f.measure log lik).particles.map Particle.prob).sum = 1 := by
  have hp : (f.measure log lik).particles =
      (f.particles.map fun p => { p with prob := p.prob * lik p.state /
        (f.particles.map fun p => p.prob * lik p.state).sum }) := by
    simp only [Filter.measure, total_weigh]
    rw [if_pos (show 0 < evidence lik f.particles from h)]
    simp only [weigh, List.map_map]
    rfl
  refine ⟨hp, ?_⟩
  rw [hp, List.map_map]
  have : (Particle.prob ∘ fun p : Particle S K => { p with prob := p.prob * lik p.state /
        (f.particles.map fun p => p.prob * lik p.state).sum }) =
      (fun x => x / (f.particles.map fun p => p.prob * lik p.state).sum) ∘
        (fun p : Particle S K => p.prob * lik p.state) := rfl
  rw [this, ← List.map_map, sum_div, div_self h.ne']

/-- Operations whose arguments a correct caller may pass: likelihoods are non-negative and the
filter is not resized to zero. -/
def Op.Sane : Op S K → Prop
  | .measure lik => ∀ s, 0 ≤ lik s
  | .resize n _ _ => 0 < n
  | _ => True

/-- Filters reachable from an initialised non-empty filter by any history of valid operations. -/
inductive Reachable [StateOps S] (s0 : S) (log : K → K) : Filter S K → Prop
  | init (f : Filter S K) (noise : Nat → S) (hne : f.particles ≠ []) :
      Reachable s0 log (f.init noise)
  | step (f f' : Filter S K) (op : Op S K) (hf : Reachable s0 log f) (hv : op.Valid f)
      (hs : op.Sane) (h : step s0 log f op = .ok f') : Reachable s0 log f'

/-- A probability distribution over at least one particle. -/
def IsDistribution (f : Filter S K) : Prop :=
  f.particles ≠ [] ∧ (∀ p ∈ f.particles, 0 ≤ p.prob) ∧ (f.particles.map Particle.prob).sum = 1

theorem sum_const (l : List (Particle S K)) (c : K) (h : ∀ p ∈ l, p.prob = c) :
    (l.map Particle.prob).sum = l.length * c := by
  have : l.map Particle.prob = List.replicate l.length c := by
    rw [List.eq_replicate_iff]
    refine ⟨by simp, ?_⟩
    intro b hb
    obtain ⟨p, hp, rfl⟩ := List.mem_map.mp hb
    exact h p hp
  rw [this, List.sum_replicate, nsmul_eq_mul]

theorem uniform_distribution (f : Filter S K) (n : Nat) (hn : 0 < n)
    (hl : f.particles.length = n) (h : ∀ p ∈ f.particles, p.prob = 1 / (n : K)) :
    IsDistribution f := by
  have hN : (0 : K) < (n : K) := by exact_mod_cast hn
  refine ⟨?_, ?_, ?_⟩
  · intro he; rw [he] at hl; simp at hl; omega
  · intro p hp; rw [h p hp]; positivity
  · rw [sum_const _ _ h, hl]; field_simp

/-- **C13**: after any history starting from `init`, the weights are a probability
distribution. -/
theorem C13_weights_distribution [StateOps S] (s0 : S) (log : K → K) (f : Filter S K)
    (hf : Reachable s0 log f) : IsDistribution f := by
  induction hf with
  | init f noise hne =>
    have hpos := List.length_pos_iff.mpr hne
    refine uniform_distribution _ f.particles.length hpos (by simp [Filter.init]) ?_
    intro p hp
    simp only [Filter.init, List.mem_mapIdx] at hp
    obtain ⟨i, hi, rfl⟩ := hp
    rfl
  | step f f' op hf hv hs h ih =>
    obtain ⟨hne, hnn, hsum⟩ := ih
    have hpos := List.length_pos_iff.mpr hne
    cases op with
    | init n =>
      simp only [step, Outcome.ok.injEq] at h; subst h
      refine uniform_distribution _ f.particles.length hpos (by simp [Filter.init]) ?_
      intro p hp
      simp only [Filter.init, List.mem_mapIdx] at hp
      obtain ⟨i, hi, rfl⟩ := hp
      rfl
    | resample d u n =>
      obtain ⟨g, e, -, hl, -, hsp⟩ := resample_spec f d u n hv
      simp only [step, e, Outcome.ok.injEq] at h; subst h
      exact uniform_distribution _ _ hpos hl fun p hp => (hsp p hp).1
    | noise n =>
      simp only [step, Outcome.ok.injEq] at h; subst h
      have hp : ((f.noise n).particles.map Particle.prob) = f.particles.map Particle.prob := by
        apply List.ext_getElem
        · simp [Filter.noise]
        · intro i h1 h2; simp [Filter.noise]
      refine ⟨by simpa [Filter.noise] using hne, ?_, by rw [hp]; exact hsum⟩
      intro p hpm
      have : p.prob ∈ (f.noise n).particles.map Particle.prob := List.mem_map_of_mem hpm
      rw [hp] at this
      obtain ⟨q, hq, he⟩ := List.mem_map.mp this
      rw [← he]; exact hnn q hq
    | predict m =>
      simp only [step, Outcome.ok.injEq] at h; subst h
      have hp : ((f.predict m).particles.map Particle.prob) = f.particles.map Particle.prob := by
        simp [Filter.predict, Function.comp_def]
      refine ⟨by simpa [Filter.predict] using hne, ?_, by rw [hp]; exact hsum⟩
      intro p hpm
      have : p.prob ∈ (f.predict m).particles.map Particle.prob := List.mem_map_of_mem hpm
      rw [hp] at this
      obtain ⟨q, hq, he⟩ := List.mem_map.mp this
      rw [← he]; exact hnn q hq
    | bias b =>
      simp only [step, Outcome.ok.injEq] at h; subst h
      have hp : ((f.bias b).particles.map Particle.prob) = f.particles.map Particle.prob := by
        simp [Filter.bias, Function.comp_def]
      refine ⟨by simpa [Filter.bias] using hne, ?_, by rw [hp]; exact hsum⟩
      intro p hpm
      have : p.prob ∈ (f.bias b).particles.map Particle.prob := List.mem_map_of_mem hpm
      rw [hp] at this
      obtain ⟨q, hq, he⟩ := List.mem_map.mp this
      rw [← he]; exact hnn q hq
    | measure l =>
      simp only [step, Outcome.ok.injEq] at h; subst h
      by_cases hev : 0 < (f.particles.map fun p => p.prob * l p.state).sum
      · obtain ⟨h1, h2⟩ := C11_measure_bayes log f l hev
        refine ⟨by rw [h1]; simpa using hne, ?_, h2⟩
        intro p hp
        rw [h1] at hp
        obtain ⟨q, hq, rfl⟩ := List.mem_map.mp hp
        exact div_nonneg (mul_nonneg (hnn q hq) (hs _)) hev.le
      · have : f.measure log l = f := by
          apply C12_measure_all_or_nothing
          have e : f.particles.foldl (fun a p => a + p.prob * l p.state) 0 =
              (f.particles.map fun p => p.prob * l p.state).sum := by
            have := total_weigh l f.particles
            unfold total weigh evidence at this
            rw [List.foldl_map] at this
            exact this
          rw [e]; exact hev
        rw [this]; exact ⟨hne, hnn, hsum⟩
    | expectation r sorted =>
      simp only [step, Outcome.ok.injEq] at h; subst h
      simp only [IsDistribution]
      split
      · have hperm : sorted.Perm f.particles := hv.1
        refine ⟨?_, ?_, ?_⟩
        · intro he
          rw [he] at hperm
          exact hne hperm.symm.eq_nil
        · intro p hp; exact hnn p (hperm.mem_iff.mp hp)
        · rw [(hperm.map Particle.prob).sum_eq]; exact hsum
      · exact ⟨hne, hnn, hsum⟩
    | covariance =>
      simp only [step, Outcome.ok.injEq] at h; subst h; exact ⟨hne, hnn, hsum⟩
    | resize n junk d =>
      obtain ⟨g, e, -, hl, hsp⟩ := resize_spec s0 junk f n d hv (Or.inl hne)
      simp only [step, e, Outcome.ok.injEq] at h; subst h
      exact uniform_distribution _ _ hs hl fun p hp => (hsp p hp).1
    | append n junk =>
      simp only [step, Outcome.ok.injEq] at h; subst h
      refine ⟨by simp [Filter.append, hne], ?_, ?_⟩
      · intro p hp
        simp only [Filter.append, List.mem_append, List.mem_map] at hp
        rcases hp with hp | ⟨i, -, rfl⟩
        · exact hnn p hp
        · exact le_refl _
      · simp only [Filter.append, List.map_append, List.sum_append, hsum]
        rw [sum_const _ 0 (by
          intro p hp
          obtain ⟨i, -, rfl⟩ := List.mem_map.mp hp
          rfl)]
        simp

/-- Non-vacuity: a filter of two particles, initialised, measured and resampled, is reachable. -/
example : ∃ f : Filter Nat ℚ, Reachable 0 id f ∧ f.particles.length = 2 := by
  refine ⟨_, Reachable.step _ _ (.measure fun s => (s : ℚ) + 1)
    (Reachable.init (⟨[⟨0, 0, 0, 0⟩, ⟨0, 0, 0, 0⟩], none⟩ : Filter Nat ℚ) (fun i => i) (by simp))
    trivial (fun s => by positivity) rfl, ?_⟩
  simp only [Filter.measure]
  split <;> simp [weigh, Filter.init]

theorem evidence_scale (c : K) (lik : S → K) (ps : List (Particle S K)) :
    evidence (fun s => c * lik s) ps = c * evidence lik ps := by
  unfold evidence
  rw [← sum_mul_const, List.map_map]
  congr 1
  apply List.map_congr_left
  intro p _
  simp only [Function.comp_apply]; ring

/-- **C14, scale**: multiplying the likelihood by a positive constant changes nothing. -/
theorem C14_scale_invariance (log : K → K) (f : Filter S K) (lik : S → K) (c : K) (hc : 0 < c) :
    f.measure log (fun s => c * lik s) = f.measure log lik := by
  simp only [Filter.measure, total_weigh, evidence_scale]
  have hiff : 0 < c * evidence lik f.particles ↔ 0 < evidence lik f.particles :=
    mul_pos_iff_of_pos_left hc
  by_cases h : 0 < evidence lik f.particles
  · rw [if_pos (hiff.mpr h), if_pos h]
    have : ((weigh (fun s => c * lik s) f.particles).map fun p =>
        { p with prob := p.prob / (c * evidence lik f.particles) }) =
        ((weigh lik f.particles).map fun p =>
          { p with prob := p.prob / evidence lik f.particles }) := by
      simp only [weigh, List.map_map]
      apply List.map_congr_left
      intro p _
      simp only [Function.comp_apply, Particle.mk.injEq, true_and, and_true]
      rw [show p.prob * (c * lik p.state) = c * (p.prob * lik p.state) by ring]
      exact mul_div_mul_left _ _ hc.ne'
    rw [this]
  · rw [if_neg (fun hx => h (hiff.mp hx)), if_neg h]

/-- **C14, grouping**: measuring with `l1` and then `l2` equals measuring once with the product,
if both totals are positive. -/
theorem C14_fusion (log : K → K) (f : Filter S K) (l1 l2 : S → K)
    (h1 : 0 < (f.particles.map fun p => p.prob * l1 p.state).sum)
    (h12 : 0 < (f.particles.map fun p => p.prob * (l1 p.state * l2 p.state)).sum) :
    (f.measure log l1).measure log l2 = f.measure log (fun s => l1 s * l2 s) := by
  change 0 < evidence l1 f.particles at h1
  change 0 < evidence (fun s => l1 s * l2 s) f.particles at h12
  have hps := (C11_measure_bayes log f l1 h1).1
  have hev : evidence l2 (f.measure log l1).particles =
      evidence (fun s => l1 s * l2 s) f.particles / evidence l1 f.particles := by
    rw [hps]
    unfold evidence
    rw [List.map_map, ← sum_div, List.map_map]
    congr 1
    apply List.map_congr_left
    intro p _
    simp only [Function.comp_apply]; ring
  have hpos : 0 < evidence l2 (f.measure log l1).particles := by
    rw [hev]; exact div_pos h12 h1
  have key : ((weigh l2 (f.measure log l1).particles).map fun p =>
      { p with prob := p.prob / evidence l2 (f.measure log l1).particles }) =
      ((weigh (fun s => l1 s * l2 s) f.particles).map fun p =>
        { p with prob := p.prob / evidence (fun s => l1 s * l2 s) f.particles }) := by
    rw [hev, hps]
    simp only [weigh, List.map_map]
    apply List.map_congr_left
    intro p _
    simp only [Function.comp_apply, Particle.mk.injEq, true_and, and_true]
    have := h1.ne'
    have := h12.ne'
    change p.prob * l1 p.state / evidence l1 f.particles * l2 p.state /
      (evidence (fun s => l1 s * l2 s) f.particles / evidence l1 f.particles) = _
    field_simp
  rw [measure_pos log (f.measure log l1) l2 hpos, measure_pos log f _ h12, key]

/-- **C14, order**: two independent measurements commute. -/
theorem C14_order_irrelevant (log : K → K) (f : Filter S K) (l1 l2 : S → K)
    (h1 : 0 < (f.particles.map fun p => p.prob * l1 p.state).sum)
    (h2 : 0 < (f.particles.map fun p => p.prob * l2 p.state).sum)
    (h12 : 0 < (f.particles.map fun p => p.prob * (l1 p.state * l2 p.state)).sum) :
    (f.measure log l1).measure log l2 = (f.measure log l2).measure log l1 := by
  rw [C14_fusion log f l1 l2 h1 h12, C14_fusion log f l2 l1 h2 (by simpa [mul_comm] using h12)]
  congr 1
  funext s; ring

/-- Non-vacuity of C11/C14: two particles, likelihoods with positive evidence. -/
example : (0 : ℚ) < (([⟨0, 1/2, 1, 0⟩, ⟨1, 1/2, 1, 0⟩] : List (Particle Nat ℚ)).map
    fun p => p.prob * ((fun s : Nat => (s : ℚ)) p.state * (fun s : Nat => (s : ℚ) + 1) p.state)).sum := by
  norm_num

/-! ## Entropy (C15), over the reals with the natural logarithm -/

/-- Shannon entropy of a list of weights (`0 log 0 = 0`). -/
noncomputable def shannon (w : List ℝ) : ℝ := (w.map Real.negMulLog).sum

theorem entropyOf_eq (ps : List (Particle S ℝ)) (h : ∀ p ∈ ps, 0 ≤ p.prob) :
    entropyOf Real.log ps = shannon (ps.map Particle.prob) := by
  unfold entropyOf shannon
  have : ∀ a : ℝ, ps.foldl (fun e p => if 0 < p.prob then e + p.prob * Real.log p.prob else e) a =
      a - ((ps.map Particle.prob).map Real.negMulLog).sum := by
    induction ps with
    | nil => intro a; simp
    | cons p ps ih =>
      intro a
      simp only [List.foldl_cons, List.map_cons, List.sum_cons]
      rw [ih (fun q hq => h q (by simp [hq]))]
      have hp := h p (by simp)
      split
      · simp only [Real.negMulLog]; ring
      · rename_i hn
        have : p.prob = 0 := le_antisymm (not_lt.mp hn) hp
        simp [this]
  rw [this]; ring

theorem shannon_nonneg (w : List ℝ) (h0 : ∀ x ∈ w, 0 ≤ x) (h1 : ∀ x ∈ w, x ≤ 1) :
    0 ≤ shannon w := by
  unfold shannon
  apply List.sum_nonneg
  intro y hy
  obtain ⟨x, hx, rfl⟩ := List.mem_map.mp hy
  exact Real.negMulLog_nonneg (h0 x hx) (h1 x hx)

theorem shannon_le_log (w : List ℝ) (hne : w ≠ []) (h0 : ∀ x ∈ w, 0 ≤ x) (hs : w.sum = 1) :
    shannon w ≤ Real.log w.length := by
  have hN : (0 : ℝ) < w.length := by exact_mod_cast List.length_pos_iff.mpr hne
  have hj := Real.concaveOn_negMulLog.le_map_sum (t := (Finset.univ : Finset (Fin w.length)))
    (w := fun _ => 1 / (w.length : ℝ)) (p := fun i => w[i])
    (fun _ _ => by positivity) (by simp [Finset.sum_const]; field_simp)
    (fun i _ => h0 _ (List.getElem_mem _))
  have e1 : ∑ i : Fin w.length, (1 / (w.length : ℝ)) • Real.negMulLog w[i] =
      shannon w / w.length := by
    simp only [smul_eq_mul, ← Finset.mul_sum]
    have : ∑ i : Fin w.length, Real.negMulLog w[i] = shannon w := by
      unfold shannon
      rw [← List.sum_ofFn]
      congr 1
      apply List.ext_getElem
      · simp
      · intro i h1 h2; simp
    rw [this]; ring
  have e2 : ∑ i : Fin w.length, (1 / (w.length : ℝ)) • w[i] = 1 / w.length := by
    simp only [smul_eq_mul, ← Finset.mul_sum]
    have : ∑ i : Fin w.length, w[i] = w.sum := by
      rw [← List.sum_ofFn]
      congr 1
      apply List.ext_getElem
      · simp
      · intro i h1 h2; simp
    rw [this, hs, mul_one]
  rw [e1, e2] at hj
  have e3 : Real.negMulLog (1 / (w.length : ℝ)) = Real.log w.length / w.length := by
    rw [Real.negMulLog, one_div, Real.log_inv]; field_simp
  rw [e3] at hj
  exact (div_le_div_iff_of_pos_right hN).mp hj

/-- **C15**: after a successful measurement the reported entropy is the Shannon entropy of the
current weights and lies between 0 and the logarithm of the number of particles. -/
theorem C15_entropy (f : Filter S ℝ) (lik : S → ℝ)
    (hw : ∀ p ∈ f.particles, 0 ≤ p.prob) (hl : ∀ s, 0 ≤ lik s)
    (h : 0 < (f.particles.map fun p => p.prob * lik p.state).sum) :
    ∃ e, (f.measure Real.log lik).entropy = some e ∧
      e = shannon ((f.measure Real.log lik).particles.map Particle.prob) ∧
      0 ≤ e ∧ e ≤ Real.log (f.measure Real.log lik).particles.length := by
  obtain ⟨hps, hsum⟩ := C11_measure_bayes Real.log f lik h
  have hnn : ∀ p ∈ (f.measure Real.log lik).particles, 0 ≤ p.prob := by
    intro p hp
    rw [hps] at hp
    obtain ⟨q, hq, rfl⟩ := List.mem_map.mp hp
    exact div_nonneg (mul_nonneg (hw q hq) (hl _)) h.le
  have hent : (f.measure Real.log lik).entropy =
      some (entropyOf Real.log (f.measure Real.log lik).particles) := by
    simp only [Filter.measure, total_weigh]
    rw [if_pos (show 0 < evidence lik f.particles from h)]
  refine ⟨_, hent, entropyOf_eq _ hnn, ?_, ?_⟩
  · rw [entropyOf_eq _ hnn]
    apply shannon_nonneg
    · intro x hx; obtain ⟨p, hp, rfl⟩ := List.mem_map.mp hx; exact hnn p hp
    · intro x hx
      have hx0 : ∀ y ∈ (f.measure Real.log lik).particles.map Particle.prob, 0 ≤ y := by
        intro y hy; obtain ⟨p, hp, rfl⟩ := List.mem_map.mp hy; exact hnn p hp
      have := List.single_le_sum hx0 x hx
      rw [hsum] at this; exact this
  · rw [entropyOf_eq _ hnn]
    have hne : (f.measure Real.log lik).particles.map Particle.prob ≠ [] := by
      intro he; rw [he] at hsum; simp at hsum
    have := shannon_le_log _ hne (by
      intro x hx; obtain ⟨p, hp, rfl⟩ := List.mem_map.mp hx; exact hnn p hp) hsum
    simpa using this

end PF
end Mcl3dl
