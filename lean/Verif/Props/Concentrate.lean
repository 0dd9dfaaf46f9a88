import Verif.Spec.Concentrate
import Verif.Props.PFEstimate
import Mathlib.Analysis.SpecificLimits.Basic

/-! # C155: repeated measurements that favour one particle single it out -/

set_option linter.unusedSectionVars false

namespace Mcl3dl
namespace PF

variable {S K ι : Type} [Field K] [LinearOrder K] [IsStrictOrderedRing K]

theorem sum_fin {A : Type} (l : List A) (g : A → K) : (l.map g).sum = ∑ i : Fin l.length, g l[i] := by
  rw [← List.sum_ofFn]
  congr 1
  apply List.ext_getElem
  · simp
  · intro i h1 h2
    simp

theorem sum_others {A : Type} (l : List A) (g : A → K) (j : Fin l.length) :
    (l.map g).sum - g l[j] = ∑ i ∈ Finset.univ.erase j, g l[i] := by
  rw [sum_fin, ← Finset.add_sum_erase _ _ (Finset.mem_univ j)]
  ring

/-- C155: each measurement that favours particle `j` by the factor `1/ρ` shrinks the weight of all others, compared to that
of `j`, by at least `ρ`. -/
theorem C155_rate (log : K → K) {ρ : K} (hρ : 0 ≤ ρ) : ∀ (liks : List (S → K)) (f : Filter S K) (j : ℕ) (hj : j < f.particles.length),
    (∀ p ∈ f.particles, 0 ≤ p.prob) → 0 < f.particles[j].prob → (∀ lik ∈ liks, Favours f.particles ⟨j, hj⟩ ρ lik) →
    ∃ h : j < (f.measureAll log liks).particles.length,
      (f.measureAll log liks).particles.map Particle.state = f.particles.map Particle.state ∧
      (∀ p ∈ (f.measureAll log liks).particles, 0 ≤ p.prob) ∧
      0 < (f.measureAll log liks).particles[j].prob ∧
      (liks ≠ [] → ((f.measureAll log liks).particles.map Particle.prob).sum = 1) ∧
      ((f.measureAll log liks).particles.map Particle.prob).sum - (f.measureAll log liks).particles[j].prob ≤
        ρ ^ liks.length * (((f.particles.map Particle.prob).sum - f.particles[j].prob) / f.particles[j].prob) *
          (f.measureAll log liks).particles[j].prob := by
  intro liks
  induction liks with
  | nil =>
    intro f j hj hnn hp _
    refine ⟨hj, rfl, hnn, hp, fun h => absurd rfl h, ?_⟩
    show _ ≤ ρ ^ 0 * _ * f.particles[j].prob
    rw [pow_zero, one_mul, div_mul_cancel₀ _ hp.ne']
    exact le_refl _
  | cons lik liks ih =>
    intro f j hj hnn hp hfav
    obtain ⟨hlj, hfo⟩ := hfav lik List.mem_cons_self
    have hlj' : 0 < lik f.particles[j].state := hlj
    have hterm : ∀ i : Fin f.particles.length, 0 ≤ f.particles[i].prob * lik f.particles[i].state := by
      intro i
      refine mul_nonneg (hnn _ (List.getElem_mem _)) ?_
      by_cases h : i = ⟨j, hj⟩
      · rw [h]; exact hlj.le
      · exact (hfo i h).1
    have hpl : 0 < f.particles[j].prob * lik f.particles[j].state := mul_pos hp hlj'
    set E := (f.particles.map fun p => p.prob * lik p.state).sum with hE
    have hEpos : 0 < E := by
      rw [hE, sum_fin]
      refine lt_of_lt_of_le hpl ?_
      exact Finset.single_le_sum (f := fun i : Fin f.particles.length => f.particles[i].prob * lik f.particles[i].state)
        (fun i _ => hterm i) (Finset.mem_univ (⟨j, hj⟩ : Fin f.particles.length))
    obtain ⟨hm, hsum⟩ := C11_measure_bayes log f lik hEpos
    set f1 := f.measure log lik with hf1
    have hlen : f1.particles.length = f.particles.length := by rw [hm]; simp
    have hj1 : j < f1.particles.length := by rw [hlen]; exact hj
    have hget : ∀ i (h : i < f.particles.length) (h' : i < f1.particles.length),
        f1.particles[i].prob = f.particles[i].prob * lik f.particles[i].state / E ∧
        f1.particles[i].state = f.particles[i].state := by
      intro i h h'
      simp only [hm, List.getElem_map]
      exact ⟨rfl, trivial⟩
    have hst : f1.particles.map Particle.state = f.particles.map Particle.state := by
      rw [hm, List.map_map]; rfl
    have hnn1 : ∀ p ∈ f1.particles, 0 ≤ p.prob := by
      intro p hp
      obtain ⟨i, hi, rfl⟩ := List.getElem_of_mem hp
      rw [(hget i (by omega) hi).1]
      exact div_nonneg (hterm ⟨i, by omega⟩) hEpos.le
    have hp1 : 0 < f1.particles[j].prob := by
      rw [(hget j hj hj1).1]; exact div_pos hpl hEpos
    have hfav1 : ∀ l ∈ liks, Favours f1.particles ⟨j, hj1⟩ ρ l := by
      intro l hl
      obtain ⟨a, b⟩ := hfav l (List.mem_cons_of_mem _ hl)
      refine ⟨?_, ?_⟩
      · show 0 < l f1.particles[j].state
        rw [(hget j hj hj1).2]; exact a
      · rintro ⟨i, hi⟩ hij
        have hi' : i < f.particles.length := by omega
        have := b ⟨i, hi'⟩ (by intro h; apply hij; simpa using h)
        show 0 ≤ l f1.particles[i].state ∧ l f1.particles[i].state ≤ ρ * l f1.particles[j].state
        rw [(hget j hj hj1).2, (hget i hi' hi).2]; exact this
    obtain ⟨h, i1, i2, i3, i4, i5⟩ := ih f1 j hj1 hnn1 hp1 hfav1
    have hfold : f.measureAll log (lik :: liks) = f1.measureAll log liks := rfl
    refine ⟨h, i1.trans hst, i2, i3, ?_, ?_⟩
    · intro _
      show ((f1.measureAll log liks).particles.map Particle.prob).sum = 1
      by_cases hl : liks = []
      · rw [hl]; exact hsum
      · exact i4 hl
    · refine le_trans i5 ?_
      refine mul_le_mul_of_nonneg_right ?_ i3.le
      rw [List.length_cons, pow_succ, mul_assoc]
      refine mul_le_mul_of_nonneg_left ?_ (pow_nonneg hρ _)
      rw [div_le_iff₀ hp1]
      -- the weight of the others after one measurement
      have ho : (f1.particles.map Particle.prob).sum - f1.particles[j].prob =
          (E - f.particles[j].prob * lik f.particles[j].state) / E := by
        rw [hsum, (hget j hj hj1).1]; field_simp
      rw [ho, (hget j hj hj1).1]
      have hle : E - f.particles[j].prob * lik f.particles[j].state ≤
          ρ * lik f.particles[j].state * ((f.particles.map Particle.prob).sum - f.particles[j].prob) := by
        have e1 := sum_others f.particles (fun p => p.prob * lik p.state) ⟨j, hj⟩
        have e2 := sum_others f.particles Particle.prob ⟨j, hj⟩
        simp only [Fin.getElem_fin] at e1 e2
        rw [hE, e1, e2, Finset.mul_sum]
        refine Finset.sum_le_sum fun i hi => ?_
        have hij := Finset.ne_of_mem_erase hi
        have h1 := (hfo i hij).2
        have h2 := hnn _ (List.getElem_mem (l := f.particles) i.2)
        have := mul_le_mul_of_nonneg_left h1 h2
        calc _ ≤ _ := this
          _ = _ := by simp only [Fin.getElem_fin]; ring
      calc _ ≤ ρ * lik f.particles[j].state * ((f.particles.map Particle.prob).sum - f.particles[j].prob) / E :=
            div_le_div_of_nonneg_right hle hEpos.le
        _ = _ := by field_simp

/-- C155: after at least one such measurement the weights of all other particles sum to at most `ρⁿ (W - w) / w`. -/
theorem C155_others (log : K → K) {ρ : K} (hρ : 0 ≤ ρ) {liks : List (S → K)} (hne : liks ≠ []) {f : Filter S K} {j : ℕ}
    (hj : j < f.particles.length) (hnn : ∀ p ∈ f.particles, 0 ≤ p.prob) (hp : 0 < f.particles[j].prob)
    (hfav : ∀ lik ∈ liks, Favours f.particles ⟨j, hj⟩ ρ lik) :
    ∃ h : j < (f.measureAll log liks).particles.length,
      (f.measureAll log liks).particles[j].prob ≤ 1 ∧
      1 - (f.measureAll log liks).particles[j].prob ≤
        ρ ^ liks.length * (((f.particles.map Particle.prob).sum - f.particles[j].prob) / f.particles[j].prob) := by
  obtain ⟨h, h1, h2, h3, h4, h5⟩ := C155_rate log hρ liks f j hj hnn hp hfav
  have hle : (f.measureAll log liks).particles[j].prob ≤ 1 := by
    rw [← h4 hne, sum_fin]
    exact Finset.single_le_sum (f := fun i : Fin (f.measureAll log liks).particles.length => (f.measureAll log liks).particles[i].prob)
      (fun i _ => h2 _ (List.getElem_mem _)) (Finset.mem_univ (⟨j, h⟩ : Fin _))
  refine ⟨h, hle, ?_⟩
  rw [h4 hne] at h5
  refine le_trans h5 ?_
  have hc : 0 ≤ ((f.particles.map Particle.prob).sum - f.particles[j].prob) / f.particles[j].prob := by
    refine div_nonneg ?_ hp.le
    have e := sum_others f.particles Particle.prob ⟨j, hj⟩
    simp only [Fin.getElem_fin] at e
    rw [e]
    exact Finset.sum_nonneg fun i _ => hnn _ (List.getElem_mem _)
  have := mul_le_mul_of_nonneg_left hle (mul_nonneg (pow_nonneg hρ liks.length) hc)
  rwa [mul_one] at this

/-- C155: as soon as that bound is below 1/2, `max()` returns the state of particle `j`. -/
theorem C155_max (log : K → K) {ρ : K} (hρ : 0 ≤ ρ) {liks : List (S → K)} (hne : liks ≠ []) {f : Filter S K} {j : ℕ}
    (hj : j < f.particles.length) (hnn : ∀ p ∈ f.particles, 0 ≤ p.prob) (hp : 0 < f.particles[j].prob)
    (hfav : ∀ lik ∈ liks, Favours f.particles ⟨j, hj⟩ ρ lik)
    (hsmall : ρ ^ liks.length * (((f.particles.map Particle.prob).sum - f.particles[j].prob) / f.particles[j].prob) < 1 / 2) :
    (f.measureAll log liks).max = .ok f.particles[j].state := by
  obtain ⟨h, h1, h2, h3, h4, -⟩ := C155_rate log hρ liks f j hj hnn hp hfav
  obtain ⟨_, -, h6⟩ := C155_others log hρ hne hj hnn hp hfav
  set g := f.measureAll log liks with hg
  have hw : 1 / 2 < g.particles[j].prob := by linarith
  have hother : ∀ i (hi : i < g.particles.length), i ≠ j → g.particles[i].prob < 1 / 2 := by
    intro i hi hij
    have e := sum_others g.particles Particle.prob ⟨j, h⟩
    simp only [Fin.getElem_fin] at e
    rw [h4 hne] at e
    have := Finset.single_le_sum (f := fun i : Fin g.particles.length => g.particles[i].prob) (s := Finset.univ.erase ⟨j, h⟩)
      (fun i _ => h2 _ (List.getElem_mem _)) (Finset.mem_erase.2 ⟨by intro hh; exact hij (by simpa using hh), Finset.mem_univ (⟨i, hi⟩ : Fin _)⟩)
    have h7 : g.particles[i].prob ≤ 1 - g.particles[j].prob := by rw [e]; exact this
    linarith
  cases hm : g.max with
  | throws m => unfold Filter.max at hm; split at hm <;> cases hm
  | ub w =>
    unfold Filter.max at hm
    split at hm
    · rename_i h0; rw [h0] at h; simp at h
    · cases hm
  | ok s =>
    obtain ⟨i, hi, rfl, hmx, -⟩ := C22_max_is_first_maximum g s hm
    have hij : i = j := by
      by_contra hij
      have := hother i hi hij
      have := hmx _ (List.getElem_mem h)
      linarith
    subst hij
    have e : g.particles[i].state = (g.particles.map Particle.state)[i]'(by simpa using hi) := by simp
    rw [e]
    simp only [h1, List.getElem_map]

/-- C155: the mean comes as close to the state of particle `j`: its distance in each component is at most that bound times the
largest distance of a particle. -/
theorem C155_mean (log : K → K) {ρ : K} (hρ : 0 ≤ ρ) {liks : List ((ι → K) → K)} (hne : liks ≠ []) {f : Filter (ι → K) K} {j : ℕ}
    (hj : j < f.particles.length) (hnn : ∀ p ∈ f.particles, 0 ≤ p.prob) (hp : 0 < f.particles[j].prob)
    (hfav : ∀ lik ∈ liks, Favours f.particles ⟨j, hj⟩ ρ lik) (i : ι) {D : K}
    (hD : ∀ p ∈ f.particles, |p.state i - f.particles[j].state i| ≤ D) (sorted : List (Particle (ι → K) K)) :
    |((f.measureAll log liks).expectation componentMean 1 sorted).1 i - f.particles[j].state i| ≤
      D * (ρ ^ liks.length * (((f.particles.map Particle.prob).sum - f.particles[j].prob) / f.particles[j].prob)) := by
  obtain ⟨h, h1, h2, h3, h4, -⟩ := C155_rate log hρ liks f j hj hnn hp hfav
  obtain ⟨_, -, h6⟩ := C155_others log hρ hne hj hnn hp hfav
  set g := f.measureAll log liks with hg
  have hlen : g.particles.length = f.particles.length := by simpa using congrArg List.length h1
  have hst : ∀ k (hk : k < g.particles.length), g.particles[k].state = (f.particles[k]'(by omega)).state := by
    intro k hk
    have e : g.particles[k].state = (g.particles.map Particle.state)[k]'(by simpa using hk) := by simp
    rw [e]
    simp only [h1, List.getElem_map]
  rw [C26_expectation_uses_all g sorted h2 (h4 hne).le i, h4 hne, div_one]
  have e1 : (g.particles.map fun p => p.prob * p.state i).sum - f.particles[j].state i =
      (g.particles.map fun p => p.prob * (p.state i - f.particles[j].state i)).sum := by
    have e2 : (g.particles.map fun p => p.prob * (p.state i - f.particles[j].state i)).sum =
        (g.particles.map fun p => p.prob * p.state i).sum - (g.particles.map Particle.prob).sum * f.particles[j].state i := by
      simp only [sum_fin]
      rw [Finset.sum_mul, ← Finset.sum_sub_distrib]
      exact Finset.sum_congr rfl fun k _ => by ring
    rw [e2, h4 hne, one_mul]
  have e3 := sum_others g.particles (fun p => p.prob * (p.state i - f.particles[j].state i)) ⟨j, h⟩
  simp only [Fin.getElem_fin, hst j h, sub_self, mul_zero, sub_zero] at e3
  have e4 := sum_others g.particles Particle.prob ⟨j, h⟩
  simp only [Fin.getElem_fin] at e4
  rw [h4 hne] at e4
  rw [e1, e3]
  have hD0 : 0 ≤ D := le_trans (abs_nonneg _) (hD _ (List.getElem_mem hj))
  calc _ ≤ ∑ k ∈ Finset.univ.erase (⟨j, h⟩ : Fin g.particles.length), D * g.particles[(k : ℕ)].prob := by
        refine le_trans (Finset.abs_sum_le_sum_abs _ _) (Finset.sum_le_sum fun k _ => ?_)
        have hk2 := h2 _ (List.getElem_mem (l := g.particles) k.2)
        rw [abs_mul, abs_of_nonneg hk2, mul_comm]
        refine mul_le_mul_of_nonneg_right ?_ hk2
        rw [hst k k.2]
        exact hD _ (List.getElem_mem _)
    _ = D * (1 - g.particles[j].prob) := by rw [← Finset.mul_sum, ← e4]
    _ ≤ _ := mul_le_mul_of_nonneg_left h6 hD0

/-- C155: with `ρ < 1` the weight of particle `j` tends to 1 and `max()` finally returns its state. -/
theorem C155_limit (log : ℝ → ℝ) {ρ : ℝ} (h0 : 0 ≤ ρ) (h1 : ρ < 1) (lik : ℕ → S → ℝ) (f : Filter S ℝ) {j : ℕ}
    (hj : j < f.particles.length) (hnn : ∀ p ∈ f.particles, 0 ≤ p.prob) (hp : 0 < f.particles[j].prob)
    (hfav : ∀ n, Favours f.particles ⟨j, hj⟩ ρ (lik n)) :
    Filter.Tendsto (fun n => ((f.measureAll log ((List.range n).map lik)).particles[j]?.map Particle.prob).getD 0) Filter.atTop (nhds 1) ∧
    ∀ᶠ n in Filter.atTop, (f.measureAll log ((List.range n).map lik)).max = .ok f.particles[j].state := by
  set c := ((f.particles.map Particle.prob).sum - f.particles[j].prob) / f.particles[j].prob with hc
  have hlim : Filter.Tendsto (fun n : ℕ => ρ ^ n * c) Filter.atTop (nhds 0) := by
    have := (tendsto_pow_atTop_nhds_zero_of_lt_one h0 h1).mul_const c
    simpa using this
  have hf : ∀ n, ∀ l ∈ (List.range n).map lik, Favours f.particles ⟨j, hj⟩ ρ l := by
    intro n l hl
    obtain ⟨k, -, rfl⟩ := List.mem_map.1 hl
    exact hfav k
  have hn : ∀ n, 1 ≤ n → (List.range n).map lik ≠ [] := by
    intro n hn h
    have := congrArg List.length h
    simp at this
    omega
  constructor
  · refine tendsto_of_tendsto_of_tendsto_of_le_of_le' (g := fun n => 1 - ρ ^ n * c) (h := fun _ => 1) ?_ tendsto_const_nhds ?_ ?_
    · simpa using hlim.const_sub 1
    · filter_upwards [Filter.eventually_ge_atTop 1] with n hn1
      obtain ⟨h, -, h2⟩ := C155_others log h0 (hn n hn1) hj hnn hp (hf n)
      rw [List.getElem?_eq_getElem h, Option.map_some, Option.getD_some]
      simp only [List.length_map, List.length_range] at h2
      linarith
    · filter_upwards [Filter.eventually_ge_atTop 1] with n hn1
      obtain ⟨h, h2, -⟩ := C155_others log h0 (hn n hn1) hj hnn hp (hf n)
      rw [List.getElem?_eq_getElem h, Option.map_some, Option.getD_some]
      exact h2
  · filter_upwards [Filter.eventually_ge_atTop 1, hlim.eventually (gt_mem_nhds (show (0 : ℝ) < 1 / 2 by norm_num))] with n hn1 hs
    refine C155_max log h0 (hn n hn1) hj hnn hp (hf n) ?_
    simpa using hs

/-- C155 applied: a likelihood that is 1 for the state 20 and 1/2 for 10 and 30. -/
example : Favours (S := ℕ) (F := ℚ) [⟨10, 1/2, 1, 0⟩, ⟨20, 1/4, 1, 0⟩, ⟨30, 1/4, 1, 0⟩] ⟨1, by simp⟩ (1/2)
    (fun s => if s = 20 then 1 else 1/2) := by
  refine ⟨by simp, ?_⟩
  rintro ⟨i, hi⟩ hne
  match i, hi, hne with
  | 0, _, _ => norm_num
  | 1, _, h => exact absurd rfl h
  | 2, _, _ => norm_num

end PF
end Mcl3dl
