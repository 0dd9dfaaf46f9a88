import Verif.Spec.Draws
import Verif.Props.PFSources

/-! # C154: resampling is unbiased -/

set_option linter.unusedSectionVars false

namespace Mcl3dl
namespace PF

open MeasureTheory

variable {S : Type}

/-- The length of a subinterval, as an average over a comb of `n` points with spacing `s` and a uniform offset. -/
theorem comb_integral {a b s : ℝ} (n : ℕ) (hab : a ≤ b) (h0 : 0 ≤ a) (hb : b ≤ s * n) :
    (∫ u in (0 : ℝ)..s, ∑ k ∈ Finset.range n, (Set.Ioc a b).indicator (fun _ => (1 : ℝ)) (s * k + u)) = b - a := by
  set g : ℝ → ℝ := (Set.Ioc a b).indicator fun _ => (1 : ℝ) with hg
  have hint : Integrable g := by
    rw [hg, integrable_indicator_iff measurableSet_Ioc]
    exact integrableOn_const (by simp)
  have hi : ∀ x y, IntervalIntegrable g volume x y := fun x y => hint.intervalIntegrable
  rw [intervalIntegral.integral_finsetSum]
  · have h1 : ∀ k : ℕ, (∫ u in (0 : ℝ)..s, g (s * k + u)) = ∫ x in (s * (k : ℕ))..(s * ((k + 1 : ℕ) : ℝ)), g x := by
      intro k
      rw [intervalIntegral.integral_comp_add_left (fun x => g x)]
      congr 1
      · ring
      · push_cast; ring
    simp only [h1]
    rw [intervalIntegral.sum_integral_adjacent_intervals (a := fun k : ℕ => s * (k : ℝ)) (fun k _ => hi _ _)]
    simp only [Nat.cast_zero, mul_zero]
    rw [intervalIntegral.integral_of_le (le_trans h0 (le_trans hab hb)), hg, setIntegral_indicator measurableSet_Ioc,
      Set.Ioc_inter_Ioc, max_eq_right h0, min_eq_right hb]
    simp [hab]
  · intro k _
    have := (hi (0 + s * k) (s + s * k)).comp_add_left (s * k)
    simpa using this

theorem comb_integrable {a b s : ℝ} (n : ℕ) :
    IntervalIntegrable (fun u => ∑ k ∈ Finset.range n, (Set.Ioc a b).indicator (fun _ => (1 : ℝ)) (s * k + u)) volume 0 s := by
  have hint : Integrable ((Set.Ioc a b).indicator fun _ => (1 : ℝ)) := by
    rw [integrable_indicator_iff measurableSet_Ioc]
    exact integrableOn_const (by simp)
  have : (fun u => ∑ k ∈ Finset.range n, (Set.Ioc a b).indicator (fun _ => (1 : ℝ)) (s * k + u)) =
      ∑ k ∈ Finset.range n, fun u => (Set.Ioc a b).indicator (fun _ => (1 : ℝ)) (s * k + u) := by
    ext u; simp
  rw [this]
  apply IntervalIntegrable.sum
  intro k _
  have := (hint.intervalIntegrable (a := 0 + s * k) (b := s + s * k)).comp_add_left (s * k)
  simpa using this

/-- Integrals over the draws may ignore the draw 0 and the upper end. -/
theorem integral_draws {s : ℝ} (hs : 0 < s) {F G : ℝ → ℝ} (h : ∀ u, 0 < u → u < s → F u = G u) :
    (∫ u in (0 : ℝ)..s, F u) = ∫ u in (0 : ℝ)..s, G u := by
  apply intervalIntegral.integral_congr_ae
  have : ∀ᵐ u : ℝ ∂volume, u ≠ s := by
    simp [ae_iff, measure_singleton]
  filter_upwards [this] with u hu hu2
  rw [Set.uIoc_of_le hs.le] at hu2
  exact h u hu2.1 (lt_of_le_of_ne hu2.2 hu)

/-- Where the new particles come from, for every draw at once. -/
theorem draws_sources [StateOps S] (f : Filter S ℝ) (dup : List (Particle S ℝ)) (noise : ℝ → Nat → S)
    (hnn : ∀ p ∈ f.particles, 0 ≤ p.prob) (hW : 0 < weightSum f.particles)
    (hsort : IsSorted (accumulate 0 f.particles) dup) :
    ∃ src : ℝ → ℕ → ℕ,
      (∀ u, u < weightSum f.particles / f.particles.length → ∃ f', f.resample dup u (noise u) = .ok f' ∧
        f'.particles.length = f.particles.length ∧
        ∀ k (hk : k < f'.particles.length), ∃ h : src u k < f.particles.length,
          f'.particles[k].state = f.particles[src u k].state ∨
          f'.particles[k].state = StateOps.normalize (StateOps.add f.particles[src u k].state (noise u k))) ∧
      ∀ u, u < weightSum f.particles / f.particles.length → ∀ k < f.particles.length,
        ∀ j (hj : j < f.particles.length), 0 < f.particles[j].prob →
        (Family f.particles j (src u k) ↔
          (0 < j → pre f.particles j < scanPos f.particles u k) ∧ scanPos f.particles u k ≤ pre f.particles (j + 1)) := by
  classical
  let _inst := numberedOps S
  have hne : f.particles ≠ [] := by
    intro h; rw [h] at hW; simp [weightSum] at hW
  obtain ⟨p0, -⟩ := List.exists_mem_of_ne_nil _ hne
  obtain ⟨dup', hdup, hs'⟩ := exists_numbered_sort f.particles dup hsort
  have hcut : ∀ v, cut dup' v = cut dup v := by
    intro v
    unfold cut
    rw [← hdup, List.takeWhile_map, List.length_map]
    rfl
  have hl' : dup'.length = f.particles.length := by rw [hs'.1.length_eq, accumulate_length, numbered_length]
  have hl : dup.length = f.particles.length := by rw [← hdup]; simpa using hl'
  set σ : ℕ → ℕ := fun c => (((dup'[c]?).map Particle.state).getD (p0.state, 0)).2 with hσ
  have hso : SortOrder f.particles dup σ := sortOrder_numbered _ _ _ hdup hs' _
  refine ⟨fun u k => σ (cut dup (scanPos f.particles u k)), ?_, ?_⟩
  · intro u hu
    obtain ⟨hlt, f', e, hst⟩ := resample_closed f dup u (noise u) p0.state hne hW.le hu hsort
    have hlen : f'.particles.length = f.particles.length := by
      have := congrArg List.length hst; simpa using this
    refine ⟨f', e, hlen, ?_⟩
    intro k hk
    have hk' : k < f.particles.length := by omega
    have hc := hlt k hk'
    obtain ⟨h1, h2, -, -⟩ := hso.holds _ hc
    refine ⟨h1, ?_⟩
    have hget : f'.particles[k].state = (f'.particles.map Particle.state)[k]'(by simpa using hk) := by simp
    rw [hget]
    simp only [hst, List.getElem_map, List.getElem_range]
    unfold resampledState
    simp only [List.getElem?_eq_getElem hc, Option.map_some, Option.getD_some]
    split_ifs
    all_goals first
      | exact Or.inr (congrArg (fun s => StateOps.normalize (StateOps.add s (noise u k))) h2)
      | exact Or.inl h2
  · intro u hu k hk j hj hpos
    obtain ⟨hlt, -⟩ := resample_closed f dup u (noise u) p0.state hne hW.le hu hsort
    have hc : cut dup (scanPos f.particles u k) < dup.length := hlt k hk
    have hc' : cut dup' (scanPos f.particles u k) < dup'.length := by rw [hcut]; omega
    have hjn : j < (numbered f.particles).length := by rw [numbered_length]; exact hj
    have hnn' : ∀ p ∈ numbered f.particles, 0 ≤ p.prob := by
      intro p hp
      obtain ⟨q, hq, e⟩ := numbered_mem hp
      rw [e]; exact hnn q hq
    have hp' : 0 < (numbered f.particles)[j].prob := by
      rw [numbered_getElem f.particles j hj]; exact hpos
    have hpre : ∀ n, pre (numbered f.particles) n = pre f.particles n := by
      intro n
      unfold pre weightSum
      rw [List.map_take, List.map_take, numbered_prob]
    have key := cut_family (numbered f.particles) dup' hnn' hs' (Prod.snd : S × ℕ → ℕ) (numbered_tags _) j hjn hp'
      (scanPos f.particles u k) hc'
    rw [hpre, hpre] at key
    rw [← key]
    have hval : σ (cut dup (scanPos f.particles u k)) = dup'[cut dup' (scanPos f.particles u k)].state.2 := by
      simp only [hσ]
      rw [← hcut, List.getElem?_eq_getElem hc']; rfl
    constructor
    · intro hf
      have hlt2 : σ (cut dup (scanPos f.particles u k)) < f.particles.length := hso.lt _ (by omega)
      refine ⟨σ (cut dup (scanPos f.particles u k)), by rw [numbered_length]; exact hlt2, (numbered_family _ _ _).2 hf, ?_⟩
      rw [numbered_getElem f.particles _ hlt2, ← hval]
      rfl
    · rintro ⟨i, hi, hf, ht⟩
      rw [numbered_length] at hi
      rw [numbered_getElem f.particles _ hi, ← hval] at ht
      have ht' : σ (cut dup (scanPos f.particles u k)) = i := ht
      show Family f.particles j (σ (cut dup (scanPos f.particles u k)))
      rw [ht']
      exact (numbered_family _ _ _).1 hf

open Classical in
/-- C154: averaged over the draw, the family of a particle of weight `w` (the particle and the weight-0 particles directly
after it) has exactly `N w / W` members among the new particles, whatever noise is added and whatever the sort does with
equal keys; and the new particles represent every function of the old ones as their weights did, if it does not
distinguish the members of a family (with positive weights: every function). -/
theorem C154_unbiased [StateOps S] (f : Filter S ℝ) (dup : List (Particle S ℝ)) (noise : ℝ → Nat → S)
    (hnn : ∀ p ∈ f.particles, 0 ≤ p.prob) (hW : 0 < (f.particles.map Particle.prob).sum)
    (hsort : IsSorted (accumulate 0 f.particles) dup) :
    ∃ src : ℝ → ℕ → ℕ,
      (∀ u, u < (f.particles.map Particle.prob).sum / f.particles.length → ∃ f', f.resample dup u (noise u) = .ok f' ∧
        f'.particles.length = f.particles.length ∧
        ∀ k (hk : k < f'.particles.length), ∃ h : src u k < f.particles.length,
          f'.particles[k].state = f.particles[src u k].state ∨
          f'.particles[k].state = StateOps.normalize (StateOps.add f.particles[src u k].state (noise u k))) ∧
      (∀ j (hj : j < f.particles.length), 0 < f.particles[j].prob →
        overDraws f (fun u => ((List.range f.particles.length).countP fun k => decide (Family f.particles j (src u k)) : ℕ)) =
          f.particles.length * f.particles[j].prob / (f.particles.map Particle.prob).sum) ∧
      ∀ g : ℕ → ℝ, (∀ j i (hj : j < f.particles.length), i < f.particles.length → 0 < f.particles[j].prob → Family f.particles j i →
          g i = g j) →
        overDraws f (fun u => (∑ k ∈ Finset.range f.particles.length, g (src u k)) / f.particles.length) =
          ∑ j : Fin f.particles.length, f.particles[j].prob / (f.particles.map Particle.prob).sum * g j := by
  obtain ⟨src, h1, h2⟩ := draws_sources f dup noise hnn hW hsort
  have hne : f.particles ≠ [] := by
    intro h; rw [h] at hW; simp at hW
  have hN : (0 : ℝ) < f.particles.length := by exact_mod_cast List.length_pos_iff.2 hne
  have hs : 0 < (f.particles.map Particle.prob).sum / f.particles.length := div_pos hW hN
  have hsN : (f.particles.map Particle.prob).sum / f.particles.length * (f.particles.length : ℝ) =
      (f.particles.map Particle.prob).sum := by field_simp
  -- membership in a family, for positive draws
  have fam : ∀ u, 0 < u → u < (f.particles.map Particle.prob).sum / f.particles.length → ∀ k < f.particles.length,
      ∀ j (hj : j < f.particles.length), 0 < f.particles[j].prob →
      (if Family f.particles j (src u k) then (1 : ℝ) else 0) = (Set.Ioc (pre f.particles j) (pre f.particles (j + 1))).indicator
        (fun _ => (1 : ℝ)) ((f.particles.map Particle.prob).sum / f.particles.length * k + u) := by
    intro u hu0 hu1 k hk j hj hpos
    rw [Set.indicator_apply]
    refine if_congr ((h2 u hu1 k hk j hj hpos).trans ?_) rfl rfl
    rw [Set.mem_Ioc]
    show (0 < j → _ < scanPos f.particles u k) ∧ scanPos f.particles u k ≤ _ ↔ _ < scanPos f.particles u k ∧ scanPos f.particles u k ≤ _
    constructor
    · rintro ⟨a, b⟩
      refine ⟨?_, b⟩
      rcases Nat.eq_zero_or_pos j with h0 | h0
      · rw [h0, pre_zero]
        have := scanPos_mono f.particles u (le_of_lt hW) (Nat.zero_le k)
        have e : scanPos f.particles u 0 = u := by simp [scanPos]
        linarith
      · exact a h0
    · rintro ⟨a, b⟩
      exact ⟨fun _ => a, b⟩
  have comb : ∀ j (hj : j < f.particles.length),
      (∫ u in (0 : ℝ)..((f.particles.map Particle.prob).sum / f.particles.length), ∑ k ∈ Finset.range f.particles.length,
        (Set.Ioc (pre f.particles j) (pre f.particles (j + 1))).indicator (fun _ => (1 : ℝ))
          ((f.particles.map Particle.prob).sum / f.particles.length * k + u)) = f.particles[j].prob := by
    intro j hj
    rw [comb_integral]
    · rw [pre_succ f.particles j hj]; ring
    · exact pre_mono f.particles hnn (Nat.le_succ j)
    · have := pre_mono f.particles hnn (Nat.zero_le j)
      rwa [pre_zero] at this
    · rw [hsN]
      have := pre_mono f.particles hnn (show j + 1 ≤ f.particles.length by omega)
      rwa [pre_length] at this
  refine ⟨src, h1, ?_, ?_⟩
  · intro j hj hpos
    unfold overDraws
    rw [integral_draws hs (G := fun u => ∑ k ∈ Finset.range f.particles.length,
        (Set.Ioc (pre f.particles j) (pre f.particles (j + 1))).indicator (fun _ => (1 : ℝ))
          ((f.particles.map Particle.prob).sum / f.particles.length * k + u)) ?_, comb j hj]
    · field_simp
    · intro u hu0 hu1
      rw [List.countP_eq_length_filter, ← Finset.sum_congr rfl fun k hk => fam u hu0 hu1 k (Finset.mem_range.1 hk) j hj hpos,
        Finset.sum_boole]
      congr 1
  · intro g hg
    -- the value at the source, family by family
    have split : ∀ u, 0 < u → u < (f.particles.map Particle.prob).sum / f.particles.length → ∀ k < f.particles.length,
        g (src u k) = ∑ j : Fin f.particles.length, (Set.Ioc (pre f.particles j) (pre f.particles (j + 1))).indicator
          (fun _ => (1 : ℝ)) ((f.particles.map Particle.prob).sum / f.particles.length * k + u) * g j := by
      intro u hu0 hu1 k hk
      set v := (f.particles.map Particle.prob).sum / f.particles.length * (k : ℝ) + u with hv
      have hvpos : 0 < v := by
        have : (0 : ℝ) ≤ (k : ℝ) := Nat.cast_nonneg k
        have := mul_nonneg hs.le this
        linarith
      have hvW : v < weightSum f.particles := scanPos_lt f.particles u (le_of_lt hW) hu1 hk
      -- the interval containing v
      have hex : ∃ j, v ≤ pre f.particles (j + 1) ∧ j < f.particles.length := by
        refine ⟨f.particles.length - 1, ?_, ?_⟩
        · rw [show f.particles.length - 1 + 1 = f.particles.length by have := List.length_pos_iff.2 hne; omega, pre_length]
          exact hvW.le
        · have := List.length_pos_iff.2 hne; omega
      obtain ⟨j, ⟨hj1, hj2⟩, hmin⟩ : ∃ j, (v ≤ pre f.particles (j + 1) ∧ j < f.particles.length) ∧
          ∀ i < j, pre f.particles (i + 1) < v := by
        refine ⟨Nat.find hex, Nat.find_spec hex, ?_⟩
        intro i hi
        have h3 := Nat.find_min hex hi
        have h4 := (Nat.find_spec hex).2
        by_contra hcon
        exact h3 ⟨not_lt.1 hcon, by omega⟩
      have hlow : pre f.particles j < v := by
        rcases Nat.eq_zero_or_pos j with h0 | h0
        · rw [h0, pre_zero]; exact hvpos
        · have := hmin (j - 1) (by omega)
          rwa [show j - 1 + 1 = j by omega] at this
      have hpos : 0 < f.particles[j].prob := by
        have := pre_succ f.particles j hj2
        linarith
      have hmem : v ∈ Set.Ioc (pre f.particles j) (pre f.particles (j + 1)) := ⟨hlow, hj1⟩
      have hfam : Family f.particles j (src u k) := by
        by_contra hcon
        have h5 := fam u hu0 hu1 k hk j hj2 hpos
        rw [if_neg hcon, Set.indicator_of_mem hmem] at h5
        exact zero_ne_one h5
      obtain ⟨f', -, hl, hsrc⟩ := h1 u hu1
      obtain ⟨hlt, -⟩ := hsrc k (by omega)
      rw [Finset.sum_eq_single (⟨j, hj2⟩ : Fin f.particles.length)]
      · rw [Set.indicator_of_mem hmem, one_mul]
        exact hg j _ hj2 hlt hpos hfam
      · intro i _ hij
        rw [Set.indicator_of_notMem, zero_mul]
        rintro ⟨a, b⟩
        rcases Nat.lt_trichotomy (i : ℕ) j with h | h | h
        · have := hmin i h
          linarith
        · exact hij (Fin.ext h)
        · have := pre_mono f.particles hnn (show j + 1 ≤ (i : ℕ) by omega)
          linarith
      · intro h; exact absurd (Finset.mem_univ _) h
    unfold overDraws
    rw [integral_draws hs (G := fun u => ∑ j : Fin f.particles.length, (g j / f.particles.length) *
        ∑ k ∈ Finset.range f.particles.length, (Set.Ioc (pre f.particles j) (pre f.particles (j + 1))).indicator
          (fun _ => (1 : ℝ)) ((f.particles.map Particle.prob).sum / f.particles.length * k + u)) ?_]
    · rw [intervalIntegral.integral_finsetSum]
      · rw [Finset.sum_div]
        refine Finset.sum_congr rfl fun j _ => ?_
        rw [intervalIntegral.integral_const_mul, comb j j.2]
        field_simp
        rfl
      · intro j _
        exact (comb_integrable _).const_mul _
    · intro u hu0 hu1
      simp only [Finset.mul_sum]
      rw [Finset.sum_comm, Finset.sum_div]
      refine Finset.sum_congr rfl fun k hk => ?_
      rw [split u hu0 hu1 k (Finset.mem_range.1 hk), Finset.sum_div]
      refine Finset.sum_congr rfl fun j _ => ?_
      ring

/-- C154 in terms of the states: with positive weights, the average over the new particles of every quantity that the
noise does not change is, averaged over the draw, the weighted mean over the old particles. -/
theorem C154_mean [StateOps S] (f : Filter S ℝ) (dup : List (Particle S ℝ)) (noise : ℝ → Nat → S)
    (hne : f.particles ≠ []) (hpos : ∀ p ∈ f.particles, 0 < p.prob) (hsort : IsSorted (accumulate 0 f.particles) dup)
    (φ : S → ℝ) (hφ : ∀ u k s, φ (StateOps.normalize (StateOps.add s (noise u k))) = φ s) :
    ∃ out : ℝ → Filter S ℝ,
      (∀ u, 0 ≤ u → u < (f.particles.map Particle.prob).sum / f.particles.length → f.resample dup u (noise u) = .ok (out u)) ∧
      overDraws f (fun u => ((out u).particles.map fun p => φ p.state).sum / (out u).particles.length) =
        (f.particles.map fun p => p.prob * φ p.state).sum / (f.particles.map Particle.prob).sum := by
  classical
  have hW : 0 < (f.particles.map Particle.prob).sum := by
    apply List.sum_pos
    · intro x hx
      obtain ⟨p, hp, rfl⟩ := List.mem_map.1 hx
      exact hpos p hp
    · simpa using hne
  have hN : (0 : ℝ) < f.particles.length := by exact_mod_cast List.length_pos_iff.2 hne
  have hs : 0 < (f.particles.map Particle.prob).sum / f.particles.length := div_pos hW hN
  obtain ⟨src, h1, -, h3⟩ := C154_unbiased f dup noise (fun p hp => (hpos p hp).le) hW hsort
  refine ⟨fun u => match f.resample dup u (noise u) with | .ok f' => f' | _ => f, ?_, ?_⟩
  · intro u _ hu
    obtain ⟨f', e, -⟩ := h1 u hu
    simp only [e]
  · obtain ⟨q, -⟩ := List.exists_mem_of_ne_nil _ hne
    have key := h3 (fun i => if h : i < f.particles.length then φ f.particles[i].state else 0) (by
      rintro j i hj hi - ⟨h4, h5⟩
      rcases Nat.lt_or_eq_of_le h4 with h | h
      · have := h5 i hi h le_rfl
        exact absurd this (hpos _ (List.getElem_mem hi)).ne'
      · subst h; rfl)
    have e2 : (∑ j : Fin f.particles.length, f.particles[j].prob / (f.particles.map Particle.prob).sum *
        (if h : (j : ℕ) < f.particles.length then φ f.particles[(j : ℕ)].state else 0)) =
        (f.particles.map fun p => p.prob * φ p.state).sum / (f.particles.map Particle.prob).sum := by
      have e3 : (f.particles.map fun p => p.prob * φ p.state).sum =
          ∑ j : Fin f.particles.length, f.particles[j].prob * φ f.particles[j].state := by
        rw [← List.sum_ofFn]
        congr 1
        apply List.ext_getElem
        · simp
        · intro i h1 h2
          simp
      rw [e3, Finset.sum_div]
      refine Finset.sum_congr rfl fun j _ => ?_
      rw [dif_pos j.2]
      show _ / _ * φ f.particles[j].state = _
      ring
    rw [e2] at key
    rw [← key]
    unfold overDraws
    congr 1
    apply integral_draws hs
    intro u _ hu
    obtain ⟨f', e, hl, hst⟩ := h1 u hu
    simp only [e]
    rw [hl]
    congr 1
    have e4 : (f'.particles.map fun p => φ p.state) = (List.range f.particles.length).map fun k =>
        if h : src u k < f.particles.length then φ f.particles[src u k].state else 0 := by
      apply List.ext_getElem
      · simp [hl]
      · intro k hk1 hk2
        simp only [List.length_map] at hk1
        obtain ⟨h5, h6⟩ := hst k hk1
        simp only [List.getElem_map, List.getElem_range]
        rw [dif_pos h5]
        rcases h6 with h6 | h6
        · rw [h6]
        · rw [h6, hφ]
    rw [e4, Finset.sum_range, ← List.sum_ofFn]
    congr 1
    apply List.ext_getElem
    · simp
    · intro i h1 h2
      simp

/-- C154 applied: of two particles with weights 1/4 and 3/4 the second is copied 3/2 times on average. -/
example (noise : ℝ → ℕ → ℕ) : open Classical in ∃ src : ℝ → ℕ → ℕ,
    (∀ u, u < 1 / 2 → ∃ f', Filter.resample (F := ℝ) (S := ℕ)
      ⟨[⟨10, 1/4, 1, 0⟩, ⟨20, 3/4, 1, 0⟩], none⟩ [⟨10, 1/4, 1, 1/4⟩, ⟨20, 3/4, 1, 1⟩] u (noise u) = .ok f') ∧
    overDraws (S := ℕ) ⟨[⟨10, 1/4, 1, 0⟩, ⟨20, 3/4, 1, 0⟩], none⟩ (fun u =>
      ((List.range 2).countP fun k => decide (Family (S := ℕ) (K := ℝ) [⟨10, 1/4, 1, 0⟩, ⟨20, 3/4, 1, 0⟩] 1 (src u k)) : ℕ)) = 3 / 2 := by
  have hsum : (([⟨10, 1/4, 1, 0⟩, ⟨20, 3/4, 1, 0⟩] : List (Particle ℕ ℝ)).map Particle.prob).sum = 1 := by norm_num
  obtain ⟨src, h1, h2, -⟩ := C154_unbiased (S := ℕ) ⟨[⟨10, 1/4, 1, 0⟩, ⟨20, 3/4, 1, 0⟩], none⟩
    [⟨10, 1/4, 1, 1/4⟩, ⟨20, 3/4, 1, 1⟩] noise
    (by
      intro p hp
      simp only [List.mem_cons, List.not_mem_nil, or_false] at hp
      rcases hp with rfl | rfl <;> norm_num)
    (by rw [hsum]; norm_num)
    (by
      have e : accumulate (0 : ℝ) ([⟨10, 1/4, 1, 0⟩, ⟨20, 3/4, 1, 0⟩] : List (Particle ℕ ℝ)) =
          [⟨10, 1/4, 1, 1/4⟩, ⟨20, 3/4, 1, 1⟩] := by
        simp only [accumulate]; norm_num
      rw [e]
      exact ⟨List.Perm.refl _, by simp; norm_num⟩)
  refine ⟨src, ?_, ?_⟩
  · intro u hu
    obtain ⟨f', e, -⟩ := h1 u (by rw [hsum]; simpa using hu)
    exact ⟨f', e⟩
  · have := h2 1 (by simp) (by simp)
    rw [hsum] at this
    simp only [List.length_cons, List.length_nil] at this
    rw [this]
    norm_num

end PF
end Mcl3dl
