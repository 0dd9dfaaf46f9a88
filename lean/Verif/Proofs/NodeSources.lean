import Verif.Props.PFSources
import Verif.Spec.NodeNoise

/-! # The sources of resampled particles, in the terms of the specification of the node -/

set_option linter.unusedSectionVars false

namespace Mcl3dl
namespace Node

theorem kin_iff (f : Filter) (j i : ℕ) :
    Kin (f.particles.map PF.Particle.prob) j i ↔ PF.Family f.particles j i := by
  unfold Kin PF.Family
  constructor
  · rintro ⟨h1, h2⟩
    refine ⟨h1, fun k hk h3 h4 => h2 k _ h3 h4 ?_⟩
    rw [List.getElem?_map, List.getElem?_eq_getElem hk]; rfl
  · rintro ⟨h1, h2⟩
    refine ⟨h1, fun k w h3 h4 h5 => ?_⟩
    rw [List.getElem?_map, Option.map_eq_some_iff] at h5
    obtain ⟨p, hp, rfl⟩ := h5
    obtain ⟨hk, rfl⟩ := List.getElem?_eq_some_iff.1 hp
    exact h2 k hk h3 h4

theorem resample_sources_all {env : Env} (hv : env.Valid) (f : Filter)
    (hne : f.particles ≠ []) (hnn : ∀ p ∈ f.particles, 0 ≤ p.prob) (hW : 0 < (f.particles.map PF.Particle.prob).sum) :
    ∃ (anc ord : ℕ → ℕ), Sources (f.particles.map PF.Particle.prob) env.unit anc ord ∧
      ∀ noise : ℕ → State6 ℝ, ∃ f' : Filter,
      f.resample (env.sort (PF.accumulate 0 f.particles)) (env.unit * (PF.total f.particles / (f.particles.length : ℝ)))
        noise = .ok f' ∧
      f'.particles.length = f.particles.length ∧
      ∀ k (hk : k < f'.particles.length), ∃ h : anc k < f.particles.length,
        if anc k = (if k = 0 then ord 0 else anc (k - 1)) then
          f'.particles[k].state = PF.StateOps.normalize (PF.StateOps.add f.particles[anc k].state (noise k))
        else f'.particles[k].state = f.particles[anc k].state := by
  classical
  have hlen0 : 0 < f.particles.length := List.length_pos_iff.2 hne
  have htot : PF.total f.particles = (f.particles.map PF.Particle.prob).sum := by
    rw [PF.total_eq]; rfl
  have hstep : 0 < (f.particles.map PF.Particle.prob).sum / (f.particles.length : ℝ) := by positivity
  obtain ⟨anc, ord, hso, hall, hmono, hcount, hzero⟩ := PF.C17_sources f
    (env.sort (PF.accumulate 0 f.particles)) (env.unit * (PF.total f.particles / (f.particles.length : ℝ))) hne hnn
    (hv.sort _) (by rw [htot]; exact mul_nonneg hv.unit.1 hstep.le) (by rw [htot]; nlinarith [hv.unit.2])
  have hcop : ∀ j, copies (f.particles.map PF.Particle.prob) anc f.particles.length j =
      (List.range f.particles.length).countP fun k => decide (PF.Family f.particles j (anc k)) := by
    intro j
    unfold copies
    apply List.countP_congr
    intro k _
    simp only [decide_eq_true_eq, kin_iff]
  obtain ⟨f0, _, hl0, hslot0⟩ := hall fun _ => State6.default
  refine ⟨anc, ord, ⟨?_, ?_, ?_, ?_, ?_, ?_, ?_⟩, ?_⟩
  · intro c hc; rw [List.length_map] at hc ⊢; exact hso.lt c hc
  · intro c hc d hd; rw [List.length_map] at hc hd; exact hso.inj c hc d hd
  · intro c d hcd hd; rw [List.length_map] at hd; exact hso.ordered c d hcd hd
  · intro k hk; rw [List.length_map] at hk ⊢; exact (hslot0 k (by omega)).1
  · intro k l hkl hl' c hc d hd; rw [List.length_map] at hl' hc hd; exact hmono k l hkl hl' c hc d hd
  · intro j w hj hw
    rw [List.getElem?_map, Option.map_eq_some_iff] at hj
    obtain ⟨p, hp, rfl⟩ := hj
    obtain ⟨hj, rfl⟩ := List.getElem?_eq_some_iff.1 hp
    rw [List.length_map, hcop]
    obtain ⟨h1, h2⟩ := hcount j hj hw
    exact ⟨fun hu => h1 (by rw [htot]; exact mul_pos hu hstep), h2⟩
  · intro k hk h0
    rw [List.length_map] at hk
    rw [List.getElem?_map, Option.map_eq_some_iff] at h0
    obtain ⟨p, hp, hp0⟩ := h0
    obtain ⟨hj, rfl⟩ := List.getElem?_eq_some_iff.1 hp
    rcases hzero k hk hj hp0 with ⟨h1, h2⟩ | ⟨j, hj', c, d, hcd, hd, hpos, hlt, hfam, e1, e2⟩
    · left
      refine ⟨?_, fun i w hi hiw => ?_⟩
      · rw [htot] at h1
        rcases mul_eq_zero.1 h1 with h | h
        · exact h
        · exact absurd h hstep.ne'
      · rw [List.getElem?_map, Option.map_eq_some_iff] at hiw
        obtain ⟨q, hq, rfl⟩ := hiw
        obtain ⟨hi', rfl⟩ := List.getElem?_eq_some_iff.1 hq
        exact h2 i hi' hi
    · right
      exact ⟨j, _, c, d, by rw [List.getElem?_map, List.getElem?_eq_getElem hj']; rfl, hpos, hlt, (kin_iff _ _ _).2 hfam,
        hcd, by rw [List.length_map]; exact hd, e1, e2⟩
  · intro noise
    obtain ⟨f', hf, hl, hslot⟩ := hall noise
    refine ⟨f', hf, hl, fun k hk => ?_⟩
    obtain ⟨h1, _, h2⟩ := hslot k hk
    exact ⟨h1, h2⟩

theorem resample_sources {env : Env} (hv : env.Valid) (f : Filter) (noise : ℕ → State6 ℝ)
    (hne : f.particles ≠ []) (hnn : ∀ p ∈ f.particles, 0 ≤ p.prob) (hW : 0 < (f.particles.map PF.Particle.prob).sum) :
    ∃ (f' : Filter) (anc ord : ℕ → ℕ),
      f.resample (env.sort (PF.accumulate 0 f.particles)) (env.unit * (PF.total f.particles / (f.particles.length : ℝ)))
        noise = .ok f' ∧
      f'.particles.length = f.particles.length ∧ Sources (f.particles.map PF.Particle.prob) env.unit anc ord ∧
      ∀ k (hk : k < f'.particles.length), ∃ h : anc k < f.particles.length,
        if anc k = (if k = 0 then ord 0 else anc (k - 1)) then
          f'.particles[k].state = PF.StateOps.normalize (PF.StateOps.add f.particles[anc k].state (noise k))
        else f'.particles[k].state = f.particles[anc k].state := by
  obtain ⟨anc, ord, h1, h2⟩ := resample_sources_all hv f hne hnn hW
  obtain ⟨f', h3, h4, h5⟩ := h2 noise
  exact ⟨f', anc, ord, h3, h4, h1, h5⟩

/-- If all weights are positive, the sort changes nothing, the sources are in order, and each slot itself has as many
copies as its weight demands up to rounding. -/
theorem Sources.of_positive {weights : List ℝ} {unit : ℝ} {anc ord : ℕ → ℕ} (h : Sources weights unit anc ord)
    (hpos : ∀ w ∈ weights, 0 < w) :
    (∀ c < weights.length, ord c = c) ∧ (∀ k l, k ≤ l → l < weights.length → anc k ≤ anc l) ∧
    ∀ j w, weights[j]? = some w → 0 < unit →
      ⌊(weights.length : ℝ) * w / weights.sum⌋ ≤ ((List.range weights.length).countP fun k => decide (anc k = j) : ℕ) ∧
      (((List.range weights.length).countP fun k => decide (anc k = j) : ℕ) : ℤ) ≤
        ⌈(weights.length : ℝ) * w / weights.sum⌉ := by
  classical
  have hsum : ∀ i j, i < j → j ≤ weights.length → (weights.take i).sum < (weights.take j).sum := by
    intro i j hij
    induction j, hij using Nat.le_induction with
    | base =>
      intro hj
      rw [List.take_succ_eq_append_getElem (by omega), List.sum_append]
      have := hpos _ (List.getElem_mem (show i < weights.length by omega))
      simpa using this
    | succ j hij ih =>
      intro hj
      refine (ih (by omega)).trans ?_
      rw [List.take_succ_eq_append_getElem (by omega), List.sum_append]
      have := hpos _ (List.getElem_mem (show j < weights.length by omega))
      simpa using this
  have hmono : ∀ c d, c < d → d < weights.length → ord c < ord d := by
    intro c d hcd hd
    have h1 := h.sorted c d hcd hd
    have h2 := h.lt c (by omega)
    have h3 : ord c ≠ ord d := fun e => by have := h.inj c (by omega) d hd e; omega
    by_contra h4
    have := hsum (ord d + 1) (ord c + 1) (by omega) (by omega)
    linarith
  have hlow : ∀ c < weights.length, c ≤ ord c := by
    intro c
    induction c with
    | zero => intro _; omega
    | succ c ih =>
      intro hc
      have := ih (by omega)
      have := hmono c (c + 1) (by omega) hc
      omega
  have hhigh : ∀ d, ∀ c, c + d + 1 = weights.length → ord c ≤ c := by
    intro d
    induction d with
    | zero => intro c hc; have := h.lt c (by omega); omega
    | succ d ih =>
      intro c hc
      have := ih (c + 1) (by omega)
      have := hmono c (c + 1) (by omega) (by omega)
      omega
  have hord : ∀ c < weights.length, ord c = c := fun c hc =>
    le_antisymm (hhigh (weights.length - c - 1) c (by omega)) (hlow c hc)
  refine ⟨hord, ?_, ?_⟩
  · intro k l hkl hl
    have hk := h.source k (by omega)
    have hl' := h.source l hl
    exact h.order k l hkl hl _ hk _ hl' (hord _ hk) (hord _ hl')
  · intro j w hj hu
    have hw := hpos w (List.mem_of_getElem? hj)
    obtain ⟨hjl, -⟩ := List.getElem?_eq_some_iff.1 hj
    have := (h.count j w hj hw).1 hu
    have e : copies weights anc weights.length j =
        (List.range weights.length).countP fun k => decide (anc k = j) := by
      unfold copies
      apply List.countP_congr
      intro k hk
      rw [List.mem_range] at hk
      simp only [decide_eq_true_eq]
      constructor
      · rintro ⟨h1, h2⟩
        by_contra hne
        have hs := h.source k hk
        have := h2 (anc k) _ (by omega) le_rfl (List.getElem?_eq_getElem hs)
        have := hpos _ (List.getElem_mem hs)
        linarith
      · rintro rfl
        exact ⟨le_rfl, fun i _ h1 h2 => by omega⟩
    rw [e] at this
    exact this

end Node
end Mcl3dl
