import Verif.Props.PFFamilies
import Mathlib.Data.List.Perm.Basic

/-!
# C17, C18, C20 in terms of the slots the new particles come from

The theorems of `PFFamilies` count states by a tag.  Here the states may be equal and the noise arbitrary: the result
says from which slot each new particle was copied.  The proof runs the same resampling on particles whose state
carries the number of their slot (`numbered`), which is possible because the filter never looks into the states.
-/

set_option linter.unusedSectionVars false

namespace Mcl3dl
namespace PF

variable {S K : Type} [Field K] [LinearOrder K] [IsStrictOrderedRing K] [FloorRing K]

/-- Replace the state of a particle. -/
def Particle.withState {S S' F : Type} (g : S → S') (p : Particle S F) : Particle S' F :=
  ⟨g p.state, p.prob, p.bias, p.accum⟩

/-- The particles, each with the number of its slot in its state. -/
def numbered (ps : List (Particle S K)) : List (Particle (S × ℕ) K) :=
  ps.mapIdx fun i p => p.withState fun s => (s, i)

/-- Numbered states: the operations act on the state and keep the number. -/
@[instance_reducible] def numberedOps (S : Type) [StateOps S] : StateOps (S × ℕ) :=
  ⟨fun a b => (StateOps.add a.1 b.1, a.2), fun a => (StateOps.normalize a.1, a.2)⟩

theorem numbered_length (ps : List (Particle S K)) : (numbered ps).length = ps.length := by simp [numbered]

theorem numbered_getElem (ps : List (Particle S K)) (i : ℕ) (hi : i < ps.length) :
    (numbered ps)[i]'(by rw [numbered_length]; exact hi) = ps[i].withState fun s => (s, i) := by
  simp [numbered]

theorem numbered_forget (ps : List (Particle S K)) : (numbered ps).map (Particle.withState Prod.fst) = ps := by
  apply List.ext_getElem
  · simp [numbered]
  · intro i h1 h2
    simp [numbered, Particle.withState]

theorem numbered_prob (ps : List (Particle S K)) : (numbered ps).map Particle.prob = ps.map Particle.prob := by
  apply List.ext_getElem
  · simp [numbered]
  · intro i h1 h2
    simp [numbered, Particle.withState]

theorem accumulate_withState {S' : Type} (g : S → S') (a : K) (ps : List (Particle S K)) :
    (accumulate a ps).map (Particle.withState g) = accumulate a (ps.map (Particle.withState g)) := by
  induction ps generalizing a with
  | nil => rfl
  | cons p ps ih => simp [accumulate, Particle.withState, ih]

/-- A sort of the particles is a sort of the numbered particles. -/
theorem exists_numbered_sort (ps dup : List (Particle S K)) (hs : IsSorted (accumulate 0 ps) dup) :
    ∃ dup' : List (Particle (S × ℕ) K), dup'.map (Particle.withState Prod.fst) = dup ∧
      IsSorted (accumulate 0 (numbered ps)) dup' := by
  have h1 : dup.Perm ((accumulate 0 (numbered ps)).map (Particle.withState Prod.fst)) := by
    rw [accumulate_withState, numbered_forget]; exact hs.1
  have h2 : (List.Forall₂ (fun (a : Particle S K) (b : Particle (S × ℕ) K) => a = b.withState Prod.fst))
      ((accumulate 0 (numbered ps)).map (Particle.withState Prod.fst)) (accumulate 0 (numbered ps)) := by
    rw [List.forall₂_map_left_iff]
    exact List.forall₂_same.2 fun _ _ => rfl
  obtain ⟨dup', h3, h4⟩ := List.perm_comp_forall₂ h1 h2
  have h5 : dup'.map (Particle.withState Prod.fst) = dup := by
    have := h3
    rw [← List.forall₂_eq_eq_eq, List.forall₂_map_left_iff]
    exact h3.flip.imp fun _ _ h => h.symm
  refine ⟨dup', h5, h4, ?_⟩
  have := hs.2
  rw [← h5, List.pairwise_map] at this
  exact this

theorem numbered_weightSum (ps : List (Particle S K)) : weightSum (numbered ps) = weightSum ps := by
  unfold weightSum; rw [numbered_prob]

theorem numbered_mem {ps : List (Particle S K)} {p : Particle (S × ℕ) K} (hp : p ∈ numbered ps) :
    ∃ q ∈ ps, p.prob = q.prob := by
  obtain ⟨i, hi, rfl⟩ := List.getElem_of_mem hp
  rw [numbered_length] at hi
  rw [numbered_getElem ps i hi]
  exact ⟨_, List.getElem_mem hi, rfl⟩

theorem numbered_tags (ps : List (Particle S K)) : TagsDiffer (Prod.snd : S × ℕ → ℕ) (numbered ps) := by
  intro i k hi hk h
  rw [numbered_length] at hi hk
  rw [numbered_getElem ps i hi, numbered_getElem ps k hk] at h
  exact h

theorem numbered_family (ps : List (Particle S K)) (j i : ℕ) : Family (numbered ps) j i ↔ Family ps j i := by
  unfold Family
  constructor
  · rintro ⟨h1, h2⟩
    refine ⟨h1, fun k hk h3 h4 => ?_⟩
    have := h2 k (by rw [numbered_length]; exact hk) h3 h4
    rw [numbered_getElem ps k hk] at this
    exact this
  · rintro ⟨h1, h2⟩
    refine ⟨h1, fun k hk h3 h4 => ?_⟩
    rw [numbered_length] at hk
    rw [numbered_getElem ps k hk]
    exact h2 k hk h3 h4

theorem descendants_numbered {ps : List (Particle S K)} (f' : Filter (S × ℕ) K) (src : ℕ → ℕ) (N j : ℕ)
    (hlt : ∀ k < N, src k < ps.length)
    (h : f'.particles.map (fun p => p.state.2) = (List.range N).map src) :
    open Classical in
    descendants (Prod.snd : S × ℕ → ℕ) (numbered ps) (Family (numbered ps) j) f' =
      (List.range N).countP fun k => decide (Family ps j (src k)) := by
  classical
  unfold descendants
  have h2 : (f'.particles.map Particle.state).countP (fun s => decide (∃ (i : Nat) (h : i < (numbered ps).length),
      Family (numbered ps) j i ∧ s.2 = (numbered ps)[i].state.2)) =
      (f'.particles.map fun p => p.state.2).countP (fun n => decide (∃ (i : Nat) (h : i < (numbered ps).length),
      Family (numbered ps) j i ∧ n = (numbered ps)[i].state.2)) := by
    rw [List.countP_map, List.countP_map]; rfl
  rw [h2, h, countP_map_range]
  apply List.countP_congr
  intro k hk
  rw [List.mem_range] at hk
  simp only [decide_eq_true_eq]
  constructor
  · rintro ⟨i, hi, hf, e⟩
    rw [numbered_length] at hi
    rw [numbered_getElem ps i hi] at e
    rw [numbered_family] at hf
    simp only [Particle.withState] at e
    rw [e]; exact hf
  · intro hf
    refine ⟨src k, by rw [numbered_length]; exact hlt k hk, (numbered_family ps j _).2 hf, ?_⟩
    rw [numbered_getElem ps _ (hlt k hk)]; rfl

/-- Which slot each place of the sorted copy holds. -/
structure SortOrder (ps dup : List (Particle S K)) (σ : ℕ → ℕ) : Prop where
  /-- places hold slots -/
  lt : ∀ c < ps.length, σ c < ps.length
  /-- different places hold different slots -/
  inj : ∀ c < ps.length, ∀ d < ps.length, σ c = σ d → c = d
  /-- the particle in the place is the one of the slot -/
  holds : ∀ c (hc : c < dup.length), ∃ h : σ c < ps.length,
    dup[c].state = ps[σ c].state ∧ dup[c].prob = ps[σ c].prob ∧ dup[c].bias = ps[σ c].bias
  /-- the cumulative weights are in order -/
  ordered : ∀ c d, c < d → d < ps.length →
    ((ps.map Particle.prob).take (σ c + 1)).sum ≤ ((ps.map Particle.prob).take (σ d + 1)).sum

theorem sortOrder_numbered (ps dup : List (Particle S K)) (dup' : List (Particle (S × ℕ) K))
    (h : dup'.map (Particle.withState Prod.fst) = dup) (hs : IsSorted (accumulate 0 (numbered ps)) dup') (s0 : S) :
    SortOrder ps dup (fun c => (((dup'[c]?).map Particle.state).getD (s0, 0)).2) := by
  have hl : dup'.length = ps.length := by rw [hs.1.length_eq, accumulate_length, numbered_length]
  have hl' : dup.length = ps.length := by rw [← h]; simpa using hl
  have hsrc : ∀ c (hc : c < dup'.length), ∃ hi : dup'[c].state.2 < ps.length,
      dup'[c].state.1 = ps[dup'[c].state.2].state ∧ dup'[c].prob = ps[dup'[c].state.2].prob ∧
      dup'[c].bias = ps[dup'[c].state.2].bias := by
    intro c hc
    have hm : dup'[c] ∈ accumulate 0 (numbered ps) := hs.1.mem_iff.mp (List.getElem_mem _)
    obtain ⟨i, hi, e⟩ := List.getElem_of_mem hm
    rw [accumulate_length, numbered_length] at hi
    rw [accumulate_getElem 0 (numbered ps) i (by rw [numbered_length]; exact hi), numbered_getElem ps i hi] at e
    rw [← e]
    exact ⟨hi, rfl, rfl, rfl⟩
  have hnd : (dup'.map fun p => p.state.2).Nodup := by
    have hp : (dup'.map fun p => p.state.2).Perm (List.range ps.length) := by
      refine (hs.1.map _).trans (List.Perm.of_eq ?_)
      apply List.ext_getElem
      · simp [accumulate_length, numbered_length]
      · intro i h1 h2
        simp only [List.length_map, accumulate_length, numbered_length] at h1
        simp only [List.getElem_map, List.getElem_range]
        rw [accumulate_getElem 0 (numbered ps) i (by rw [numbered_length]; exact h1), numbered_getElem ps i h1]
        rfl
    exact hp.nodup_iff.2 List.nodup_range
  have hval : ∀ c (hc : c < dup'.length), (((dup'[c]?).map Particle.state).getD (s0, 0)).2 = dup'[c].state.2 := by
    intro c hc
    rw [List.getElem?_eq_getElem hc]; rfl
  constructor
  · intro c hc
    rw [hval c (by omega)]
    exact (hsrc c (by omega)).1
  · intro c hc d hd e
    rw [hval c (by omega), hval d (by omega)] at e
    have := (List.nodup_iff_injective_getElem.1 hnd) (a₁ := ⟨c, by simpa using by omega⟩) (a₂ := ⟨d, by simpa using by omega⟩)
      (by simpa using e)
    simpa using this
  · intro c hc
    have hc' : c < dup'.length := by omega
    have e := hval c hc'
    obtain ⟨h1, h2, h3, h4⟩ := hsrc c hc'
    have hd : dup[c] = dup'[c].withState Prod.fst := by
      subst h; simp
    simp only [e]
    refine ⟨h1, ?_⟩
    rw [hd]
    exact ⟨h2, h3, h4⟩
  · intro c d hcd hd
    rw [hval c (by omega), hval d (by omega)]
    have hacc : ∀ c (hc : c < dup'.length), dup'[c].accum = ((ps.map Particle.prob).take (dup'[c].state.2 + 1)).sum := by
      intro c hc
      have hm : dup'[c] ∈ accumulate 0 (numbered ps) := hs.1.mem_iff.mp (List.getElem_mem _)
      obtain ⟨i, hi, e⟩ := List.getElem_of_mem hm
      rw [accumulate_length, numbered_length] at hi
      rw [accumulate_getElem 0 (numbered ps) i (by rw [numbered_length]; exact hi), numbered_getElem ps i hi] at e
      rw [← e]
      simp only [zero_add, Particle.withState, pre, weightSum]
      rw [List.map_take, numbered_prob]
    rw [← hacc c (by omega), ← hacc d (by omega)]
    exact not_lt.1 (List.pairwise_iff_getElem.mp hs.2 c d (by omega) (by omega) hcd)

/-- **C17, C18, C19** in terms of slots, for arbitrary states and noise: there is an assignment `src` of old slots to
new slots and an order `σ` of the slots in the sorted copy such that each new particle is the particle of slot
`src k`, with noise exactly if that is the source of the new particle before it (for the first: the slot sorted first);
the sources are in the order of the sorted copy; the numbers of copies of the families obey the bounds of C17; and a slot
of weight 0 is a source only in the cases of C18.  The sources do not depend on the noise. -/
theorem C17_sources [StateOps S] (f : Filter S K) (dup : List (Particle S K)) (u : K)
    (hne : f.particles ≠ []) (hnn : ∀ p ∈ f.particles, 0 ≤ p.prob)
    (hsort : IsSorted (accumulate 0 f.particles) dup)
    (hu0 : 0 ≤ u) (hu1 : u < (f.particles.map Particle.prob).sum / (f.particles.length : K)) :
    open Classical in
    ∃ (src σ : ℕ → ℕ), SortOrder f.particles dup σ ∧
      (∀ noise : Nat → S, ∃ f' : Filter S K, f.resample dup u noise = .ok f' ∧
        f'.particles.length = f.particles.length ∧
        ∀ k (hk : k < f'.particles.length), ∃ h : src k < f.particles.length,
          f'.particles[k].prob = 1 / (f.particles.length : K) ∧
          if src k = (if k = 0 then σ 0 else src (k - 1)) then
            f'.particles[k].state = StateOps.normalize (StateOps.add f.particles[src k].state (noise k))
          else f'.particles[k].state = f.particles[src k].state) ∧
      (∀ k l, k ≤ l → l < f.particles.length → ∀ c < f.particles.length, ∀ d < f.particles.length,
        σ c = src k → σ d = src l → c ≤ d) ∧
      (∀ j (hj : j < f.particles.length), 0 < f.particles[j].prob →
        (0 < u →
          ⌊(f.particles.length : K) * f.particles[j].prob / (f.particles.map Particle.prob).sum⌋ ≤
            (((List.range f.particles.length).countP fun k => decide (Family f.particles j (src k)) : ℕ) : ℤ) ∧
          (((List.range f.particles.length).countP fun k => decide (Family f.particles j (src k)) : ℕ) : ℤ) ≤
            ⌈(f.particles.length : K) * f.particles[j].prob / (f.particles.map Particle.prob).sum⌉) ∧
        |(((List.range f.particles.length).countP fun k => decide (Family f.particles j (src k)) : ℕ) : K) -
          (f.particles.length : K) * f.particles[j].prob / (f.particles.map Particle.prob).sum| ≤ 1) ∧
      (∀ k < f.particles.length, ∀ h : src k < f.particles.length, f.particles[src k].prob = 0 →
        (u = 0 ∧ ∀ i (hi : i < f.particles.length), i ≤ src k → f.particles[i].prob = 0) ∨
        ∃ (j : ℕ) (hj : j < f.particles.length) (c d : ℕ), c < d ∧ d < f.particles.length ∧
          0 < f.particles[j].prob ∧ j < src k ∧ Family f.particles j (src k) ∧ σ c = src k ∧ σ d = j) := by
  classical
  let _inst := numberedOps S
  obtain ⟨p0, -⟩ := List.exists_mem_of_ne_nil _ hne
  obtain ⟨dup', hdup, hs'⟩ := exists_numbered_sort f.particles dup hsort
  have hW : 0 ≤ weightSum f.particles := by
    have := pre_mono f.particles hnn (Nat.zero_le f.particles.length)
    rwa [pre_zero, pre_length] at this
  set g : Filter (S × ℕ) K := ⟨numbered f.particles, none⟩ with hg
  have hgp : g.particles = numbered f.particles := rfl
  have hgl : g.particles.length = f.particles.length := numbered_length _
  have hgne : g.particles ≠ [] := by
    intro h; apply hne; rw [← List.length_eq_zero_iff, ← hgl, h]; rfl
  have hgnn : ∀ p ∈ g.particles, 0 ≤ p.prob := by
    intro p hp
    obtain ⟨q, hq, e⟩ := numbered_mem hp
    rw [e]; exact hnn q hq
  have hgu : u < (g.particles.map Particle.prob).sum / (g.particles.length : K) := by
    rw [hgl, hgp, numbered_prob]; exact hu1
  have hgW : 0 ≤ weightSum g.particles := by rw [hgp, numbered_weightSum]; exact hW
  have hsp : ∀ i, scanPos g.particles u i = scanPos f.particles u i := by
    intro i; unfold scanPos; rw [hgl, hgp, numbered_weightSum]
  have hcut : ∀ v, cut dup' v = cut dup v := by
    intro v
    unfold cut
    rw [← hdup, List.takeWhile_map, List.length_map]
    rfl
  set noise' : ℕ → S × ℕ := fun _ => (p0.state, 0) with hnoise'
  have hlt := (resample_closed f dup u (fun _ => p0.state) p0.state hne hW hu1 hsort).1
  obtain ⟨hlt', g', e', hst'⟩ := resample_closed g dup' u noise' (p0.state, 0) hgne hgW hgu hs'
  have htag : ∀ (s n : S × ℕ), (StateOps.normalize (StateOps.add s n)).2 = s.2 := fun _ _ => rfl
  set σ : ℕ → ℕ := fun c => (((dup'[c]?).map Particle.state).getD (p0.state, 0)).2 with hσ
  have hso : SortOrder f.particles dup σ := sortOrder_numbered _ _ _ hdup hs' _
  set src : ℕ → ℕ := fun k => σ (cut dup (scanPos f.particles u k)) with hsrc
  have hdl : dup.length = f.particles.length := by rw [hsort.1.length_eq, accumulate_length]
  have hsrclt : ∀ k < f.particles.length, src k < f.particles.length := by
    intro k hk
    exact hso.lt _ (by rw [← hdl]; exact hlt k hk)
  have hg'tags : g'.particles.map (fun p => p.state.2) = (List.range f.particles.length).map src := by
    have h1 : g'.particles.map (fun p => p.state.2) = (g'.particles.map Particle.state).map Prod.snd := by simp
    rw [h1, hst', hgl, List.map_map]
    apply List.map_congr_left
    intro k hk
    rw [List.mem_range] at hk
    have hc := hlt' k (by rw [hgl]; exact hk)
    rw [Function.comp, tag_resampledState Prod.snd htag _ _ _ _ _ _ hc]
    simp only [hsrc, hσ]
    rw [← hcut, ← hsp, List.getElem?_eq_getElem hc]; rfl
  have hcN : ∀ k < f.particles.length, cut dup (scanPos f.particles u k) < f.particles.length := by
    intro k hk; rw [← hdl]; exact hlt k hk
  refine ⟨src, σ, hso, ?_, ?_, ?_, ?_⟩
  · intro noise
    obtain ⟨-, f', e, hst⟩ := resample_closed f dup u noise p0.state hne hW hu1 hsort
    have hl' : f'.particles.length = f.particles.length := by
      have := congrArg List.length hst; simpa using this
    obtain ⟨f2, e2, hps⟩ : ∃ f2, f.resample dup u noise = .ok f2 ∧
        ∀ p' ∈ f2.particles, p'.prob = 1 / (f.particles.length : K) := by
      obtain ⟨f2, e2, -, h⟩ := C16_resample_invents_nothing f dup u noise hsort
      exact ⟨f2, e2, fun p hp => (h p hp).1⟩
    rw [e] at e2
    simp only [Outcome.ok.injEq] at e2
    subst e2
    refine ⟨f', e, hl', fun k hk => ?_⟩
    have hk' : k < f.particles.length := by omega
    have hc := hlt k hk'
    obtain ⟨h1, h2, -, -⟩ := hso.holds _ hc
    refine ⟨h1, hps _ (List.getElem_mem hk), ?_⟩
    have hget : f'.particles[k].state = (f'.particles.map Particle.state)[k]'(by simpa using hk) := by simp
    rw [hget]
    simp only [hst, List.getElem_map, List.getElem_range]
    unfold resampledState
    simp only [List.getElem?_eq_getElem hc, Option.map_some, Option.getD_some]
    have h2' : dup[cut dup (scanPos f.particles u k)].state = f.particles[src k].state := h2
    have hiff : src k = (if k = 0 then σ 0 else src (k - 1)) ↔ cut dup (scanPos f.particles u k) =
        (if k = 0 then 0 else cut dup (scanPos f.particles u (k - 1))) := by
      by_cases h0 : k = 0
      · rw [if_pos h0, if_pos h0]
        exact ⟨fun h => hso.inj _ (hcN k hk') 0 (by omega) h, fun h => by simp only [hsrc]; rw [h]⟩
      · rw [if_neg h0, if_neg h0]
        exact ⟨fun h => hso.inj _ (hcN k hk') _ (hcN (k - 1) (by omega)) h, fun h => by simp only [hsrc]; rw [h]⟩
    by_cases hrep : cut dup (scanPos f.particles u k) = (if k = 0 then 0 else cut dup (scanPos f.particles u (k - 1)))
    · rw [if_pos (hiff.2 hrep), if_pos hrep]
      exact congrArg (fun s => StateOps.normalize (StateOps.add s (noise k))) h2'
    · rw [if_neg (fun h => hrep (hiff.1 h)), if_neg hrep]
      exact h2'
  · intro k l hkl hl c hc d hd h1 h2
    have e1 := hso.inj c hc _ (hcN k (by omega)) h1
    have e2 := hso.inj d hd _ (hcN l hl) h2
    rw [e1, e2]
    exact cut_mono _ (scanPos_mono _ _ hW hkl)
  · intro j hj hpos
    have hjg : j < g.particles.length := by rw [hgl]; exact hj
    have hjp : g.particles[j].prob = f.particles[j].prob := by
      simp only [hgp]; rw [numbered_getElem f.particles j hj]; rfl
    obtain ⟨g2, eg, h1, h2⟩ := C17_low_variance g dup' u noise' Prod.snd htag hgnn hs' hu0 hgu
      (numbered_tags _) j hjg (by rw [hjp]; exact hpos)
    rw [e'] at eg
    simp only [Outcome.ok.injEq] at eg
    subst eg
    have hsum : (g.particles.map Particle.prob).sum = (f.particles.map Particle.prob).sum := by
      rw [hgp, numbered_prob]
    have hdesc := descendants_numbered g' src f.particles.length j hsrclt hg'tags
    rw [hjp, hgl, hsum] at h1 h2
    simp only [hgp] at h1 h2
    rw [hdesc] at h1 h2
    exact ⟨h1, h2⟩
  · intro k hk h hz
    have hsg : src k < g.particles.length := by rw [hgl]; exact h
    have hzg : g.particles[src k].prob = 0 := by
      simp only [hgp]; rw [numbered_getElem f.particles _ h]; exact hz
    have hst2 : g.particles[src k].state.2 = src k := by
      simp only [hgp]; rw [numbered_getElem f.particles _ h]; rfl
    have hcop : copies Prod.snd (g.particles[src k].state.2) g' ≠ 0 := by
      rw [hst2]
      unfold copies
      apply Nat.pos_iff_ne_zero.1
      rw [List.countP_pos_iff]
      have hm : src k ∈ (g'.particles.map fun p => p.state.2) := by
        rw [hg'tags]; exact List.mem_map.2 ⟨k, List.mem_range.2 hk, rfl⟩
      obtain ⟨p, hp, hpe⟩ := List.mem_map.1 hm
      exact ⟨p.state, List.mem_map.2 ⟨p, hp, rfl⟩, by simpa using hpe⟩
    have hdl' : dup'.length = f.particles.length := by rw [← hdl, ← hdup, List.length_map]
    have hσv : ∀ c (hc : c < dup'.length), σ c = dup'[c].state.2 := by
      intro c hc
      simp only [hσ]
      rw [List.getElem?_eq_getElem hc]; rfl
    rcases C18_survivors g g' dup' u noise' Prod.snd htag hgnn hs' hu0 hgu (numbered_tags _) (src k) hsg hzg e' hcop with
      ⟨h1, h2⟩ | ⟨j, hj, c, d, hd, hcd, h1, h2, h3, h4, h5⟩
    · left
      refine ⟨h1, fun i hi hik => ?_⟩
      have := h2 i (by rw [hgl]; exact hi) hik
      simp only [hgp] at this
      rw [numbered_getElem f.particles i hi] at this
      exact this
    · right
      have hj' : j < f.particles.length := by rw [← hgl]; exact hj
      have hjg : g.particles[j].state.2 = j := by
        simp only [hgp]; rw [numbered_getElem f.particles j hj']; rfl
      refine ⟨j, hj', c, d, hcd, by omega, ?_, h2, (numbered_family _ _ _).1 h3, ?_, ?_⟩
      · simp only [hgp] at h1
        rw [numbered_getElem f.particles j hj'] at h1
        exact h1
      · rw [hσv c (by omega), h4, hst2]
      · rw [hσv d hd, h5, hjg]

/-- **C20** in terms of slots, for arbitrary states: `resizeParticle(n)` with `n > 0` copies for every new slot the
particle of some old slot `src k`; the numbers of copies of the families are the rounded shares of their weights, and a
slot of weight 0 is a source only if the sort has put it before the particle of positive weight preceding it. -/
theorem C20_sources [StateOps S] (f : Filter S K) (dup : List (Particle S K)) (s0 : S) (junk : Nat → K)
    (n : Nat) (hn : 0 < n) (hnn : ∀ p ∈ f.particles, 0 ≤ p.prob) (hW : 0 < (f.particles.map Particle.prob).sum)
    (hsort : IsSorted (accumulate 0 f.particles) dup) :
    open Classical in
    ∃ (f' : Filter S K) (src σ : ℕ → ℕ), f.resize s0 junk n dup = .ok f' ∧ f'.particles.length = n ∧
      SortOrder f.particles dup σ ∧
      (∀ k (hk : k < f'.particles.length), ∃ h : src k < f.particles.length,
        f'.particles[k].prob = 1 / (n : K) ∧ f'.particles[k].state = f.particles[src k].state) ∧
      (∀ j (hj : j < f.particles.length), 0 < f.particles[j].prob →
        ⌊(n : K) * f.particles[j].prob / (f.particles.map Particle.prob).sum⌋ ≤
          (((List.range n).countP fun k => decide (Family f.particles j (src k)) : ℕ) : ℤ) ∧
        (((List.range n).countP fun k => decide (Family f.particles j (src k)) : ℕ) : ℤ) ≤
          ⌈(n : K) * f.particles[j].prob / (f.particles.map Particle.prob).sum⌉) ∧
      (∀ k < n, ∀ h : src k < f.particles.length, f.particles[src k].prob = 0 →
        ∃ (j : ℕ) (hj : j < f.particles.length) (c d : ℕ), c < d ∧ d < f.particles.length ∧
          0 < f.particles[j].prob ∧ j < src k ∧ Family f.particles j (src k) ∧ σ c = src k ∧ σ d = j) := by
  classical
  let _inst := numberedOps S
  have hne : f.particles ≠ [] := by rintro h; rw [h] at hW; simp at hW
  have hW' : 0 < weightSum f.particles := hW
  obtain ⟨p0, -⟩ := List.exists_mem_of_ne_nil _ hne
  obtain ⟨dup', hdup, hs'⟩ := exists_numbered_sort f.particles dup hsort
  set g : Filter (S × ℕ) K := ⟨numbered f.particles, none⟩ with hg
  have hgp : g.particles = numbered f.particles := rfl
  have hgl : g.particles.length = f.particles.length := numbered_length _
  have hgne : g.particles ≠ [] := by
    intro h; apply hne; rw [← List.length_eq_zero_iff, ← hgl, h]; rfl
  have hgnn : ∀ p ∈ g.particles, 0 ≤ p.prob := by
    intro p hp
    obtain ⟨q, hq, e⟩ := numbered_mem hp
    rw [e]; exact hnn q hq
  have hsum : (g.particles.map Particle.prob).sum = (f.particles.map Particle.prob).sum := by
    rw [hgp, numbered_prob]
  have hgWs : weightSum g.particles = weightSum f.particles := hsum
  have hcut : ∀ v, cut dup' v = cut dup v := by
    intro v
    unfold cut
    rw [← hdup, List.takeWhile_map, List.length_map]
    rfl
  obtain ⟨hlt, f', e, hst⟩ := resize_closed f dup s0 junk n hn hne hW'.le hnn hsort
  obtain ⟨hlt', g', e', hst'⟩ := resize_closed g dup' (s0, 0) junk n hn hgne (by rw [hgWs]; exact hW'.le) hgnn hs'
  set σ : ℕ → ℕ := fun c => (((dup'[c]?).map Particle.state).getD (p0.state, 0)).2 with hσ
  have hso : SortOrder f.particles dup σ := sortOrder_numbered _ _ _ hdup hs' _
  set v : ℕ → K := fun k => weightSum f.particles / (n : K) * ((k + 1 : Nat) : K) with hv
  set src : ℕ → ℕ := fun k => σ (cut dup (v k)) with hsrc
  have hdl : dup.length = f.particles.length := by rw [hsort.1.length_eq, accumulate_length]
  have hdl' : dup'.length = f.particles.length := by rw [← hdl, ← hdup, List.length_map]
  have hsrclt : ∀ k < n, src k < f.particles.length := by
    intro k hk
    exact hso.lt _ (by rw [← hdl]; exact hlt k hk)
  have hσv : ∀ c (hc : c < dup'.length), σ c = dup'[c].state.2 := by
    intro c hc
    simp only [hσ]
    rw [List.getElem?_eq_getElem hc]; rfl
  have hg'tags : g'.particles.map (fun p => p.state.2) = (List.range n).map src := by
    have h1 : g'.particles.map (fun p => p.state.2) = (g'.particles.map Particle.state).map Prod.snd := by simp
    rw [h1, hst', List.map_map]
    apply List.map_congr_left
    intro k hk
    rw [List.mem_range] at hk
    have hc : cut dup' (v k) < dup'.length := by rw [hcut, hdl', ← hdl]; exact hlt k hk
    simp only [Function.comp, hgWs, hsrc]
    rw [← hcut, hσv _ hc]
    rw [List.getElem?_eq_getElem hc]; rfl
  obtain ⟨f2, e2, hl, hps, -⟩ := C20_resize_keeps_distribution (T := ℕ) f dup s0 junk n hn hnn hW hsort
  rw [e] at e2
  simp only [Outcome.ok.injEq] at e2
  subst e2
  obtain ⟨g2, eg, -, -, hcount⟩ := C20_resize_keeps_distribution (T := ℕ) g dup' (s0, 0) junk n hn hgnn
    (by rw [hsum]; exact hW) hs'
  rw [e'] at eg
  simp only [Outcome.ok.injEq] at eg
  subst eg
  refine ⟨f', src, σ, e, hl, hso, ?_, ?_, ?_⟩
  · intro k hk
    have hk' : k < n := by omega
    have hc := hlt k hk'
    obtain ⟨h1, h2, -, -⟩ := hso.holds _ hc
    refine ⟨h1, (hps _ (List.getElem_mem hk)).1, ?_⟩
    have hget : f'.particles[k].state = (f'.particles.map Particle.state)[k]'(by simpa using hk) := by simp
    rw [hget]
    simp only [hst, List.getElem_map, List.getElem_range, List.getElem?_eq_getElem hc, Option.map_some,
      Option.getD_some]
    exact h2
  · intro j hj hpos
    have hjg : j < g.particles.length := by rw [hgl]; exact hj
    have hjp : g.particles[j].prob = f.particles[j].prob := by
      simp only [hgp]; rw [numbered_getElem f.particles j hj]; rfl
    have h1 := (hcount Prod.snd (numbered_tags _) j hjg).1 (by rw [hjp]; exact hpos)
    rw [hjp, hsum] at h1
    have hdesc := descendants_numbered g' src n j hsrclt hg'tags
    simp only [hgp] at h1
    rw [hdesc] at h1
    exact h1
  · intro k hk h hz
    have hsg : src k < g.particles.length := by rw [hgl]; exact h
    have hzg : g.particles[src k].prob = 0 := by
      simp only [hgp]; rw [numbered_getElem f.particles _ h]; exact hz
    have hst2 : g.particles[src k].state.2 = src k := by
      simp only [hgp]; rw [numbered_getElem f.particles _ h]; rfl
    have hcop : copies Prod.snd (g.particles[src k].state.2) g' ≠ 0 := by
      rw [hst2]
      unfold copies
      apply Nat.pos_iff_ne_zero.1
      rw [List.countP_pos_iff]
      have hm : src k ∈ (g'.particles.map fun p => p.state.2) := by
        rw [hg'tags]; exact List.mem_map.2 ⟨k, List.mem_range.2 hk, rfl⟩
      obtain ⟨p, hp, hpe⟩ := List.mem_map.1 hm
      exact ⟨p.state, List.mem_map.2 ⟨p, hp, rfl⟩, by simpa using hpe⟩
    obtain ⟨j, hj, c, d, hd, hcd, h1, h2, h3, h4, h5⟩ := (hcount Prod.snd (numbered_tags _) (src k) hsg).2 hzg hcop
    have hj' : j < f.particles.length := by rw [← hgl]; exact hj
    have hjg : g.particles[j].state.2 = j := by
      simp only [hgp]; rw [numbered_getElem f.particles j hj']; rfl
    refine ⟨j, hj', c, d, hcd, by omega, ?_, h2, (numbered_family _ _ _).1 h3, ?_, ?_⟩
    · simp only [hgp] at h1
      rw [numbered_getElem f.particles j hj'] at h1
      exact h1
    · rw [hσv c (by omega), h4, hst2]
    · rw [hσv d hd, h5, hjg]

/-- The hypotheses are met by three particles in the *same* state, of which the middle one has weight 0, with a sort
that swaps the two of equal cumulative weight. -/
example (u : ℚ) (h0 : 0 ≤ u) (h1 : u < 1 / 3) :
    let ps : List (Particle Nat ℚ) := [⟨10, 1/2, 1, 0⟩, ⟨10, 0, 1, 0⟩, ⟨10, 1/2, 1, 0⟩]
    let dup : List (Particle Nat ℚ) := [⟨10, 0, 1, 1/2⟩, ⟨10, 1/2, 1, 1/2⟩, ⟨10, 1/2, 1, 1⟩]
    ps ≠ [] ∧ (∀ p ∈ ps, 0 ≤ p.prob) ∧ IsSorted (accumulate 0 ps) dup ∧ 0 ≤ u ∧
      0 < (ps.map Particle.prob).sum ∧ u < (ps.map Particle.prob).sum / (ps.length : ℚ) := by
  intro ps dup
  refine ⟨by simp [ps], by simp [ps], ⟨?_, ?_⟩, h0, by norm_num [ps], by simp [ps]; linarith⟩
  · norm_num [ps, dup, accumulate]
    exact List.Perm.swap _ _ _
  · norm_num [dup]

end PF
end Mcl3dl
