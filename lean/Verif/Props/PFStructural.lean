import Verif.Proofs.PFBasic

/-!
# Particle filter properties that hold for any arithmetic (C10, C12, C16, C21, C27)

The number type `F` has operations but no laws, so these theorems hold in particular for IEEE
floating point with rounding, NaN and infinities.
-/

set_option linter.unusedSectionVars false

namespace Mcl3dl
namespace PF

variable {S F : Type} [StateOps S] [Zero F] [One F] [Neg F] [Add F] [Mul F] [Div F] [NatCast F]
  [LT F] [DecidableLT F]

/-- **C10**: the number of particles after any operation. -/
theorem C10_particle_count (s0 : S) (log : F → F) (f f' : Filter S F) (op : Op S F)
    (hv : op.Valid f) (h : step s0 log f op = .ok f') :
    f'.particles.length = match op with
      | .resize n _ _ => n
      | .append n _ => f.particles.length + n
      | _ => f.particles.length := by
  cases op with
  | init n => simp only [step, Outcome.ok.injEq] at h; subst h; simp [Filter.init]
  | resample d u n =>
    obtain ⟨g, e, -, hl, -⟩ := resample_spec f d u n hv
    simp only [step, e, Outcome.ok.injEq] at h; subst h; exact hl
  | noise n => simp only [step, Outcome.ok.injEq] at h; subst h; simp [Filter.noise]
  | predict m => simp only [step, Outcome.ok.injEq] at h; subst h; simp [Filter.predict]
  | bias b => simp only [step, Outcome.ok.injEq] at h; subst h; simp [Filter.bias]
  | measure l =>
    simp only [step, Outcome.ok.injEq] at h; subst h
    simp only [Filter.measure]; split <;> simp [weigh]
  | expectation r sorted =>
    simp only [step, Outcome.ok.injEq] at h; subst h
    simp only; split
    · exact hv.1.length_eq
    · rfl
  | covariance => simp only [step, Outcome.ok.injEq] at h; subst h; rfl
  | resize n junk d =>
    by_cases he : f.particles = [] ∧ 0 < n
    · have hd : d = [] := by
        have := hv.length_eq; rw [accumulate_length, he.1] at this
        exact List.length_eq_zero_iff.mp this
      have hub := resize_empty_ub s0 junk f n he.1 he.2
      subst hd
      simp only [step] at h
      rw [h] at hub; simp [Outcome.isUb] at hub
    · obtain ⟨g, e, -, hl, -⟩ := resize_spec s0 junk f n d hv (by
        by_cases h1 : f.particles = []
        · right; simp [h1] at he; exact he
        · left; exact h1)
      simp only [step, e, Outcome.ok.injEq] at h; subst h; exact hl
  | append n junk => simp only [step, Outcome.ok.injEq] at h; subst h; simp [Filter.append]

omit [StateOps S] [NatCast F] in
/-- **C12**: if the total of weight times likelihood is not greater than zero — also when the
comparison is false because the total is not a number — `measure` changes nothing at all. -/
theorem C12_measure_all_or_nothing (log : F → F) (f : Filter S F) (lik : S → F)
    (h : ¬ 0 < f.particles.foldl (fun a p => a + p.prob * lik p.state) 0) :
    f.measure log lik = f := by
  have : total (weigh lik f.particles) =
      f.particles.foldl (fun a p => a + p.prob * lik p.state) 0 := by
    unfold total weigh; rw [List.foldl_map]
  rw [Filter.measure, this]
  simp only [h, if_false]

omit [Neg F] in
/-- **C16**: resampling is defined, keeps the number of particles, gives every particle the weight
`1/N`, and every new state is an old state or an old state plus one noise sample, normalized. -/
theorem C16_resample_invents_nothing (f : Filter S F) (dup : List (Particle S F)) (u : F)
    (noise : Nat → S) (hs : IsSorted (accumulate 0 f.particles) dup) :
    ∃ f', f.resample dup u noise = .ok f' ∧
      f'.particles.length = f.particles.length ∧
      ∀ p' ∈ f'.particles, p'.prob = 1 / (f.particles.length : F) ∧
        ∃ q ∈ f.particles, p'.state = q.state ∨
          ∃ k, p'.state = StateOps.normalize (StateOps.add q.state (noise k)) := by
  obtain ⟨f', e, -, hl, -, h⟩ := resample_spec f dup u noise hs
  exact ⟨f', e, hl, h⟩

/-- **C21**: in a filter with at least one particle every operation is defined, as are
`max` and `maxBiased`, and the filter stays non-empty unless it is resized to 0. (For empty filters see
`C21_defined_iff`.) -/
theorem C21_defined (s0 : S) (log : F → F) (f : Filter S F) (op : Op S F)
    (hv : op.Valid f) (hne : f.particles ≠ []) :
    (∃ s, f.max = .ok s) ∧ (∃ s, f.maxBiased = .ok s) ∧
    ∃ f', step s0 log f op = .ok f' ∧
      (f'.particles = [] → ∃ junk d, op = .resize 0 junk d) := by
  refine ⟨?_, ?_, ?_⟩
  · obtain ⟨p, ps, h⟩ := List.exists_cons_of_ne_nil hne
    simp [Filter.max, h]
  · obtain ⟨p, ps, h⟩ := List.exists_cons_of_ne_nil hne
    simp [Filter.maxBiased, h]
  · have hok : ∃ f', step s0 log f op = .ok f' := by
      cases op with
      | resample d u n => obtain ⟨g, e, -⟩ := resample_spec f d u n hv; exact ⟨g, e⟩
      | resize n junk d =>
        obtain ⟨g, e, -⟩ := resize_spec s0 junk f n d hv (Or.inl hne); exact ⟨g, e⟩
      | _ => exact ⟨_, rfl⟩
    obtain ⟨f', h⟩ := hok
    refine ⟨f', h, fun h0 => ?_⟩
    have hl := C10_particle_count s0 log f f' op hv h
    rw [h0] at hl
    have hpos := List.length_pos_iff.mpr hne
    cases op with
    | resize n junk d => simp only [List.length_nil] at hl; subst hl; exact ⟨junk, d, rfl⟩
    | _ => simp only [List.length_nil] at hl; omega

/-- **C21**: empty filters are reachable: `resizeParticle(0)` is accepted (the resize service passes the
requested size through, mcl_3dl.cpp:1019-1025) and leaves an empty filter, in which `max`,
`maxBiased` and growing again are undefined. -/
theorem C21_empty_undefined (s0 : S) (log : F → F) (f : Filter S F) (junk : Nat → F) :
    ∃ f', step s0 log f (.resize 0 junk (accumulate 0 f.particles)) = .ok f' ∧
      f'.max.isUb = true ∧ f'.maxBiased.isUb = true ∧
      (step s0 log f' (.resize 1 junk [])).isUb = true := by
  refine ⟨{ f with particles := [] }, ?_, rfl, rfl, ?_⟩
  · simp [step, Filter.resize, vectorResize, resizeLoop]
  · exact resize_empty_ub s0 junk ⟨[], f.entropy⟩ 1 rfl (by omega)

/-- **C21**, exactly: `max` and `maxBiased` are defined exactly in filters with a particle; any other operation is
defined unless it resizes an empty filter to a positive size, which is undefined. -/
theorem C21_defined_iff (s0 : S) (log : F → F) (f : Filter S F) (op : Op S F) (hv : op.Valid f) :
    (f.max.isOk = true ↔ f.particles ≠ []) ∧ (f.maxBiased.isOk = true ↔ f.particles ≠ []) ∧
    ((step s0 log f op).isOk = true ↔ ¬ (f.particles = [] ∧ ∃ n junk d, 0 < n ∧ op = .resize n junk d)) := by
  rcases f with ⟨ps, e⟩
  cases ps with
  | cons p ps =>
    refine ⟨by simp [Filter.max, Outcome.isOk], by simp [Filter.maxBiased, Outcome.isOk], ?_⟩
    obtain ⟨-, -, f', h, -⟩ := C21_defined s0 log ⟨p :: ps, e⟩ op hv (by simp)
    rw [h]
    simp [Outcome.isOk]
  | nil =>
    refine ⟨by simp [Filter.max, Outcome.isOk], by simp [Filter.maxBiased, Outcome.isOk], ?_⟩
    cases op with
    | resample d u n =>
      obtain ⟨g, e', -⟩ := resample_spec (⟨[], e⟩ : Filter S F) d u n hv
      simp [step, e', Outcome.isOk]
    | resize n junk d =>
      have hd : d = [] := by
        have := hv.length_eq
        exact List.length_eq_zero_iff.mp (by simpa [accumulate] using this)
      subst hd
      rcases Nat.eq_zero_or_pos n with h0 | h0
      · subst h0
        obtain ⟨g, e', -⟩ := resize_spec s0 junk (⟨[], e⟩ : Filter S F) 0 [] hv (Or.inr rfl)
        simp [step, e', Outcome.isOk]
      · have hub := resize_empty_ub s0 junk (⟨[], e⟩ : Filter S F) n rfl h0
        have : (step s0 log (⟨[], e⟩ : Filter S F) (.resize n junk [])).isOk = false := by
          simp only [step]
          cases hr : (⟨[], e⟩ : Filter S F).resize s0 junk n [] with
          | ok a => rw [hr] at hub; simp [Outcome.isUb] at hub
          | throws m => rfl
          | ub m => rfl
        rw [this]
        exact iff_of_false Bool.false_ne_true (fun h => h ⟨rfl, n, junk, [], h0, rfl⟩)
    | _ => simp [step, Outcome.isOk]

omit [StateOps S] [One F] [Neg F] [Add F] [Mul F] [Div F] [NatCast F] [LT F] [DecidableLT F] in
/-- **C27, first half**: `appendParticle(n)` keeps the existing particles as they are and adds `n`
particles of weight 0 and bias 0. (For the weighted mean see `C27_append_keeps_mean`.) -/
theorem C27_append_inert (s0 : S) (junk : Nat → F) (f : Filter S F) (n : Nat) :
    ∃ new, (f.append s0 junk n).particles = f.particles ++ new ∧ new.length = n ∧
      ∀ p ∈ new, p.prob = 0 ∧ p.bias = 0 ∧ p.state = s0 := by
  refine ⟨_, rfl, by simp, ?_⟩
  intro p hp
  simp only [List.mem_map] at hp
  obtain ⟨i, -, rfl⟩ := hp
  exact ⟨rfl, rfl, rfl⟩

/-! ## Non-vacuity -/

instance : StateOps Nat := ⟨fun a b => a + b, id⟩

/-- A filter over `Int` weights with three particles; its accumulated list is a legal sort, so
`Op.Valid` and the hypotheses of C16/C21 are met. -/
def demo : Filter Nat Int := ⟨[⟨10, 2, 1, 0⟩, ⟨11, 3, 1, 0⟩, ⟨12, 5, 1, 0⟩], none⟩

example : (Op.resample (accumulate 0 demo.particles) 1 (fun i => 100 + i)).Valid demo ∧
    demo.particles ≠ [] := by
  refine ⟨⟨List.Perm.refl _, ?_⟩, by simp [demo]⟩
  simp [demo, accumulate]

/-- C12's hypothesis is met by a likelihood that is zero everywhere. -/
example : ¬ (0 : Int) < demo.particles.foldl (fun a p => a + p.prob * (fun _ => 0) p.state) 0 := by
  decide

end PF
end Mcl3dl
