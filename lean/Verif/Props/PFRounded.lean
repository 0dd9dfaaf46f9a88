import Verif.Model.PF
import Verif.Spec.Rounded

/-! # C138: the weights with rounded arithmetic -/

set_option linter.unusedSectionVars false

namespace Mcl3dl
namespace PF

variable {S F : Type} [Zero F] [One F] [Neg F] [Add F] [Mul F] [Div F] [LT F] [DecidableLT F]

theorem one_add_bounds {u δ : ℝ} (h : |δ| ≤ u) : 1 - u ≤ 1 + δ ∧ 1 + δ ≤ 1 + u := by
  have := abs_le.1 h
  exact ⟨by linarith, by linarith⟩

omit [One F] [Neg F] [DecidableLT F] in
/-- A rounded sum of non-negative numbers from the left. -/
theorem foldl_bounds {val : F → ℝ} {u lo hi : ℝ} (R : Rounded F val u lo hi) (xs : List F) (a : F)
    (hx : ∀ x ∈ xs, 0 ≤ val x) (ha : 0 ≤ val a)
    (hhi : (val a + (xs.map val).sum) * (1 + u) ^ xs.length ≤ hi) :
    (val a + (xs.map val).sum) * (1 - u) ^ xs.length ≤ val (xs.foldl (· + ·) a) ∧
    val (xs.foldl (· + ·) a) ≤ (val a + (xs.map val).sum) * (1 + u) ^ xs.length := by
  induction xs generalizing a with
  | nil => simp
  | cons x xs ih =>
    have hu := R.unit_pos
    have hu1 := R.unit_lt
    have hxx := hx x (List.mem_cons_self ..)
    have hs : 0 ≤ (xs.map val).sum := List.sum_nonneg (by
      intro y hy
      obtain ⟨z, hz, rfl⟩ := List.mem_map.1 hy
      exact hx z (List.mem_cons_of_mem _ hz))
    have hp1 : (1 : ℝ) ≤ (1 + u) ^ xs.length := one_le_pow₀ (by linarith)
    have hp1' : (1 : ℝ) ≤ (1 + u) ^ (xs.length + 1) := one_le_pow₀ (by linarith)
    have hp0 : 0 ≤ (1 - u) ^ xs.length := pow_nonneg (by linarith) _
    simp only [List.map_cons, List.sum_cons, List.length_cons] at hhi
    have hle : |val a + val x| ≤ hi := by
      rw [abs_of_nonneg (by linarith)]
      nlinarith
    obtain ⟨δ, hδ, he⟩ := R.add a x hle
    obtain ⟨d1, d2⟩ := one_add_bounds hδ
    have hax : 0 ≤ val a + val x := by linarith
    have h0 : 0 ≤ val (a + x) := by rw [he]; exact mul_nonneg hax (by linarith)
    have hup : val (a + x) + (xs.map val).sum ≤ (val a + (val x + (xs.map val).sum)) * (1 + u) := by rw [he]; nlinarith
    have hdn : (val a + (val x + (xs.map val).sum)) * (1 - u) ≤ val (a + x) + (xs.map val).sum := by rw [he]; nlinarith
    obtain ⟨i1, i2⟩ := ih (a + x) (fun y hy => hx y (List.mem_cons_of_mem _ hy)) h0 (by
      refine le_trans (mul_le_mul_of_nonneg_right hup (by linarith)) ?_
      rw [mul_assoc, ← pow_succ']
      exact hhi)
    simp only [List.map_cons, List.sum_cons, List.length_cons, List.foldl_cons]
    constructor
    · refine le_trans ?_ i1
      rw [pow_succ', ← mul_assoc]
      exact mul_le_mul_of_nonneg_right hdn hp0
    · refine le_trans i2 ?_
      rw [pow_succ', ← mul_assoc]
      exact mul_le_mul_of_nonneg_right hup (by linarith)

/-- C138: a measurement with rounded arithmetic. If the evidence computed is positive and neither products nor
quotients underflow, each new weight is prior × likelihood / evidence up to a relative error, and the weights sum to
1 up to a relative error, both bounded in terms of the unit roundoff and the number of particles only. -/
theorem C138_measure_rounded {val : F → ℝ} {u lo hi : ℝ} (R : Rounded F val u lo hi) (log : F → F) (f : Filter S F)
    (lik : S → F) (hp : ∀ p ∈ f.particles, 0 ≤ val p.prob) (hl : ∀ p ∈ f.particles, 0 ≤ val (lik p.state))
    (hpos : 0 < f.particles.foldl (fun a p => a + p.prob * lik p.state) 0)
    (hprod : ∀ p ∈ f.particles, InRange lo hi (val p.prob * val (lik p.state)))
    (hsum : (f.particles.map fun p => val p.prob * val (lik p.state)).sum * (1 + u) ^ (f.particles.length + 1) ≤ hi)
    (hquot : ∀ p ∈ f.particles, InRange lo hi (val (p.prob * lik p.state) /
      val (f.particles.foldl (fun a p => a + p.prob * lik p.state) 0))) {E : ℝ}
    (hE : E = (f.particles.map fun p => val p.prob * val (lik p.state)).sum) :
    0 < E ∧
    List.Forall₂ (fun p q => q.state = p.state ∧
      val p.prob * val (lik p.state) / E * ((1 - u) ^ 2 / (1 + u) ^ (f.particles.length + 1)) ≤ val q.prob ∧
      val q.prob ≤ val p.prob * val (lik p.state) / E * ((1 + u) ^ 2 / (1 - u) ^ (f.particles.length + 1)))
      f.particles (f.measure log lik).particles ∧
    (1 - u) ^ 2 / (1 + u) ^ (f.particles.length + 1) ≤ ((f.measure log lik).particles.map fun q => val q.prob).sum ∧
    ((f.measure log lik).particles.map fun q => val q.prob).sum ≤ (1 + u) ^ 2 / (1 - u) ^ (f.particles.length + 1) := by
  have hu := R.unit_pos
  have hu1 := R.unit_lt
  set n := f.particles.length with hn
  set T := f.particles.foldl (fun a p => a + p.prob * lik p.state) 0 with hT
  have hT' : T = (f.particles.map fun p => p.prob * lik p.state).foldl (· + ·) 0 := by
    rw [hT, List.foldl_map]
  -- the products
  have hpr : ∀ p ∈ f.particles, val p.prob * val (lik p.state) * (1 - u) ≤ val (p.prob * lik p.state) ∧
      val (p.prob * lik p.state) ≤ val p.prob * val (lik p.state) * (1 + u) := by
    intro p hpp
    obtain ⟨δ, hδ, he⟩ := R.mul _ _ (hprod p hpp)
    obtain ⟨d1, d2⟩ := one_add_bounds hδ
    have h0 := mul_nonneg (hp p hpp) (hl p hpp)
    rw [he]
    exact ⟨mul_le_mul_of_nonneg_left d1 h0, mul_le_mul_of_nonneg_left d2 h0⟩
  have hpr0 : ∀ p ∈ f.particles, 0 ≤ val (p.prob * lik p.state) := fun p hpp =>
    le_trans (mul_nonneg (mul_nonneg (hp p hpp) (hl p hpp)) (by linarith)) (hpr p hpp).1
  have hsb : ∀ l : List (Particle S F), (∀ p ∈ l, p ∈ f.particles) →
      (l.map fun p => val p.prob * val (lik p.state)).sum * (1 - u) ≤ (l.map fun p => val (p.prob * lik p.state)).sum ∧
      (l.map fun p => val (p.prob * lik p.state)).sum ≤ (l.map fun p => val p.prob * val (lik p.state)).sum * (1 + u) := by
    intro l
    induction l with
    | nil => intro _; simp
    | cons p l ih =>
      intro hm
      obtain ⟨i1, i2⟩ := ih fun q hq => hm q (List.mem_cons_of_mem _ hq)
      obtain ⟨j1, j2⟩ := hpr p (hm p (List.mem_cons_self ..))
      simp only [List.map_cons, List.sum_cons]
      constructor <;> nlinarith
  obtain ⟨s1, s2⟩ := hsb f.particles fun _ h => h
  rw [← hE] at s1 s2 hsum
  have hmap : (f.particles.map fun p => p.prob * lik p.state).map val = f.particles.map fun p => val (p.prob * lik p.state) := by
    rw [List.map_map]; rfl
  have hup : (0 : ℝ) < (1 + u) ^ n := pow_pos (by linarith) _
  have hdn : (0 : ℝ) < (1 - u) ^ n := pow_pos (by linarith) _
  have hfb := foldl_bounds R (f.particles.map fun p => p.prob * lik p.state) 0 (by
      intro x hx
      obtain ⟨p, hpp, rfl⟩ := List.mem_map.1 hx
      exact hpr0 p hpp) (by rw [R.zero]) (by
      rw [R.zero, zero_add, hmap, List.length_map, ← hn]
      refine le_trans (mul_le_mul_of_nonneg_right s2 hup.le) ?_
      rw [mul_assoc, ← pow_succ']
      exact hsum)
  rw [R.zero, zero_add, hmap, List.length_map, ← hn, ← hT'] at hfb
  obtain ⟨f1, f2⟩ := hfb
  have hTpos : 0 < val T := by
    have := (R.lt 0 T).1 hpos
    rwa [R.zero] at this
  have t1 : E * (1 - u) ^ (n + 1) ≤ val T := by
    refine le_trans ?_ f1
    rw [pow_succ', ← mul_assoc]
    exact mul_le_mul_of_nonneg_right s1 hdn.le
  have t2 : val T ≤ E * (1 + u) ^ (n + 1) := by
    refine le_trans f2 ?_
    rw [pow_succ', ← mul_assoc]
    exact mul_le_mul_of_nonneg_right s2 hup.le
  have hup' : (0 : ℝ) < (1 + u) ^ (n + 1) := pow_pos (by linarith) _
  have hdn' : (0 : ℝ) < (1 - u) ^ (n + 1) := pow_pos (by linarith) _
  have hE0 : 0 < E := by
    by_contra hne
    push Not at hne
    have : E * (1 + u) ^ (n + 1) ≤ 0 := mul_nonpos_of_nonpos_of_nonneg hne hup'.le
    linarith
  -- the particles after
  have htot : total (weigh lik f.particles) = T := by
    rw [total, weigh, List.foldl_map]
  have hparts : (f.measure log lik).particles = f.particles.map fun p => { p with prob := p.prob * lik p.state / T } := by
    simp only [Filter.measure, htot]
    rw [if_pos hpos]
    simp only [weigh, List.map_map]
    rfl
  have hone : ∀ p ∈ f.particles,
      val p.prob * val (lik p.state) / E * ((1 - u) ^ 2 / (1 + u) ^ (n + 1)) ≤ val (p.prob * lik p.state / T) ∧
      val (p.prob * lik p.state / T) ≤ val p.prob * val (lik p.state) / E * ((1 + u) ^ 2 / (1 - u) ^ (n + 1)) := by
    intro p hpp
    obtain ⟨δ, hδ, he⟩ := R.div _ _ hTpos.ne' (hquot p hpp)
    obtain ⟨d1, d2⟩ := one_add_bounds hδ
    obtain ⟨j1, j2⟩ := hpr p hpp
    have h0 := mul_nonneg (hp p hpp) (hl p hpp)
    have hq0 : 0 ≤ val (p.prob * lik p.state) / val T := div_nonneg (hpr0 p hpp) hTpos.le
    rw [he]
    constructor
    · refine le_trans ?_ (mul_le_mul_of_nonneg_left d1 hq0)
      rw [div_mul_div_comm, div_mul_eq_mul_div]
      rw [div_le_div_iff₀ (mul_pos hE0 hup') hTpos]
      have a1 : val p.prob * val (lik p.state) * (1 - u) ^ 2 ≤ val (p.prob * lik p.state) * (1 - u) := by nlinarith
      exact mul_le_mul a1 t2 hTpos.le (mul_nonneg (hpr0 p hpp) (by linarith))
    · refine le_trans (mul_le_mul_of_nonneg_left d2 hq0) ?_
      rw [div_mul_div_comm, div_mul_eq_mul_div]
      rw [div_le_div_iff₀ hTpos (mul_pos hE0 hdn')]
      have a1 : val (p.prob * lik p.state) * (1 + u) ≤ val p.prob * val (lik p.state) * (1 + u) ^ 2 := by nlinarith
      exact mul_le_mul a1 t1 (mul_pos hE0 hdn').le (mul_nonneg h0 (sq_nonneg _))
  have hsums : ∀ l : List (Particle S F), (∀ p ∈ l, p ∈ f.particles) →
      (l.map fun p => val p.prob * val (lik p.state)).sum / E * ((1 - u) ^ 2 / (1 + u) ^ (n + 1)) ≤
        (l.map fun p => val (p.prob * lik p.state / T)).sum ∧
      (l.map fun p => val (p.prob * lik p.state / T)).sum ≤
        (l.map fun p => val p.prob * val (lik p.state)).sum / E * ((1 + u) ^ 2 / (1 - u) ^ (n + 1)) := by
    intro l
    induction l with
    | nil => intro _; simp
    | cons p l ih =>
      intro hm
      obtain ⟨i1, i2⟩ := ih fun q hq => hm q (List.mem_cons_of_mem _ hq)
      obtain ⟨j1, j2⟩ := hone p (hm p (List.mem_cons_self ..))
      simp only [List.map_cons, List.sum_cons, add_div, add_mul]
      constructor <;> linarith
  obtain ⟨w1, w2⟩ := hsums f.particles fun _ h => h
  rw [← hE, div_self hE0.ne', one_mul] at w1 w2
  have hmm : ((f.measure log lik).particles.map fun q => val q.prob) =
      f.particles.map fun p => val (p.prob * lik p.state / T) := by
    rw [hparts, List.map_map]; rfl
  refine ⟨hE0, ?_, by rw [hmm]; exact w1, by rw [hmm]; exact w2⟩
  rw [hparts, List.forall₂_map_right_iff, List.forall₂_same]
  intro p hpp
  exact ⟨rfl, hone p hpp⟩

/-- C138 in numbers: the weights sum to 1 up to twice the unit roundoff times the number of particles plus 3 (for
`float` and 10000 particles, 0.12 percent). -/
theorem C138_sum_error {val : F → ℝ} {u lo hi : ℝ} (R : Rounded F val u lo hi) (log : F → F) (f : Filter S F)
    (lik : S → F) (hp : ∀ p ∈ f.particles, 0 ≤ val p.prob) (hl : ∀ p ∈ f.particles, 0 ≤ val (lik p.state))
    (hpos : 0 < f.particles.foldl (fun a p => a + p.prob * lik p.state) 0)
    (hprod : ∀ p ∈ f.particles, InRange lo hi (val p.prob * val (lik p.state)))
    (hsum : (f.particles.map fun p => val p.prob * val (lik p.state)).sum * (1 + u) ^ (f.particles.length + 1) ≤ hi)
    (hquot : ∀ p ∈ f.particles, InRange lo hi (val (p.prob * lik p.state) /
      val (f.particles.foldl (fun a p => a + p.prob * lik p.state) 0)))
    (hn : ((f.particles.length : ℝ) + 3) * u ≤ 1 / 2) :
    |((f.measure log lik).particles.map fun q => val q.prob).sum - 1| ≤ 2 * ((f.particles.length : ℝ) + 3) * u := by
  have hu := R.unit_pos
  have hu1 := R.unit_lt
  obtain ⟨_, _, h1, h2⟩ := C138_measure_rounded R log f lik hp hl hpos hprod hsum hquot rfl
  set n := f.particles.length
  have hn0 : (0 : ℝ) ≤ (n : ℝ) := Nat.cast_nonneg n
  have hb : 1 - ((n : ℝ) + 3) * u ≤ (1 - u) ^ (n + 3) := by
    have := one_add_mul_le_pow (a := -u) (by linarith) (n + 3)
    push_cast at this
    have e : (1 : ℝ) + -u = 1 - u := by ring
    rw [e] at this
    linarith
  have hdn : (0 : ℝ) < (1 - u) ^ (n + 1) := pow_pos (by linarith) _
  have hup : (0 : ℝ) < (1 + u) ^ (n + 1) := pow_pos (by linarith) _
  have hprodle : (1 + u) * (1 - u) ≤ 1 := by nlinarith
  have hprod0 : 0 ≤ (1 + u) * (1 - u) := mul_nonneg (by linarith) (by linarith)
  have hlow : 1 - ((n : ℝ) + 3) * u ≤ (1 - u) ^ 2 / (1 + u) ^ (n + 1) := by
    refine le_trans hb ?_
    rw [le_div_iff₀ hup]
    have e : (1 - u) ^ (n + 3) * (1 + u) ^ (n + 1) = (1 - u) ^ 2 * ((1 + u) * (1 - u)) ^ (n + 1) := by
      rw [mul_pow]; ring
    rw [e]
    have := pow_le_one₀ hprod0 hprodle (n := n + 1)
    nlinarith [sq_nonneg (1 - u)]
  have hhigh : (1 + u) ^ 2 / (1 - u) ^ (n + 1) ≤ 1 + 2 * ((n : ℝ) + 3) * u := by
    rw [div_le_iff₀ hdn]
    have hx : (1 + u) ^ 2 * (1 - u) ^ 2 ≤ 1 := by
      rw [← mul_pow]; exact pow_le_one₀ hprod0 hprodle
    have hd2 : 0 < (1 - u) ^ 2 := pow_pos (by linarith) _
    have e : (1 - u) ^ (n + 3) = (1 - u) ^ (n + 1) * (1 - u) ^ 2 := by rw [← pow_add]
    have hge : 1 ≤ (1 + 2 * ((n : ℝ) + 3) * u) * ((1 - u) ^ (n + 1) * (1 - u) ^ 2) := by
      rw [← e]
      have : 1 ≤ (1 + 2 * ((n : ℝ) + 3) * u) * (1 - ((n : ℝ) + 3) * u) := by
        have hm : 0 ≤ ((n : ℝ) + 3) * u := mul_nonneg (by linarith) hu
        nlinarith
      refine le_trans this (mul_le_mul_of_nonneg_left hb ?_)
      have hm : 0 ≤ ((n : ℝ) + 3) * u := mul_nonneg (by linarith) hu
      linarith
    nlinarith
  rw [abs_le]
  constructor
  · have hm : 0 ≤ ((n : ℝ) + 3) * u := mul_nonneg (by linarith) hu
    linarith
  · linarith

/-! ## The hypotheses are met -/

/-- Numbers whose operations are all one percent too large. -/
structure Sloppy where
  v : ℝ

noncomputable instance : Zero Sloppy := ⟨⟨0⟩⟩
noncomputable instance : One Sloppy := ⟨⟨1⟩⟩
noncomputable instance : Neg Sloppy := ⟨fun a => ⟨-a.v⟩⟩
noncomputable instance : Add Sloppy := ⟨fun a b => ⟨(a.v + b.v) * (1 + 1 / 100)⟩⟩
noncomputable instance : Mul Sloppy := ⟨fun a b => ⟨a.v * b.v * (1 + 1 / 100)⟩⟩
noncomputable instance : Div Sloppy := ⟨fun a b => ⟨a.v / b.v * (1 + 1 / 100)⟩⟩
instance : LT Sloppy := ⟨fun a b => a.v < b.v⟩
noncomputable instance : DecidableLT Sloppy := fun a b => Classical.propDecidable (a.v < b.v)

theorem sloppy_rounded : Rounded Sloppy Sloppy.v (1 / 100) (1 / 1000) 1000 where
  unit_pos := by norm_num
  unit_lt := by norm_num
  zero := rfl
  lt := fun _ _ => Iff.rfl
  add := fun _ _ _ => ⟨1 / 100, by norm_num, rfl⟩
  mul := fun _ _ _ => ⟨1 / 100, by norm_num, rfl⟩
  div := fun _ _ _ _ => ⟨1 / 100, by norm_num, rfl⟩

/-- Two particles with weights 1/2 and likelihoods 1 and 2. -/
noncomputable def exSloppy : Filter ℕ Sloppy :=
  ⟨[⟨1, ⟨1 / 2⟩, ⟨0⟩, ⟨0⟩⟩, ⟨2, ⟨1 / 2⟩, ⟨0⟩, ⟨0⟩⟩], none⟩

/-- The hypotheses of C138 are met by arithmetic that really rounds. -/
example : (∀ p ∈ exSloppy.particles, 0 ≤ p.prob.v) ∧
    (0 : Sloppy) < exSloppy.particles.foldl (fun (a : Sloppy) (p : Particle ℕ Sloppy) => a + p.prob * ⟨(p.state : ℝ)⟩) 0 ∧
    (∀ p ∈ exSloppy.particles, InRange (1 / 1000) 1000 (p.prob.v * (p.state : ℝ))) ∧
    (exSloppy.particles.map fun p => p.prob.v * (p.state : ℝ)).sum * (1 + 1 / 100) ^ (exSloppy.particles.length + 1) ≤ 1000 ∧
    (∀ p ∈ exSloppy.particles, InRange (1 / 1000) 1000 ((p.prob * ⟨(p.state : ℝ)⟩ : Sloppy).v /
      (exSloppy.particles.foldl (fun (a : Sloppy) (p : Particle ℕ Sloppy) => a + p.prob * ⟨(p.state : ℝ)⟩) 0).v)) ∧
    ((exSloppy.particles.length : ℝ) + 3) * (1 / 100) ≤ 1 / 2 := by
  have h : (exSloppy.particles.foldl (fun (a : Sloppy) (p : Particle ℕ Sloppy) => a + p.prob * (⟨(p.state : ℝ)⟩ : Sloppy)) 0).v =
      ((0 + (1 / 2 * 1 * (1 + 1 / 100))) * (1 + 1 / 100) + 1 / 2 * 2 * (1 + 1 / 100)) * (1 + 1 / 100) := by
    simp only [exSloppy, List.foldl_cons, List.foldl_nil]
    show ((0 + (1 / 2 * ((1 : ℕ) : ℝ) * (1 + 1 / 100))) * (1 + 1 / 100) + 1 / 2 * ((2 : ℕ) : ℝ) * (1 + 1 / 100)) * (1 + 1 / 100) = _
    norm_num
  refine ⟨?_, ?_, ?_, ?_, ?_, ?_⟩
  · intro p hp
    simp only [exSloppy, List.mem_cons, List.not_mem_nil, or_false] at hp
    rcases hp with rfl | rfl <;> norm_num
  · show (0 : ℝ) < (exSloppy.particles.foldl (fun (a : Sloppy) (p : Particle ℕ Sloppy) => a + p.prob * (⟨(p.state : ℝ)⟩ : Sloppy)) 0).v
    rw [h]; norm_num
  · intro p hp
    simp only [exSloppy, List.mem_cons, List.not_mem_nil, or_false] at hp
    rcases hp with rfl | rfl <;> (right; norm_num)
  · norm_num [exSloppy]
  · rw [h]
    intro p hp
    simp only [exSloppy, List.mem_cons, List.not_mem_nil, or_false] at hp
    rcases hp with rfl | rfl
    · right
      have e : ((⟨1 / 2⟩ : Sloppy) * ⟨((1 : ℕ) : ℝ)⟩).v = 1 / 2 * ((1 : ℕ) : ℝ) * (1 + 1 / 100) := rfl
      simp only [e]
      norm_num
    · right
      have e : ((⟨1 / 2⟩ : Sloppy) * ⟨((2 : ℕ) : ℝ)⟩).v = 1 / 2 * ((2 : ℕ) : ℝ) * (1 + 1 / 100) := rfl
      simp only [e]
      norm_num
  · norm_num [exSloppy]

end PF
end Mcl3dl
