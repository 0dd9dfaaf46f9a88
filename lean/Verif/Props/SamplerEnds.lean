import Verif.Props.Sampler
import Mathlib.Analysis.Matrix.Spectrum
import Mathlib.Data.Fin.Tuple.Sort

set_option linter.unusedSectionVars false

/-! # C74: when the normal-weighted sampler returns -/

namespace Mcl3dl
namespace Sampler

/-! ### C74 for every covariance -/

/-- The absolute values of a positive semidefinite 3x3 matrix form a positive semidefinite matrix. -/
theorem posCov_psd {C : Matrix (Fin 3) (Fin 3) ℝ} (hsym : C.transpose = C)
    (hpsd : ∀ u : Fin 3 → ℝ, 0 ≤ ∑ i, ∑ j, u i * C i j * u j) (u : Fin 3 → ℝ) :
    0 ≤ ∑ i, ∑ j, u i * posCov C i j * u j := by
  have hs : ∀ i j, C j i = C i j := fun i j => by
    have := congrFun (congrFun hsym i) j
    simpa [Matrix.transpose_apply] using this
  have hd : ∀ i, |C i i| = C i i := by
    intro i
    apply abs_of_nonneg
    have := hpsd fun j => if j = i then 1 else 0
    fin_cases i <;> simpa [Fin.sum_univ_three] using this
  have q1 := hpsd ![u 0, u 1, u 2]
  have q2 := hpsd ![-u 0, u 1, u 2]
  have q3 := hpsd ![u 0, -u 1, u 2]
  have q4 := hpsd ![u 0, u 1, -u 2]
  simp only [Fin.sum_univ_three, Matrix.cons_val_zero, Matrix.cons_val_one, Matrix.cons_val] at q1 q2 q3 q4
  simp only [Fin.sum_univ_three, posCov, Matrix.of_apply, hd]
  rw [hs 0 1, hs 0 2, hs 1 2] at q1 q2 q3 q4 ⊢
  have hw : 0 ≤ (u 0 * u 1) * (u 0 * u 2) * (u 1 * u 2) := by
    have : (u 0 * u 1) * (u 0 * u 2) * (u 1 * u 2) = (u 0 * u 1 * u 2) ^ 2 := by ring
    rw [this]; positivity
  set p := C 0 1 * (u 0 * u 1) with hp
  set q := C 0 2 * (u 0 * u 2) with hq
  set r := C 1 2 * (u 1 * u 2) with hr
  set D := u 0 * C 0 0 * u 0 + u 1 * C 1 1 * u 1 + u 2 * C 2 2 * u 2 with hD
  have g1 : 0 ≤ D + 2 * (p + q + r) := by rw [hD, hp, hq, hr]; linarith
  have g2 : 0 ≤ D + 2 * (-p - q + r) := by rw [hD, hp, hq, hr]; linarith
  have g3 : 0 ≤ D + 2 * (-p + q - r) := by rw [hD, hp, hq, hr]; linarith
  have g4 : 0 ≤ D + 2 * (p - q - r) := by rw [hD, hp, hq, hr]; linarith
  have hpqr : p * q * r = C 0 1 * C 0 2 * C 1 2 * ((u 0 * u 1) * (u 0 * u 2) * (u 1 * u 2)) := by
    rw [hp, hq, hr]; ring
  -- all sign combinations
  have key : ∀ a b c : ℝ, a * b * c ≤ 0 → 0 ≤ D + 2 * (a + b + c) → 0 ≤ D + 2 * (-a - b + c) →
      0 ≤ D + 2 * (-a + b - c) → 0 ≤ D + 2 * (a - b - c) → 0 ≤ D + 2 * (-a + b + c) := by
    intro a b c h k1 k2 k3 k4
    rcases le_or_gt 0 b with hb | hb
    · linarith
    · rcases le_or_gt 0 c with hc | hc
      · linarith
      · have : a ≤ 0 := by
          by_contra ha
          push Not at ha
          have := mul_pos_of_neg_of_neg hb hc
          have := mul_pos ha this
          nlinarith
        linarith
  have key3 : ∀ a b c : ℝ, a * b * c ≤ 0 → 0 ≤ D + 2 * (a + b + c) → 0 ≤ D + 2 * (-a - b + c) →
      0 ≤ D + 2 * (-a + b - c) → 0 ≤ D + 2 * (a - b - c) → 0 ≤ D + 2 * (-a - b - c) := by
    intro a b c h k1 k2 k3 k4
    rcases le_or_gt a 0 with ha | ha
    · linarith
    · rcases le_or_gt b 0 with hb | hb
      · linarith
      · have : c ≤ 0 := by
          by_contra hc
          push Not at hc
          have := mul_pos (mul_pos ha hb) hc
          linarith
        linarith
  have goal_eq : ∀ A B E : ℝ, (u 0 * C 0 0 * u 0 + u 0 * A * u 1 + u 0 * B * u 2 +
      (u 1 * A * u 0 + u 1 * C 1 1 * u 1 + u 1 * E * u 2) + (u 2 * B * u 0 + u 2 * E * u 1 + u 2 * C 2 2 * u 2)) =
      D + 2 * (A * (u 0 * u 1) + B * (u 0 * u 2) + E * (u 1 * u 2)) := by
    intro A B E; rw [hD]; ring
  rw [goal_eq]
  have hP : |C 0 1| * (u 0 * u 1) = p ∧ 0 ≤ C 0 1 ∨ |C 0 1| * (u 0 * u 1) = -p ∧ C 0 1 ≤ 0 := by
    rcases le_total 0 (C 0 1) with h | h
    · exact Or.inl ⟨by rw [abs_of_nonneg h], h⟩
    · exact Or.inr ⟨by rw [abs_of_nonpos h, hp]; ring, h⟩
  have hQ : |C 0 2| * (u 0 * u 2) = q ∧ 0 ≤ C 0 2 ∨ |C 0 2| * (u 0 * u 2) = -q ∧ C 0 2 ≤ 0 := by
    rcases le_total 0 (C 0 2) with h | h
    · exact Or.inl ⟨by rw [abs_of_nonneg h], h⟩
    · exact Or.inr ⟨by rw [abs_of_nonpos h, hq]; ring, h⟩
  have hR : |C 1 2| * (u 1 * u 2) = r ∧ 0 ≤ C 1 2 ∨ |C 1 2| * (u 1 * u 2) = -r ∧ C 1 2 ≤ 0 := by
    rcases le_total 0 (C 1 2) with h | h
    · exact Or.inl ⟨by rw [abs_of_nonneg h], h⟩
    · exact Or.inr ⟨by rw [abs_of_nonpos h, hr]; ring, h⟩
  rcases hP with ⟨eP, sP⟩ | ⟨eP, sP⟩ <;> rcases hQ with ⟨eQ, sQ⟩ | ⟨eQ, sQ⟩ <;>
    rcases hR with ⟨eR, sR⟩ | ⟨eR, sR⟩ <;> rw [eP, eQ, eR]
  · exact g1
  · have := key r p q (by
      have : r * p * q = p * q * r := by ring
      rw [this, hpqr]
      exact mul_nonpos_of_nonpos_of_nonneg (mul_nonpos_of_nonneg_of_nonpos (mul_nonneg sP sQ) sR) hw)
      (by linarith) (by linarith) (by linarith) (by linarith)
    linarith
  · have := key q p r (by
      have : q * p * r = p * q * r := by ring
      rw [this, hpqr]
      exact mul_nonpos_of_nonpos_of_nonneg (mul_nonpos_of_nonpos_of_nonneg (mul_nonpos_of_nonneg_of_nonpos sP sQ) sR) hw)
      (by linarith) (by linarith) (by linarith) (by linarith)
    linarith
  · linarith
  · have := key p q r (by
      rw [hpqr]
      exact mul_nonpos_of_nonpos_of_nonneg (mul_nonpos_of_nonpos_of_nonneg (mul_nonpos_of_nonpos_of_nonneg sP sQ) sR) hw)
      (by linarith) (by linarith) (by linarith) (by linarith)
    linarith
  · linarith
  · linarith
  · have := key3 p q r (by
      rw [hpqr]
      exact mul_nonpos_of_nonpos_of_nonneg (mul_nonpos_of_nonneg_of_nonpos (mul_nonneg_of_nonpos_of_nonpos sP sQ) sR) hw)
      (by linarith) (by linarith) (by linarith) (by linarith)
    linarith

/-- C74, for every position covariance of the particles, every correct eigen solver and every fair random source:
sampling returns, except that it does not if all covariances are 0 (no spread at all), some point has a normal,
and two or more of a larger number of points are wanted. -/
theorem C74_returns_iff {H P : Type} {p : Params ℝ}
    {solve : Matrix (Fin 3) (Fin 3) ℝ → (Fin 3 → ℝ) × Matrix (Fin 3) (Fin 3) ℝ}
    (hsolve : ∀ A, A.transpose = A → EigenSolved A (solve A).1 (solve A).2)
    {rot : Quat ℝ} (hrot : rot.dot rot = 1) {C : Matrix (Fin 3) (Fin 3) ℝ} (hsym : C.transpose = C)
    (hpsd : ∀ u : Fin 3 → ℝ, 0 ≤ ∑ i, ∑ j, u i * C i j * u j)
    {normalsOf : List P → List (Option (Vec3 ℝ))} (hnormals : ∀ l, (normalsOf l).length = l.length)
    {canon : ℕ → ℝ} (hfair : Fair canon) {order : List ℕ → List ℕ} (horder : ∀ l, (order l).Perm l)
    (hmax : 1 ≤ p.maxWeight) (hr : p.performWeightingRatio < p.maxWeightRatio) (pc : Cloud H P) (num : ℕ) :
    (sampleWithNormal (finP p) (some (finS (setParticleStatistics solve rot C)))
      (fun l => (normalsOf l).map (Option.map finV)) (fun k => .fin (canon k)) order pc num).isOk = true ↔
    ¬ (C = 0 ∧ (∃ n, some n ∈ normalsOf pc.points) ∧ 2 ≤ num ∧ num < pc.points.length) := by
  have hs := hsolve (posCov C) (by
    ext i j
    have := congrFun (congrFun hsym i) j
    simp only [Matrix.transpose_apply] at this
    simp [posCov, this])
  constructor
  · rintro hok ⟨hC, ⟨n, hn⟩, h1, h2⟩
    rw [hC] at hs
    obtain ⟨e1, e2⟩ := C74_zero_covariance_eigenvalues hs
    rw [C74_zero_covariance (n := finV n) ?_ ?_ h1 h2 ?_] at hok
    · simp [Outcome.isOk] at hok
    · rw [hC]; change XR.fin ((solve (posCov 0)).1 1) = XR.fin 0; rw [e1]
    · rw [hC]; change XR.fin ((solve (posCov 0)).1 2) = XR.fin 0; rw [e2]
    · exact List.mem_map.2 ⟨some n, hn, rfl⟩
  · intro h
    have hval : ∀ j, (solve (posCov C)).1 j = ∑ a, ∑ b, (solve (posCov C)).2 a j * posCov C a b * (solve (posCov C)).2 b j := by
      intro j
      have ho := hs.orthonormal j j
      rw [if_pos rfl] at ho
      calc (solve (posCov C)).1 j = (solve (posCov C)).1 j * ∑ k, (solve (posCov C)).2 k j * (solve (posCov C)).2 k j := by rw [ho, mul_one]
        _ = ∑ a, (solve (posCov C)).2 a j * ((solve (posCov C)).1 j * (solve (posCov C)).2 a j) := by
          simp only [Fin.sum_univ_three]; ring
        _ = _ := by
          simp only [← hs.eigen j, Fin.sum_univ_three]; ring
    have hnn : ∀ j, 0 ≤ (solve (posCov C)).1 j := by
      intro j; rw [hval j]; exact posCov_psd hsym hpsd _
    by_cases h2 : 0 < (solve (posCov C)).1 2
    · exact C74_terminates hrot hnormals hfair horder hmax hr (hnn 1) h2 pc num
    · have h0 : (solve (posCov C)).1 2 = 0 := le_antisymm (not_lt.1 h2) (hnn 2)
      have hC : C = 0 := by
        have hp := (eigen_principal hs).2
        have hv : (∑ a, ∑ b, (solve (posCov C)).2 a 2 * posCov C a b * (solve (posCov C)).2 b 2) = 0 := by
          rw [← hval 2, h0]
        rw [hv] at hp
        have hall : ∀ u : Fin 3 → ℝ, (∑ i, u i ^ 2) = 1 → (∑ i, ∑ j, u i * posCov C i j * u j) = 0 :=
          fun u hu => le_antisymm (hp u hu) (posCov_psd hsym hpsd u)
        have d0 := hall ![1, 0, 0] (by simp [Fin.sum_univ_three])
        have d1 := hall ![0, 1, 0] (by simp [Fin.sum_univ_three])
        have d2 := hall ![0, 0, 1] (by simp [Fin.sum_univ_three])
        have d3 := hall ![3/5, 4/5, 0] (by simp [Fin.sum_univ_three]; norm_num)
        have d4 := hall ![3/5, 0, 4/5] (by simp [Fin.sum_univ_three]; norm_num)
        have d5 := hall ![0, 3/5, 4/5] (by simp [Fin.sum_univ_three]; norm_num)
        have hs' : ∀ i j, C j i = C i j := fun i j => by
          have := congrFun (congrFun hsym i) j
          simpa [Matrix.transpose_apply] using this
        simp [Fin.sum_univ_three, posCov] at d0 d1 d2 d3 d4 d5
        rw [d0, d1, hs' 0 1] at d3
        rw [d0, d2, hs' 0 2] at d4
        rw [d1, d2, hs' 1 2] at d5
        have z3 : |C 0 1| = 0 := by norm_num at d3; linarith [abs_nonneg (C 0 1)]
        have z4 : |C 0 2| = 0 := by norm_num at d4; linarith [abs_nonneg (C 0 2)]
        have z5 : |C 1 2| = 0 := by norm_num at d5; linarith [abs_nonneg (C 1 2)]
        rw [abs_eq_zero] at z3 z4 z5
        ext i j
        fin_cases i <;> fin_cases j <;> simp [d0, d1, d2, z3, z4, z5, hs' 0 1, hs' 0 2, hs' 1 2]
      -- nothing to sample, or no normal: all weights are 1
      unfold sampleWithNormal
      split_ifs with g1 g2
      · rfl
      · rfl
      · push _root_.Not at g1 g2
        have hnum : ∀ n, some n ∈ normalsOf pc.points → num = 1 := by
          intro n hn
          by_contra h1
          exact h ⟨hC, ⟨n, hn⟩, by omega, g2⟩
        set st := finS (setParticleStatistics solve rot C) with hst
        have e1 : st.eval1 = .fin 0 := by
          have : (solve (posCov C)).1 1 = 0 := le_antisymm (h0 ▸ hs.ascending.2) (hnn 1)
          change XR.fin ((solve (posCov C)).1 1) = _; rw [this]
        have e2 : st.eval2 = .fin 0 := by
          change XR.fin ((solve (posCov C)).1 2) = _; rw [h0]
        have hratio : Transc.sqrt (st.eval2 / st.eval1) = XR.nan := by
          rw [e1, e2, XR.zero_div_zero]; rfl
        have hmw : maxWeightOf (finP p) XR.nan = XR.nan := by
          unfold maxWeightOf
          rw [if_neg (XR.not_nan_lt _), if_neg (XR.not_lt_nan _)]
          simp only [nan_sub, XR.nan_div, XR.mul_nan, XR.add_nan]
        simp only [cumulativeWeights, hratio, hmw]
        by_cases hex : ∃ n, some n ∈ normalsOf pc.points
        · obtain ⟨n, hn⟩ := hex
          have h1 := hnum n hn
          have hn' : some (finV n) ∈ (normalsOf pc.points).map (Option.map finV) := List.mem_map.2 ⟨some n, hn, rfl⟩
          have hpw : pointWeight XR.nan (st.meanRot.inv.rotate st.evec2) (some (finV n)) = XR.nan := by
            unfold pointWeight
            simp only [nan_sub, XR.nan_mul, XR.add_nan]
          rw [cumulative_getLast_nan _ _ (by
              intro h; rw [List.map_eq_nil_iff] at h; rw [h] at hn'; simp at hn')
            (Or.inr (List.mem_map.2 ⟨some (finV n), hn', hpw⟩))]
          simp only
          set c := cumulative 0 (((normalsOf pc.points).map (Option.map finV)).map
            (pointWeight XR.nan (st.meanRot.inv.rotate st.evec2))) with hc
          have hcne : c ≠ [] := by
            intro h
            have := congrArg List.length h
            rw [hc, cumulative_length, List.length_map, List.length_map, hnormals, List.length_nil] at this
            omega
          have hround : selectRound (fun k => XR.fin (canon k)) c XR.nan num (0, []) = .ok (.inr [0]) := by
            unfold selectRound
            have hr : XR.fin (canon 0) * (XR.nan - 0) + 0 = XR.nan := by rw [nan_sub, XR.mul_nan, XR.nan_add]
            have hlb : lowerBound c XR.nan = 0 := by
              obtain ⟨a, l, hal⟩ := List.exists_cons_of_ne_nil hcne
              rw [hal]; unfold lowerBound; simp [List.findIdx_cons]
            simp only [hr, hlb]
            simp [h1]
          rw [loopO_eq, hround]
          simp only [Outcome.bind_ok]
          obtain ⟨ps, hps⟩ := pick_exists pc.points (order [0]) (by
            intro i hi
            rw [(horder _).mem_iff] at hi
            rw [List.mem_singleton] at hi
            rw [hi]; omega)
          rw [hps]; rfl
        · have hmap : ((normalsOf pc.points).map (Option.map finV)).map
              (pointWeight XR.nan (st.meanRot.inv.rotate st.evec2)) =
              ((normalsOf pc.points).map fun _ => (1 : ℝ)).map XR.fin := by
            rw [List.map_map, List.map_map]
            apply List.map_congr_left
            intro n hn
            cases n with
            | none => rfl
            | some n => exact absurd ⟨n, hn⟩ hex
          set ws := (normalsOf pc.points).map fun _ => (1 : ℝ) with hws
          have hwl : ws.length = pc.points.length := by rw [hws, List.length_map, hnormals]
          rw [hmap, XR.zero_def, fin_cumulative]
          have hne : ws ≠ [] := by intro h; rw [h] at hwl; simp at hwl; omega
          obtain ⟨hback, sel, hsel, hin⟩ := select_ends (ws := ws) (by
            intro w hw
            rw [hws, List.mem_map] at hw
            obtain ⟨_, _, rfl⟩ := hw
            exact one_pos) hne hfair (num := num) (by omega)
          rw [List.getLast?_map, hback]
          simp only [Option.map_some, fin_selectRound]
          rw [hsel, Outcome.bind_ok]
          obtain ⟨ps, hps⟩ := pick_exists pc.points (order sel) (by
            intro i hi
            rw [(horder _).mem_iff] at hi
            rw [← hwl]; exact hin i hi)
          rw [hps]; rfl

/-! ### The hypotheses can be met -/

/-- Fair sources exist: run through all rational numbers of [0, 1), each infinitely often. -/
theorem fair_exists : ∃ canon : ℕ → ℝ, Fair canon := by
  obtain ⟨f, hf⟩ := exists_surjective_nat ℚ
  refine ⟨fun k => if 0 ≤ f k.unpair.1 ∧ f k.unpair.1 < 1 then ((f k.unpair.1 : ℚ) : ℝ) else 0, ?_, ?_⟩
  · intro k
    simp only
    split_ifs with h
    · exact ⟨by exact_mod_cast h.1, by exact_mod_cast h.2⟩
    · exact ⟨le_rfl, one_pos⟩
  · intro a b ha hab hb N
    obtain ⟨q, h1, h2⟩ := exists_rat_btwn hab
    obtain ⟨i, hi⟩ := hf q
    refine ⟨Nat.pair i N, Nat.right_le_pair i N, ?_⟩
    simp only [Nat.unpair_pair, hi]
    have h0 : (0 : ℝ) ≤ q := (ha.trans_lt h1).le
    have h3 : (q : ℝ) < 1 := h2.trans_le hb
    rw [if_pos ⟨by exact_mod_cast h0, by exact_mod_cast h3⟩]
    exact ⟨h1, h2⟩

/-- Correct eigen solvers exist (spectral theorem). -/
theorem solver_exists : ∃ solve : Matrix (Fin 3) (Fin 3) ℝ → (Fin 3 → ℝ) × Matrix (Fin 3) (Fin 3) ℝ,
    ∀ A, A.transpose = A → EigenSolved A (solve A).1 (solve A).2 := by
  have h : ∀ A : Matrix (Fin 3) (Fin 3) ℝ, ∃ r : (Fin 3 → ℝ) × Matrix (Fin 3) (Fin 3) ℝ,
      A.transpose = A → EigenSolved A r.1 r.2 := by
    intro A
    by_cases hA : A.transpose = A
    · have hH : A.IsHermitian := by
        rw [Matrix.IsHermitian, Matrix.conjTranspose_eq_transpose_of_trivial, hA]
      set σ := Tuple.sort hH.eigenvalues with hσ
      have hmono : Monotone (hH.eigenvalues ∘ σ) := Tuple.monotone_sort _
      refine ⟨(fun j => hH.eigenvalues (σ j), Matrix.of fun i j => hH.eigenvectorBasis (σ j) i), fun _ => ⟨?_, ?_, ?_⟩⟩
      · exact ⟨hmono (by decide), hmono (by decide)⟩
      · intro j i
        have := congrFun (hH.mulVec_eigenvectorBasis (σ j)) i
        simpa [Matrix.mulVec, dotProduct] using this
      · intro i j
        have h1 := (orthonormal_iff_ite.1 hH.eigenvectorBasis.orthonormal) (σ i) (σ j)
        rw [PiLp.inner_apply] at h1
        simp only [RCLike.inner_apply, conj_trivial, EmbeddingLike.apply_eq_iff_eq] at h1
        rw [← h1]
        apply Finset.sum_congr rfl
        intro k _
        simp only [Matrix.of_apply]
        ring
    · exact ⟨(0, 0), fun h => absurd h hA⟩
  choose solve hsolve using h
  exact ⟨solve, hsolve⟩

/-- C74 applied: three points facing up, two wanted; particles spread by 1 m along x: some correct eigen solver
and some fair source exist, and with them sampling returns. -/
example : ∃ (solve : Matrix (Fin 3) (Fin 3) ℝ → (Fin 3 → ℝ) × Matrix (Fin 3) (Fin 3) ℝ) (canon : ℕ → ℝ),
    (sampleWithNormal (finP ⟨2, 5, 3⟩) (some (finS (setParticleStatistics solve 1 !![1, 0, 0; 0, 0, 0; 0, 0, 0])))
      (fun l : List ℕ => (l.map fun _ => some (⟨0, 0, 1⟩ : Vec3 ℝ)).map (Option.map finV)) (fun k => .fin (canon k)) id
      (⟨(), [10, 20, 30]⟩ : Cloud Unit ℕ) 2).isOk = true := by
  obtain ⟨solve, hsolve⟩ := solver_exists
  obtain ⟨canon, hfair⟩ := fair_exists
  refine ⟨solve, canon, (C74_returns_iff hsolve (rot := 1) (C := !![1, 0, 0; 0, 0, 0; 0, 0, 0]) ?_ ?_ ?_
    (normalsOf := fun l : List ℕ => l.map fun _ => some (⟨0, 0, 1⟩ : Vec3 ℝ)) ?_ hfair (fun _ => List.Perm.refl _) ?_ ?_ _ _).2 ?_⟩
  · change (0 : ℝ) * 0 + 0 * 0 + 0 * 0 + 1 * 1 = 1; norm_num
  · ext i j; fin_cases i <;> fin_cases j <;> rfl
  · intro u
    simp [Fin.sum_univ_three]
    exact mul_self_nonneg _
  · simp
  · norm_num
  · norm_num
  · rintro ⟨h, -⟩
    have := congrFun (congrFun h 0) 0
    simp at this

end Sampler
end Mcl3dl
