import Verif.Model.KDRay
import Verif.Proofs.DDARun
import Verif.Spec.DDA
import Mathlib.Analysis.InnerProductSpace.PiL2

set_option linter.unusedSectionVars false

/-! # C65, C107: ray casting through the kd-tree -/

namespace Mcl3dl
namespace KDRay
open DDA (len rayPoint OnRay)

/-- A search that answers exactly for the points `cloud` under the weighted distance, at the two radii
that the caster uses.  The node's kd-tree is one (`exactOver_chunked`). -/
def ExactOver (cfg : Cfg) (cloud : List (Vec3 ℝ)) (w : Vec3 ℝ)
    (search : Vec3 ℝ → ℝ → Outcome (List (ℕ × ℝ))) : Prop :=
  ∀ q r, (r = cfg.radius ∨ r = cfg.gridMin * 2 + cfg.radius) →
    ∃ res, search q r = .ok res ∧ ExactSearch cloud (weightedDist w q) r 1 res

theorem resultAt_ok {cfg : Cfg} {cloud : List (Vec3 ℝ)} {w : Vec3 ℝ} {search : Vec3 ℝ → ℝ → Outcome (List (ℕ × ℝ))}
    (h : ExactOver cfg cloud w search) (pos inc : Vec3 ℝ) :
    ∃ res, resultAt cfg search cloud.length pos inc = .ok res ∧ res.pos = pos := by
  obtain ⟨r0, h0, hs0⟩ := h pos _ (.inl rfl)
  obtain ⟨r1, h1, hs1⟩ := h (pos - inc.smul 2) _ (.inr rfl)
  unfold resultAt
  rw [h0, Outcome.bind_ok]
  cases r0 with
  | nil => exact ⟨_, rfl, rfl⟩
  | cons a l =>
    obtain ⟨id, sq0⟩ := a
    obtain ⟨p, hp, -⟩ := hs0.sound (id, sq0) (by simp)
    have hid : id < cloud.length := by
      have := List.getElem?_eq_some_iff.1 hp
      exact this.1
    simp only
    rw [if_neg (by omega), h1, Outcome.bind_ok]
    cases r1 with
    | nil => exact ⟨_, rfl, rfl⟩
    | cons b l' => exact ⟨_, rfl, rfl⟩

theorem rayPoint_add {b e : Vec3 ℝ} (t u : ℝ) :
    rayPoint b e t + (e - b).normalized.smul u = rayPoint b e (t + u) := by
  have : ∀ i : Fin 3, (rayPoint b e t + (e - b).normalized.smul u).get i = (rayPoint b e (t + u)).get i := by
    intro i
    rw [DDA.get_add, DDA.get_smul, DDA.rayPoint_get, DDA.rayPoint_get]; ring
  exact Vec3.ext (this 0) (this 1) (this 2)

/-- The state after `k` results. -/
theorem nexts_from {cfg : Cfg} {cloud : List (Vec3 ℝ)} {w : Vec3 ℝ}
    {search : Vec3 ℝ → ℝ → Outcome (List (ℕ × ℝ))} (h : ExactOver cfg cloud w search) {b e : Vec3 ℝ} (L : ℤ)
    (n : ℕ) : ∀ j : ℕ, ∃ (rs : List CastResult) (s' : St),
      nexts cfg search cloud.length n
        ⟨rayPoint b e ((j + 1) * cfg.gridMin), some ((e - b).normalized.smul cfg.gridMin), L, j + 1⟩ =
        .ok (rs.map some ++ List.replicate (n - rs.length) none, s') ∧
      rs.length = min n (L - (j + 1)).toNat ∧
      (∀ k (hk : k < rs.length), resultAt cfg search cloud.length
        (rayPoint b e ((j + k + 1) * cfg.gridMin)) ((e - b).normalized.smul cfg.gridMin) = .ok rs[k]) := by
  induction n with
  | zero => intro j; exact ⟨[], _, rfl, by simp, by simp⟩
  | succ n ih =>
    intro j
    rcases le_or_gt L ((j : ℤ) + 1) with hle | hgt
    · have : ∀ m, nexts cfg search cloud.length m ⟨rayPoint b e ((j + 1) * cfg.gridMin),
          some ((e - b).normalized.smul cfg.gridMin), L, j + 1⟩ = .ok (List.replicate m none,
            ⟨rayPoint b e ((j + 1) * cfg.gridMin), some ((e - b).normalized.smul cfg.gridMin), L, j + 1⟩) := by
        intro m
        induction m with
        | zero => rfl
        | succ m ihm =>
          have hg : ∀ s : St, s.length ≤ s.count → getNext cfg search cloud.length s = .ok (none, s) := fun s hs => by
            unfold getNext; rw [if_pos hs]
          rw [nexts, hg _ hle, Outcome.bind_ok, ihm]
          rfl
      refine ⟨[], _, this (n + 1), ?_, by simp⟩
      have : (L - (j + 1)).toNat = 0 := by omega
      rw [this]; simp
    · obtain ⟨res, hres, hpos⟩ := resultAt_ok (cfg := cfg) h (rayPoint b e ((j + 1) * cfg.gridMin))
        ((e - b).normalized.smul cfg.gridMin)
      obtain ⟨rs, s', h1, h2, h3⟩ := ih (j + 1)
      have hstep : getNext cfg search cloud.length ⟨rayPoint b e ((j + 1) * cfg.gridMin),
          some ((e - b).normalized.smul cfg.gridMin), L, j + 1⟩ = .ok (some res,
          ⟨rayPoint b e (((j + 1 : ℕ) + 1) * cfg.gridMin), some ((e - b).normalized.smul cfg.gridMin), L, (j + 1 : ℕ) + 1⟩) := by
        have hng : ¬ (L ≤ (j : ℤ) + 1) := by omega
        have heq : rayPoint b e (((j : ℝ) + 1) * cfg.gridMin) + (e - b).normalized.smul cfg.gridMin =
            rayPoint b e (((j + 1 : ℕ) + 1) * cfg.gridMin) := by
          rw [rayPoint_add]; congr 1; push_cast; ring
        have hcast : (j : ℤ) + 1 + 1 = ((j + 1 : ℕ) : ℤ) + 1 := by push_cast; ring
        simp only [getNext, if_neg hng, hres, Outcome.bind_ok, heq, hcast]
      refine ⟨res :: rs, s', ?_, ?_, ?_⟩
      · rw [nexts, hstep, Outcome.bind_ok, h1]
        simp
      · rw [List.length_cons, h2]; push_cast at *; omega
      · intro k hk
        cases k with
        | zero => simpa using hres
        | succ k =>
          have := h3 k (by simpa using hk)
          simp only [List.getElem_cons_succ]
          rw [← this]; congr 2; push_cast; ring

/-- C65: for a ray of positive length, `n` calls return the results for the positions at distance
`k * grid` from the begin (see `C65_samples`), each made by the search at that position. -/
theorem C65_results {cfg : Cfg} {cloud : List (Vec3 ℝ)} {w : Vec3 ℝ}
    {search : Vec3 ℝ → ℝ → Outcome (List (ℕ × ℝ))} (hsearch : ExactOver cfg cloud w search) {b e : Vec3 ℝ}
    (hne : 0 < len (e - b)) {s : St} (hs : setRay cfg b e = .ok s) (n : ℕ) :
    ∃ (rs : List CastResult) (s' : St),
      nexts cfg search cloud.length n s = .ok (rs.map some ++ List.replicate (n - rs.length) none, s') ∧
      rs.length = min n (⌊(len (e - b) + cfg.hitTolerance) / cfg.gridMin⌋ - 1).toNat ∧
      ∀ k (hk : k < rs.length), resultAt cfg search cloud.length (rayPoint b e ((k + 1) * cfg.gridMin))
        ((e - b).normalized.smul cfg.gridMin) = .ok rs[k] := by
  unfold setRay at hs
  by_cases hg0 : cfg.gridMin = 0
  · rw [if_pos hg0] at hs; cases hs
  rw [if_neg hg0] at hs
  obtain ⟨L, hL, hs⟩ := DDA.bind_eq_ok hs
  obtain ⟨rfl, -⟩ := DDA.i32_ok hL
  have hz : ¬ (e - b).dot (e - b) = 0 := by
    intro h0
    have : len (e - b) = 0 := by
      rw [← DDA.norm_eq_len]; unfold Vec3.norm; rw [h0, Transc.sqrt_real, Real.sqrt_zero]
    linarith
  rw [if_neg hz] at hs
  simp only [DDA.norm_eq_len] at hs
  cases hs
  have h0 : b + (e - b).normalized.smul cfg.gridMin = rayPoint b e (((0 : ℕ) + 1) * cfg.gridMin) := by
    have hb : b = rayPoint b e 0 := by
      apply Vec3.ext <;> simp [rayPoint]
    conv_lhs => rw [hb]
    conv_lhs => rw [← hb]
    have := rayPoint_add (b := b) (e := e) 0 cfg.gridMin
    rw [← hb] at this
    rw [this]; congr 1; push_cast; ring
  obtain ⟨rs, s', h1, h2, h3⟩ := nexts_from (cfg := cfg) hsearch (b := b) (e := e)
    ⌊(len (e - b) + cfg.hitTolerance) / cfg.gridMin⌋ n 0
  rw [← h0] at h1
  refine ⟨rs, s', ?_, ?_, ?_⟩
  · have : (1 : ℤ) = ((0 : ℕ) : ℤ) + 1 := by simp
    rw [this]; exact h1
  · rw [h2]; simp
  · intro k hk
    rw [← h3 k hk]; congr 2; push_cast; ring

/-- C65: for a ray of positive length, `n` calls return results at the positions at distance
`k * grid` from the begin, `k = 1, 2, …`, in this order, until `k = floor((length + tolerance) / grid) - 1`
(or `n` results), and then only `false`; `grid` is the smallest map grid size. -/
theorem C65_samples {cfg : Cfg} {cloud : List (Vec3 ℝ)} {w : Vec3 ℝ}
    {search : Vec3 ℝ → ℝ → Outcome (List (ℕ × ℝ))} (hsearch : ExactOver cfg cloud w search) {b e : Vec3 ℝ}
    (hne : 0 < len (e - b)) {s : St} (hs : setRay cfg b e = .ok s) (n : ℕ) :
    ∃ (rs : List CastResult) (s' : St),
      nexts cfg search cloud.length n s = .ok (rs.map some ++ List.replicate (n - rs.length) none, s') ∧
      rs.length = min n (⌊(len (e - b) + cfg.hitTolerance) / cfg.gridMin⌋ - 1).toNat ∧
      ∀ k (hk : k < rs.length), rs[k].pos = rayPoint b e ((k + 1) * cfg.gridMin) := by
  obtain ⟨rs, s', h1, h2, h3⟩ := C65_results hsearch hne hs n
  refine ⟨rs, s', h1, h2, ?_⟩
  intro k hk
  obtain ⟨res, hr, hp⟩ := resultAt_ok (cfg := cfg) hsearch (rayPoint b e ((k + 1) * cfg.gridMin))
    ((e - b).normalized.smul cfg.gridMin)
  rw [h3 k hk] at hr
  cases hr
  exact hp

/-- C65: no result lies beyond the ray end by more than the tolerance (in fact by more than the
tolerance minus one grid step). -/
theorem C65_within {cfg : Cfg} (hg : 0 < cfg.gridMin) {cloud : List (Vec3 ℝ)} {w : Vec3 ℝ}
    {search : Vec3 ℝ → ℝ → Outcome (List (ℕ × ℝ))} (hsearch : ExactOver cfg cloud w search) {b e : Vec3 ℝ}
    (hne : 0 < len (e - b)) {s : St} (hs : setRay cfg b e = .ok s) (n : ℕ)
    {l : List (Option CastResult)} {s' : St}
    (hn : nexts cfg search cloud.length n s = .ok (l, s')) :
    ∀ res, some res ∈ l → OnRay (cfg.hitTolerance - cfg.gridMin) b e res.pos := by
  obtain ⟨rs, s2, h1, h2, h3⟩ := C65_samples hsearch hne hs n
  rw [hn] at h1
  cases h1
  intro res hres
  simp only [List.mem_append, List.mem_map, Option.some.injEq, exists_eq_right, List.mem_replicate,
    reduceCtorEq, and_false, or_false] at hres
  obtain ⟨k, hk, rfl⟩ := List.getElem_of_mem hres
  refine ⟨(k + 1) * cfg.gridMin, by positivity, ?_, h3 k hk⟩
  have hk' : ((k : ℤ) + 2) ≤ ⌊(len (e - b) + cfg.hitTolerance) / cfg.gridMin⌋ := by omega
  have : ((k : ℝ) + 2) ≤ (len (e - b) + cfg.hitTolerance) / cfg.gridMin := by
    have := Int.le_floor.1 hk'
    exact_mod_cast this
  rw [le_div_iff₀ hg] at this
  linarith

/-- C65: with a map cell size of 0 in some direction (and none negative) no ray can be set. -/
theorem C65_zero_grid {cfg : Cfg} (hx : 0 ≤ cfg.gridX) (hy : 0 ≤ cfg.gridY) (hz : 0 ≤ cfg.gridZ)
    (h : cfg.gridX = 0 ∨ cfg.gridY = 0 ∨ cfg.gridZ = 0) (b e : Vec3 ℝ) :
    setRay cfg b e = .ub "NaN converted to int" := by
  unfold setRay
  rw [if_pos]
  unfold Cfg.gridMin
  rcases h with h | h | h <;> rw [h]
  · rw [min_eq_left hy, min_eq_left hz]
  · rw [min_eq_right hx, min_eq_left hz]
  · exact min_eq_right (le_min hx hy)

/-- C65: a ray of length 0 is undefined as soon as the tolerance allows one result. -/
theorem C65_zero_length {cfg : Cfg} {search : Vec3 ℝ → ℝ → Outcome (List (ℕ × ℝ))} {m : ℕ} {b : Vec3 ℝ}
    {s : St} (hs : setRay cfg b b = .ok s) (htol : 2 ≤ ⌊cfg.hitTolerance / cfg.gridMin⌋) :
    getNext cfg search m s = .ub "NaN converted to int" := by
  unfold setRay at hs
  by_cases hg0 : cfg.gridMin = 0
  · rw [if_pos hg0] at hs; cases hs
  rw [if_neg hg0] at hs
  obtain ⟨L, hL, hs⟩ := DDA.bind_eq_ok hs
  obtain ⟨rfl, -⟩ := DDA.i32_ok hL
  have hz : (b - b).dot (b - b) = 0 := by
    change (b.x - b.x) * (b.x - b.x) + (b.y - b.y) * (b.y - b.y) + (b.z - b.z) * (b.z - b.z) = 0
    ring
  rw [if_pos hz] at hs
  cases hs
  have hn : (b - b).norm = 0 := by
    unfold Vec3.norm; rw [hz, Transc.sqrt_real, Real.sqrt_zero]
  unfold getNext
  rw [if_neg]
  simp only [hn, zero_add]
  omega

/-! ## C107 -/

/-- C107: with an exact search, a result is a collision exactly if some map point is within
`√2/2 * largest grid size` (weighted distance), and then carries a nearest map point. -/
theorem C107_collision {cfg : Cfg} {cloud : List (Vec3 ℝ)} {w : Vec3 ℝ}
    {search : Vec3 ℝ → ℝ → Outcome (List (ℕ × ℝ))} (hsearch : ExactOver cfg cloud w search) {pos inc : Vec3 ℝ}
    {res : CastResult} (hr : resultAt cfg search cloud.length pos inc = .ok res) :
    (res.collision = true ↔ ∃ p ∈ cloud, weightedDist w pos p < cfg.radius ^ 2) ∧
    (res.collision = true ↔ ∃ id, res.point = some id) ∧
    (∀ id, res.point = some id → ∃ p, cloud[id]? = some p ∧ weightedDist w pos p < cfg.radius ^ 2 ∧
      ∀ q ∈ cloud, weightedDist w pos p ≤ weightedDist w pos q) := by
  obtain ⟨r0, h0, hs0⟩ := hsearch pos _ (.inl rfl)
  obtain ⟨r1, h1, hs1⟩ := hsearch (pos - inc.smul 2) _ (.inr rfl)
  unfold resultAt at hr
  rw [h0, Outcome.bind_ok] at hr
  cases r0 with
  | nil =>
    cases hr
    refine ⟨?_, by simp, by simp⟩
    simp only [Bool.false_eq_true, false_iff, not_exists, not_and]
    intro p hp hd
    obtain ⟨i, hi⟩ := List.mem_iff_getElem?.1 hp
    rcases hs0.complete i p hi hd with h | ⟨h, h', -⟩
    · simp at h
    · simp at h'
  | cons a l =>
    obtain ⟨id, sq0⟩ := a
    obtain ⟨p, hp, hpd, hpr⟩ := hs0.sound (id, sq0) (by simp)
    simp only at hp hpd
    have hid : id < cloud.length := (List.getElem?_eq_some_iff.1 hp).1
    simp only at hr
    rw [if_neg (by omega), h1, Outcome.bind_ok] at hr
    have hl : l = [] := by
      have := hs0.bounded one_ne_zero
      simp at this; exact this
    subst hl
    have hmem : p ∈ cloud := List.mem_of_getElem? hp
    have hnear : ∀ q ∈ cloud, weightedDist w pos p ≤ weightedDist w pos q := by
      intro q hq
      by_cases hqd : weightedDist w pos q < cfg.radius ^ 2
      · obtain ⟨i, hi⟩ := List.mem_iff_getElem?.1 hq
        rcases hs0.complete i q hi hqd with h | ⟨-, -, h⟩
        · simp at h
          subst h
          rw [hp] at hi; cases hi; exact le_rfl
        · have := h (id, sq0) (by simp)
          simp only at this
          rw [← hpd]; exact this
      · exact hpr.le.trans (not_lt.1 hqd)
    cases r1 with
    | nil =>
      cases hr
      exact ⟨⟨fun _ => ⟨p, hmem, hpr⟩, fun _ => rfl⟩, by simp, fun id' h => by cases h; exact ⟨p, hp, hpr, hnear⟩⟩
    | cons b l' =>
      cases hr
      exact ⟨⟨fun _ => ⟨p, hmem, hpr⟩, fun _ => rfl⟩, by simp, fun id' h => by cases h; exact ⟨p, hp, hpr, hnear⟩⟩

/-- Vectors as elements of Euclidean space (proof device). -/
noncomputable def toE (v : Vec3 ℝ) : EuclideanSpace ℝ (Fin 3) := !₂[v.x, v.y, v.z]

theorem norm_toE_sub (q p : Vec3 ℝ) : ‖toE p - toE q‖ = Real.sqrt (weightedDist ⟨1, 1, 1⟩ q p) := by
  rw [EuclideanSpace.norm_eq]
  congr 1
  simp [toE, weightedDist, Fin.sum_univ_three]

/-- C107: with unit weights the reported sine of the incidence angle of a collision is the change of
the distance to the map over two steps back, divided by the way, and lies in [0, 1]; without a
collision it is 0. -/
theorem C107_sin_unit_weights {cfg : Cfg} (hg : 0 < cfg.gridMin) {cloud : List (Vec3 ℝ)}
    {search : Vec3 ℝ → ℝ → Outcome (List (ℕ × ℝ))} (hsearch : ExactOver cfg cloud ⟨1, 1, 1⟩ search)
    {b e pos : Vec3 ℝ} (hne : 0 < len (e - b)) {res : CastResult}
    (hr : resultAt cfg search cloud.length pos ((e - b).normalized.smul cfg.gridMin) = .ok res) :
    (res.collision = false → res.sinAngle = 0) ∧ 0 ≤ res.sinAngle ∧ res.sinAngle ≤ 1 ∧
    (res.collision = true → ∃ p ∈ cloud, ∃ q ∈ cloud, ∃ prev : Vec3 ℝ,
      prev = pos - ((e - b).normalized.smul cfg.gridMin).smul 2 ∧
      (∀ x ∈ cloud, weightedDist ⟨1, 1, 1⟩ pos p ≤ weightedDist ⟨1, 1, 1⟩ pos x) ∧
      (∀ x ∈ cloud, weightedDist ⟨1, 1, 1⟩ prev q ≤ weightedDist ⟨1, 1, 1⟩ prev x) ∧
      res.sinAngle = |Real.sqrt (weightedDist ⟨1, 1, 1⟩ prev q) - Real.sqrt (weightedDist ⟨1, 1, 1⟩ pos p)| /
        (cfg.gridMin * 2)) := by
  have hrad : 0 ≤ cfg.radius := by
    unfold Cfg.radius
    have : cfg.gridMin ≤ cfg.gridMax := by
      unfold Cfg.gridMin Cfg.gridMax
      exact (min_le_right _ _).trans (le_max_right _ _)
    have : 0 ≤ Real.sqrt 2 := Real.sqrt_nonneg 2
    have : 0 ≤ cfg.gridMax := by linarith
    positivity
  set prev := pos - ((e - b).normalized.smul cfg.gridMin).smul 2 with hprev
  have hstep : Real.sqrt (weightedDist ⟨1, 1, 1⟩ prev pos) = cfg.gridMin * 2 := by
    have hsq : len (e - b) ^ 2 = (e.x - b.x) ^ 2 + (e.y - b.y) ^ 2 + (e.z - b.z) ^ 2 := by
      unfold len; rw [Real.sq_sqrt (by positivity)]; rfl
    have hn := hne.ne'
    have : weightedDist ⟨1, 1, 1⟩ prev pos = (cfg.gridMin * 2) ^ 2 := by
      rw [hprev]
      unfold weightedDist Vec3.normalized
      rw [DDA.norm_eq_len]
      change (1 * (pos.x - (pos.x - (e.x - b.x) / len (e - b) * cfg.gridMin * 2))) ^ 2 +
        (1 * (pos.y - (pos.y - (e.y - b.y) / len (e - b) * cfg.gridMin * 2))) ^ 2 +
        (1 * (pos.z - (pos.z - (e.z - b.z) / len (e - b) * cfg.gridMin * 2))) ^ 2 = _
      generalize len (e - b) = l at *
      have h1 : ((e.x - b.x) ^ 2 + (e.y - b.y) ^ 2 + (e.z - b.z) ^ 2) / l ^ 2 = 1 := by
        rw [← hsq]; exact div_self (pow_ne_zero 2 hn)
      have : ∀ x y z g : ℝ, (1 * (pos.x - (pos.x - x / l * g * 2))) ^ 2 + (1 * (pos.y - (pos.y - y / l * g * 2))) ^ 2 +
        (1 * (pos.z - (pos.z - z / l * g * 2))) ^ 2 = (x ^ 2 + y ^ 2 + z ^ 2) / l ^ 2 * (g * 2) ^ 2 := by
        intro x y z g; ring
      rw [this, h1, one_mul]
    rw [this, Real.sqrt_sq (by linarith)]
  have tri1 : ∀ p : Vec3 ℝ, Real.sqrt (weightedDist ⟨1, 1, 1⟩ prev p) ≤
      Real.sqrt (weightedDist ⟨1, 1, 1⟩ pos p) + cfg.gridMin * 2 := by
    intro p
    rw [← hstep, ← norm_toE_sub, ← norm_toE_sub, ← norm_toE_sub]
    have := norm_add_le (toE p - toE pos) (toE pos - toE prev)
    simpa using this
  have tri2 : ∀ p : Vec3 ℝ, Real.sqrt (weightedDist ⟨1, 1, 1⟩ pos p) ≤
      Real.sqrt (weightedDist ⟨1, 1, 1⟩ prev p) + cfg.gridMin * 2 := by
    intro p
    rw [← hstep, ← norm_toE_sub, ← norm_toE_sub, ← norm_toE_sub]
    have := norm_sub_le (toE p - toE prev) (toE pos - toE prev)
    simpa using this
  have wnn : ∀ q p : Vec3 ℝ, 0 ≤ weightedDist ⟨1, 1, 1⟩ q p := fun q p => by unfold weightedDist; positivity
  obtain ⟨r0, h0, hs0⟩ := hsearch pos _ (.inl rfl)
  obtain ⟨r1, h1, hs1⟩ := hsearch prev _ (.inr rfl)
  have hC := C107_collision hsearch hr
  unfold resultAt at hr
  rw [h0, Outcome.bind_ok] at hr
  cases r0 with
  | nil => cases hr; simp
  | cons a l =>
    obtain ⟨id, sq0⟩ := a
    obtain ⟨p, hp, hpd, hpr⟩ := hs0.sound (id, sq0) (by simp)
    simp only at hp hpd
    have hid : id < cloud.length := (List.getElem?_eq_some_iff.1 hp).1
    simp only at hr
    rw [if_neg (by omega), ← hprev, h1, Outcome.bind_ok] at hr
    have hpmem : p ∈ cloud := List.mem_of_getElem? hp
    -- the point found at `pos` is within the second radius
    have hin : weightedDist ⟨1, 1, 1⟩ prev p < (cfg.gridMin * 2 + cfg.radius) ^ 2 := by
      have ha := tri1 p
      have hb : Real.sqrt (weightedDist ⟨1, 1, 1⟩ pos p) < cfg.radius := by
        rw [Real.sqrt_lt (wnn _ _) hrad]; exact hpr
      have hc : Real.sqrt (weightedDist ⟨1, 1, 1⟩ prev p) < cfg.gridMin * 2 + cfg.radius := by linarith
      rwa [Real.sqrt_lt (wnn _ _) (by linarith)] at hc
    cases r1 with
    | nil =>
      exfalso
      rcases hs1.complete id p hp hin with h | ⟨-, h, -⟩
      · simp at h
      · simp at h
    | cons a' l' =>
      obtain ⟨id', sq1⟩ := a'
      obtain ⟨q, hq, hqd, hqr⟩ := hs1.sound (id', sq1) (by simp)
      simp only at hq hqd
      have hqmem : q ∈ cloud := List.mem_of_getElem? hq
      have hnearq : ∀ x ∈ cloud, weightedDist ⟨1, 1, 1⟩ prev q ≤ weightedDist ⟨1, 1, 1⟩ prev x := by
        intro x hx
        by_cases hxd : weightedDist ⟨1, 1, 1⟩ prev x < (cfg.gridMin * 2 + cfg.radius) ^ 2
        · obtain ⟨i, hi⟩ := List.mem_iff_getElem?.1 hx
          have hl : l' = [] := by
            have := hs1.bounded one_ne_zero
            simp at this; exact this
          subst hl
          rcases hs1.complete i x hi hxd with h | ⟨-, -, h⟩
          · simp at h
            subst h
            rw [hq] at hi; cases hi; exact le_rfl
          · have := h (id', sq1) (by simp)
            simp only at this
            rw [← hqd]; exact this
        · exact hqr.le.trans (not_lt.1 hxd)
      have hnearp : ∀ x ∈ cloud, weightedDist ⟨1, 1, 1⟩ pos p ≤ weightedDist ⟨1, 1, 1⟩ pos x := by
        cases hr
        obtain ⟨p', hp', -, hmin⟩ := hC.2.2 id rfl
        rw [hp] at hp'; cases hp'; exact hmin
      cases hr
      subst hpd
      subst hqd
      have b1 : Real.sqrt (weightedDist ⟨1, 1, 1⟩ prev q) ≤ Real.sqrt (weightedDist ⟨1, 1, 1⟩ pos p) + cfg.gridMin * 2 :=
        (Real.sqrt_le_sqrt (hnearq p hpmem)).trans (tri1 p)
      have b2 : Real.sqrt (weightedDist ⟨1, 1, 1⟩ pos p) ≤ Real.sqrt (weightedDist ⟨1, 1, 1⟩ prev q) + cfg.gridMin * 2 :=
        (Real.sqrt_le_sqrt (hnearp q hqmem)).trans (tri2 q)
      refine ⟨by simp, by positivity, ?_, fun _ => ⟨p, hpmem, q, hqmem, prev, rfl, hnearp, hnearq, rfl⟩⟩
      rw [div_le_one (by linarith), abs_le]
      constructor <;> linarith

/-- Exact searches exist, for every cloud and all weights. -/
theorem exactSearch_exists (cloud : List (Vec3 ℝ)) (w : Vec3 ℝ) :
    ∃ search : Vec3 ℝ → ℝ → Outcome (List (ℕ × ℝ)), ∀ q r, ∃ res, search q r = .ok res ∧
      ExactSearch cloud (weightedDist w q) r 1 res := by
  classical
  have : ∀ q r, ∃ res : List (ℕ × ℝ), ExactSearch cloud (weightedDist w q) r 1 res := by
    intro q r
    by_cases hex : ∃ i : Fin cloud.length, weightedDist w q cloud[i] < r ^ 2
    · have hne : (Finset.univ.filter fun i : Fin cloud.length => weightedDist w q cloud[i] < r ^ 2).Nonempty := by
        obtain ⟨i, hi⟩ := hex
        exact ⟨i, by simpa using hi⟩
      obtain ⟨i, hi, hmin⟩ := Finset.exists_min_image _ (fun i : Fin cloud.length => weightedDist w q cloud[i]) hne
      have hi' : weightedDist w q cloud[i] < r ^ 2 := by simpa using hi
      refine ⟨[(i, weightedDist w q cloud[i])], ⟨by simp, ?_, by simp, by simp, ?_⟩⟩
      · intro e he
        simp at he; subst he
        exact ⟨cloud[i], by simp, rfl, hi'⟩
      · intro j p hj hd
        right
        refine ⟨by simp, by simp, ?_⟩
        intro e he
        simp at he; subst he
        obtain ⟨hj', rfl⟩ := List.getElem?_eq_some_iff.1 hj
        exact hmin ⟨j, hj'⟩ (by simpa using hd)
    · refine ⟨[], ⟨by simp, by simp, by simp, by simp, ?_⟩⟩
      intro j p hj hd
      exfalso
      obtain ⟨hj', rfl⟩ := List.getElem?_eq_some_iff.1 hj
      exact hex ⟨⟨j, hj'⟩, hd⟩
  choose f hf using this
  exact ⟨fun q r => .ok (f q r), fun q r => ⟨f q r, rfl, hf q r⟩⟩

/-- … so the hypothesis `ExactOver` of the theorems above can be met. -/
theorem exactOver_exists (cfg : Cfg) (cloud : List (Vec3 ℝ)) (w : Vec3 ℝ) : ∃ search, ExactOver cfg cloud w search := by
  obtain ⟨search, hs⟩ := exactSearch_exists cloud w
  exact ⟨search, fun q r _ => hs q r⟩

/-- C65 applied: 1 m grid, ray of 5 m along x, no tolerance: exactly the four results at 1, 2, 3 and
4 m. -/
example (cloud : List (Vec3 ℝ)) : ∃ search s rs s',
    setRay ⟨1, 1, 1, 0⟩ ⟨0, 0, 0⟩ ⟨5, 0, 0⟩ = .ok s ∧
    nexts ⟨1, 1, 1, 0⟩ search cloud.length 10 s = .ok (List.map some rs ++ List.replicate 6 none, s') ∧
    rs.length = 4 := by
  obtain ⟨search, hsearch⟩ := exactOver_exists ⟨1, 1, 1, 0⟩ cloud ⟨1, 1, 5⟩
  have hlen : len ((⟨5, 0, 0⟩ : Vec3 ℝ) - ⟨0, 0, 0⟩) = 5 := by
    unfold len
    change Real.sqrt ((5 - 0) ^ 2 + (0 - 0) ^ 2 + (0 - 0) ^ 2) = 5
    rw [show ((5 : ℝ) - 0) ^ 2 + (0 - 0) ^ 2 + (0 - 0) ^ 2 = 5 ^ 2 by norm_num]
    exact Real.sqrt_sq (by norm_num)
  have hgm : (⟨1, 1, 1, 0⟩ : Cfg).gridMin = 1 := by simp [Cfg.gridMin]
  have hs : ∃ s, setRay ⟨1, 1, 1, 0⟩ ⟨0, 0, 0⟩ ⟨5, 0, 0⟩ = .ok s := by
    unfold setRay
    rw [if_neg (by rw [hgm]; norm_num), DDA.norm_eq_len, hlen, hgm, DDA.i32_of (by norm_num) (by norm_num), Outcome.bind_ok]
    split_ifs
    · exact ⟨_, rfl⟩
    · exact ⟨_, rfl⟩
  obtain ⟨s, hs⟩ := hs
  obtain ⟨rs, s', h1, h2, -⟩ := C65_samples (cloud := cloud) hsearch (by rw [hlen]; norm_num) hs 10
  have h4 : rs.length = 4 := by
    rw [h2, hlen, hgm]
    have : ⌊(5 + (⟨1, 1, 1, 0⟩ : Cfg).hitTolerance) / 1⌋ = (5 : ℤ) := by
      change ⌊((5 : ℝ) + 0) / 1⌋ = 5
      norm_num
    rw [this]; rfl
  refine ⟨search, s, rs, s', hs, ?_, h4⟩
  rw [h1, h4]

end KDRay
end Mcl3dl
