import Verif.Model.NodeMeasure

/-! # Specification of the noise given to particles -/

namespace Mcl3dl
namespace Node

/-- The standard deviations of a noise parameter: x, y, z, roll, pitch, yaw. -/
def sigmas (s : State6 ℝ) : Fin 6 → ℝ := ![s.pos.x, s.pos.y, s.pos.z, s.rpy.x, s.rpy.y, s.rpy.z]

/-- `idx k i` is the random number used for component `i` of particle `k`: wherever it matters (the standard
deviation is not zero), no number is used twice. -/
def Fresh (σ : Fin 6 → ℝ) (idx : ℕ → Fin 6 → ℕ) : Prop :=
  ∀ k i k' i', σ i ≠ 0 → σ i' ≠ 0 → idx k i = idx k' i' → k = k' ∧ i = i'

/-- `s'` is `s` shifted by `d 0`, `d 1`, `d 2` along and turned by roll `d 3`, pitch `d 4` and yaw `d 5` about the
axes of the map. -/
def Moved (d : Fin 6 → ℝ) (s s' : State6 ℝ) : Prop :=
  s'.pos = s.pos + ⟨d 0, d 1, d 2⟩ ∧ s'.rot = Quat.ofRPY ⟨d 3, d 4, d 5⟩ * s.rot

/-- The coefficients of the odometry error of a particle: translation per translation, rotation per
translation, translation per rotation, rotation per rotation. -/
def drift (s : State6 ℝ) : ℝ × ℝ × ℝ × ℝ := (s.noiseLL, s.noiseLA, s.noiseAL, s.noiseAA)

/-- `s'` is `s` disturbed by `d`: the pose is moved, the recorded odometry error grows by the same amounts, and
the coefficients of the odometry error are gone. -/
def Disturbed (d : Fin 6 → ℝ) (s s' : State6 ℝ) : Prop :=
  Moved d s s' ∧ s'.integLin = s.integLin + ⟨d 0, d 1, d 2⟩ ∧ s'.integAng = s.integAng + ⟨d 3, d 4, d 5⟩ ∧
  drift s' = (0, 0, 0, 0)

/-- The estimate moved from `prev` to `est` by more than `jump_dist` or turned by more than `jump_ang`. -/
def Leapt (P : Params) (prev est : State6 ℝ) : Prop :=
  P.jumpDist < (est.pos - prev.pos).norm ∨ P.jumpAng < |(est.rot.inv * prev.rot).getAxisAng.2|

/-- `s'` is `s` with the recorded odometry error forgotten if `c`, and otherwise `s` itself. -/
def Forgot (c : Prop) (s s' : State6 ℝ) : Prop :=
  (c → s' = { s with integLin := 0, integAng := 0 }) ∧ (¬ c → s' = s)

/-- `s'` is `s` disturbed by `d`, with the quaternion normalised. -/
def Scattered (d : Fin 6 → ℝ) (s s' : State6 ℝ) : Prop :=
  ∃ s1, Disturbed d s s1 ∧ s' = { s1 with rot := s1.rot.normalized }

/-- `s'` is `s` with the coefficients of the odometry error `z` times the parameters. -/
def Drifting (P : Params) (z : ℝ × ℝ × ℝ × ℝ) (s s' : State6 ℝ) : Prop :=
  s' = { s with
    noiseLL := z.1 * P.errLinLin
    noiseLA := z.2.1 * P.errLinAng
    noiseAA := z.2.2.1 * P.errAngAng
    noiseAL := z.2.2.2 * P.errAngLin }

/-- Slot `i` is slot `j` or one of the slots of weight 0 directly after it. -/
def Kin (weights : List ℝ) (j i : ℕ) : Prop :=
  j ≤ i ∧ ∀ k w, j < k → k ≤ i → weights[k]? = some w → w = 0

open Classical in
/-- How many of the first `N` slots come from `j` or from a slot of weight 0 directly after it. -/
noncomputable def copies (weights : List ℝ) (anc : ℕ → ℕ) (N j : ℕ) : ℕ :=
  (List.range N).countP fun k => decide (Kin weights j (anc k))

/-- Systematic resampling: new slot `k` is a copy of old slot `anc k`.  `ord c` is the slot that the sort puts in
place `c`; it may put slots of equal cumulative weight in any order. -/
structure Sources (weights : List ℝ) (unit : ℝ) (anc ord : ℕ → ℕ) : Prop where
  /-- the sort puts every slot in one place, by cumulative weight -/
  lt : ∀ c < weights.length, ord c < weights.length
  inj : ∀ c < weights.length, ∀ d < weights.length, ord c = ord d → c = d
  sorted : ∀ c d, c < d → d < weights.length → (weights.take (ord c + 1)).sum ≤ (weights.take (ord d + 1)).sum
  /-- every new slot has a source -/
  source : ∀ k < weights.length, anc k < weights.length
  /-- the sources are in this order -/
  order : ∀ k l, k ≤ l → l < weights.length → ∀ c < weights.length, ∀ d < weights.length,
    ord c = anc k → ord d = anc l → c ≤ d
  /-- a slot of positive weight, with the slots of weight 0 directly after it, has as many copies as the weight
  demands up to rounding if the number drawn for the start is positive, and in any case up to 1 -/
  count : ∀ j w, weights[j]? = some w → 0 < w →
    (0 < unit → ⌊(weights.length : ℝ) * w / weights.sum⌋ ≤ (copies weights anc weights.length j : ℤ) ∧
      (copies weights anc weights.length j : ℤ) ≤ ⌈(weights.length : ℝ) * w / weights.sum⌉) ∧
    |(copies weights anc weights.length j : ℝ) - (weights.length : ℝ) * w / weights.sum| ≤ 1
  /-- a slot of weight 0 is copied only if 0 is drawn and nothing before it has a weight, or if the sort puts it before
  the slot of positive weight that it directly follows -/
  zero : ∀ k < weights.length, weights[anc k]? = some 0 →
    (unit = 0 ∧ ∀ (i : ℕ) (w : ℝ), i ≤ anc k → weights[i]? = some w → w = 0) ∨
    ∃ (j : ℕ) (w : ℝ) (c d : ℕ), weights[j]? = some w ∧ 0 < w ∧ j < anc k ∧ Kin weights j (anc k) ∧ c < d ∧
      d < weights.length ∧ ord c = anc k ∧ ord d = j

/-- The slots of a resampled set in terms of the slots they come from. -/
structure Resampling (P : Params) (env : Env) (jumped : Prop) (expands : Prop) (weights : List ℝ)
    (old new : List (State6 ℝ)) (anc ord : ℕ → ℕ) (idx idx' : ℕ → Fin 6 → ℕ) : Prop where
  /-- as many as before -/
  length : new.length = old.length
  /-- the noise is made of different random numbers -/
  fresh : Fresh (sigmas P.resampleVar) idx
  fresh' : Fresh (sigmas P.expansionVar) idx'
  /-- the slots are drawn in proportion to the weights -/
  sources : Sources weights env.unit anc ord
  /-- each comes from an old one, scattered if the slot before has the same source (for the first: if the source is the
  one sorted first), otherwise as it is; then it gets its odometry error coefficients; if the particles are to be
  expanded it is disturbed. -/
  slot : ∀ k s', new[k]? = some s' → ∃ s a b : State6 ℝ, old[anc k]? = some s ∧ Forgot jumped s a ∧
    (if anc k = (if k = 0 then ord 0 else anc (k - 1)) then
      Scattered (fun i => sigmas P.resampleVar i * env.normal 0 (idx k i)) a b
    else b = a) ∧
    (expands → Disturbed (fun i => sigmas P.expansionVar i * env.normal 1 (idx' k i)) b s') ∧
    (¬ expands → Drifting P (env.driftNoise k) b s')

end Node
end Mcl3dl
