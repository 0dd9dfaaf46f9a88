import Verif.Model.Loop
import Verif.Model.Quat
import Verif.Model.Num
import Verif.Model.XR
import Mathlib.Data.Matrix.Mul
import Mathlib.Data.Real.Basic

/-!
# Models of the point-cloud samplers

Source: /repo/include/mcl_3dl/point_cloud_random_sampler.h,
/repo/include/mcl_3dl/point_cloud_random_samplers/point_cloud_uniform_sampler.h and
/repo/include/mcl_3dl/point_cloud_random_samplers/point_cloud_sampler_with_normal.h.

Random numbers are the values of a stream given as a parameter; `Eigen::SelfAdjointEigenSolver` and
`pcl::NormalEstimation` are parameters (their contracts are hypotheses of the theorems that need them).
The weighted sampler is written over any number type, so that NaN can be studied.
-/

namespace Mcl3dl
namespace Sampler

/-- `pcl::PointCloud`: header and points. -/
structure Cloud (H P : Type) where
  header : H
  points : List P

/-- point_cloud_uniform_sampler.h:68-71, from draw number `k` on; `ud k` is the k-th value of
`std::uniform_int_distribution(0, size - 1)`. -/
def uniformLoop {P : Type} (ud : ℕ → ℕ) (pts : List P) : ℕ → ℕ → Outcome (List P)
  | 0, _ => .ok []
  | n + 1, k =>
    match pts[ud k]? with
    | none => .ub "points[] out of range"
    | some p => (uniformLoop ud pts n (k + 1)).bind fun ps => .ok (p :: ps)

/-- point_cloud_uniform_sampler.h:56-74 `sample`. -/
def uniform {H P : Type} (ud : ℕ → ℕ) (pc : Cloud H P) (num : ℕ) : Outcome (Cloud H P) :=
  if pc.points.length = 0 then .ok ⟨pc.header, []⟩
  else (uniformLoop ud pc.points num 0).bind fun ps => .ok ⟨pc.header, ps⟩

/-- parameters.h `PointCloudSamplerWithNormalParameters` (the search range belongs to the normal
estimation). -/
structure Params (F : Type) where
  performWeightingRatio : F
  maxWeightRatio : F
  maxWeight : F

/-- The members set by `setParticleStatistics`: the mean orientation, the two larger eigenvalues and
the eigenvector of the largest one (`eigen_vectors_` column 2). -/
structure Stats (F : Type) where
  meanRot : Quat F
  eval1 : F
  eval2 : F
  evec2 : Vec3 F

section
variable {F : Type} [Zero F] [One F] [Neg F] [Add F] [Sub F] [Mul F] [Div F] [LT F] [DecidableLT F] [Transc F]

/-- point_cloud_sampler_with_normal.h:112-127: the weight of a point facing the principal axis. -/
def maxWeightOf (p : Params F) (ratio : F) : F :=
  if ratio < p.performWeightingRatio then 1
  else if p.maxWeightRatio < ratio then p.maxWeight
  else
    let weightRatio := (ratio - p.performWeightingRatio) / (p.maxWeightRatio - p.performWeightingRatio)
    1 + (p.maxWeight - 1) * weightRatio

/-- `M_PI / 2`. -/
def halfPi : F := Transc.pi / (1 + 1)

/-- point_cloud_sampler_with_normal.h:142-156: the weight of one point; `none`: its normal is NaN. -/
def pointWeight (maxW : F) (axis : Vec3 F) (normal : Option (Vec3 F)) : F :=
  match normal with
  | none => 1
  | some n =>
    let a := cabs (n.x * axis.x + n.y * axis.y + n.z * axis.z)
    let a := if 1 < a then 1 else a
    1 + (maxW - 1) * ((halfPi - Transc.acos a) / halfPi)

/-- point_cloud_sampler_with_normal.h:157: cumulative sums; `acc` is the previous one (`0.0` at first). -/
def cumulative (acc : F) : List F → List F
  | [] => []
  | w :: ws => (w + acc) :: cumulative (w + acc) ws

/-- point_cloud_sampler_with_normal.h:165-166 `std::lower_bound`: the first position whose value is not
less than `r`.  (For a range that is not partitioned, which needs negative weights, `lower_bound` is
undefined; not modelled.) -/
def lowerBound (c : List F) (r : F) : ℕ := c.findIdx fun x => !decide (x < r)

/-- point_cloud_sampler_with_normal.h:162-172: one round.  State: number of random values used and the
selected ids.  `std::uniform_real_distribution(0, back)` yields `canon * (back - 0) + 0`, where
`canon k` is the k-th number in [0, 1). -/
def selectRound (canon : ℕ → F) (c : List F) (back : F) (num : ℕ) (s : ℕ × List ℕ) :
    Outcome ((ℕ × List ℕ) ⊕ List ℕ) :=
  let r := canon s.1 * (back - 0) + 0
  let n := lowerBound c r
  let sel := if n ∈ s.2 then s.2 else n :: s.2
  if num ≤ sel.length then .ok (.inr sel) else .ok (.inl (s.1 + 1, sel))

/-- point_cloud_sampler_with_normal.h:174-177: reading the selected points. -/
def pick {P : Type} (pts : List P) : List ℕ → Outcome (List P)
  | [] => .ok []
  | i :: is =>
    match pts[i]? with
    | none => .ub "points[] out of range"
    | some p => (pick pts is).bind fun ps => .ok (p :: ps)

/-- point_cloud_sampler_with_normal.h:110-158: the cumulative weights of a cloud with the given
normals. -/
def cumulativeWeights (p : Params F) (st : Stats F) (normals : List (Option (Vec3 F))) : List F :=
  let ratio := Transc.sqrt (st.eval2 / st.eval1)
  let maxW := maxWeightOf p ratio
  let axis := st.meanRot.inv.rotate st.evec2
  cumulative 0 (normals.map (pointWeight maxW axis))

/-- point_cloud_sampler_with_normal.h:91-185 `sample`.  `stats = none`: `setParticleStatistics` was
never called.  `normalsOf` is the normal estimation, `order` the iteration order of the
`unordered_set`. -/
noncomputable def sampleWithNormal {H P : Type} (p : Params F) (stats : Option (Stats F))
    (normalsOf : List P → List (Option (Vec3 F))) (canon : ℕ → F) (order : List ℕ → List ℕ)
    (pc : Cloud H P) (num : ℕ) : Outcome (Cloud H P) :=
  if pc.points.length = 0 ∨ num = 0 then .ok ⟨pc.header, []⟩
  else if pc.points.length ≤ num then .ok pc
  else
    match stats with
    | none => .ub "eigen_values_ is empty"
    | some st =>
      let c := cumulativeWeights p st (normalsOf pc.points)
      match c.getLast? with
      | none => .ub "back() of an empty vector"
      | some back =>
        (loopO (selectRound canon c back num) (0, [])).bind fun sel =>
        (pick pc.points (order sel)).bind fun ps => .ok ⟨pc.header, ps⟩

end

/-- The contract of `Eigen::SelfAdjointEigenSolver`: ascending eigenvalues, column `j` of `vecs` is a
unit eigenvector for `vals j`, the columns are orthogonal. -/
structure EigenSolved (A : Matrix (Fin 3) (Fin 3) ℝ) (vals : Fin 3 → ℝ) (vecs : Matrix (Fin 3) (Fin 3) ℝ) : Prop where
  ascending : vals 0 ≤ vals 1 ∧ vals 1 ≤ vals 2
  eigen : ∀ j i, (∑ k, A i k * vecs k j) = vals j * vecs i j
  orthonormal : ∀ i j, (∑ k, vecs k i * vecs k j) = if i = j then 1 else 0

/-- point_cloud_sampler_with_normal.h:78-85: the matrix given to the solver. -/
noncomputable def posCov (cov : Matrix (Fin 3) (Fin 3) ℝ) : Matrix (Fin 3) (Fin 3) ℝ :=
  Matrix.of fun i j => |cov i j|

/-- point_cloud_sampler_with_normal.h:75-89 `setParticleStatistics`; `solve` is the eigen solver. -/
noncomputable def setParticleStatistics
    (solve : Matrix (Fin 3) (Fin 3) ℝ → (Fin 3 → ℝ) × Matrix (Fin 3) (Fin 3) ℝ)
    (meanRot : Quat ℝ) (cov : Matrix (Fin 3) (Fin 3) ℝ) : Stats ℝ :=
  let r := solve (posCov cov)
  ⟨meanRot, r.1 1, r.1 2, ⟨r.2 0 2, r.2 1 2, r.2 2 2⟩⟩

/-! ## Finite inputs in extended arithmetic -/

/-- A vector of finite numbers. -/
def finV (v : Vec3 ℝ) : Vec3 XR := ⟨.fin v.x, .fin v.y, .fin v.z⟩
/-- A quaternion of finite numbers. -/
def finQ (q : Quat ℝ) : Quat XR := ⟨.fin q.x, .fin q.y, .fin q.z, .fin q.w⟩
/-- Finite parameters. -/
def finP (p : Params ℝ) : Params XR := ⟨.fin p.performWeightingRatio, .fin p.maxWeightRatio, .fin p.maxWeight⟩
/-- Finite statistics. -/
def finS (s : Stats ℝ) : Stats XR := ⟨finQ s.meanRot, .fin s.eval1, .fin s.eval2, finV s.evec2⟩

end Sampler
end Mcl3dl
