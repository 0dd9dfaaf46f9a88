import Verif.Model.State6DOF
import Mathlib.Data.List.FinRange
import Mathlib.Algebra.BigOperators.Fin

/-!
# Model of `MultivariateNoiseGenerator`

Source: /repo/include/mcl_3dl/noise_generators/multivariate_noise_generator.h.  The eigen solver is a
parameter; its contract is `Solved`.
-/

namespace Mcl3dl
namespace MultiNoise
variable {F : Type}

/-- multivariate_noise_generator.h:62-73: `covariance[j + i * dim]` read as a matrix. -/
def covMatrix {n : ℕ} (cov : ℕ → F) (i j : Fin n) : F := cov (j + i * n)

/-- `Eigen::SelfAdjointEigenSolver` reads the lower triangle only. -/
def lowerSym {n : ℕ} (A : Fin n → Fin n → F) (i j : Fin n) : F := if j ≤ i then A i j else A j i

/-- Contract of `Eigen::SelfAdjointEigenSolver` for an `n × n` matrix: column `j` of `vecs` is an
eigenvector for `vals j` of the symmetric matrix given by the lower triangle, the columns are
orthonormal. -/
structure Solved {n : ℕ} (A : Fin n → Fin n → ℝ) (vals : Fin n → ℝ) (vecs : Fin n → Fin n → ℝ) : Prop where
  eigen : ∀ i j, (∑ k, lowerSym A i k * vecs k j) = vals j * vecs i j
  orthonormal : ∀ i j, (∑ k, vecs k i * vecs k j) = if i = j then 1 else 0

section
variable [Zero F] [Add F] [Mul F] [Transc F]

/-- multivariate_noise_generator.h:74-75:
`norm_transform_ = eigenvectors() * eigenvalues().cwiseSqrt().asDiagonal()`. -/
def normTransform {n : ℕ} (vals : Fin n → F) (vecs : Fin n → Fin n → F) (i j : Fin n) : F :=
  vecs i j * Transc.sqrt (vals j)

/-- Eigen matrix-vector product (summation order is not specified by Eigen; here left to right). -/
def matVec {n : ℕ} (t : Fin n → Fin n → F) (z : Fin n → F) (i : Fin n) : F :=
  (List.finRange n).foldl (fun a j => a + t i j * z j) 0

/-- multivariate_noise_generator.h:78-90: the noise made from the `n` standard normal draws `z`. -/
def noise {n : ℕ} (mean : Fin n → F) (t : Fin n → Fin n → F) (z : Fin n → F) (i : Fin n) : F :=
  mean i + matVec t z i

end

/-- multivariate_noise_generator.h:46-57 and 59-91: the generator with mean and (6 × 6) covariance, as
used by cbPosition; `nd` is one standard normal draw, `solve` the eigen solver. -/
def gen {E : Type} [Zero F] [Add F] [Mul F] [Transc F] (nd : E → F × E)
    (solve : (Fin 6 → Fin 6 → F) → (Fin 6 → F) × (Fin 6 → Fin 6 → F))
    (mean : List F) (cov : ℕ → F) : NoiseGen F E where
  mean := mean
  draw := fun e =>
    let r := solve (covMatrix cov)
    let (zs, e') := NoiseGen.drawN nd 6 e
    .ok (List.ofFn (noise (fun i => mean.getD i 0) (normTransform r.1 r.2) (fun i => zs.getD i 0)), e')

end MultiNoise
end Mcl3dl
