import Mathlib.Data.Real.Basic
import Mathlib.Data.Fintype.BigOperators

/-!
# Specification of what random sampling is expected to give
-/

namespace Mcl3dl
namespace Sampler

/-- The average of `F` over all sequences of `num` draws from `N` things, each sequence being equally likely. -/
noncomputable def overSamples (N num : ℕ) (F : (Fin num → Fin N) → ℝ) : ℝ := (∑ d, F d) / (N : ℝ) ^ num

/-- A stream of random integers that begins with the draws `d`. -/
def stream {N num : ℕ} (d : Fin num → Fin N) (k : ℕ) : ℕ := if h : k < num then d ⟨k, h⟩ else 0

/-- The mean of a quantity over a list of points. -/
noncomputable def meanOver {P : Type} (g : P → ℝ) (l : List P) : ℝ := (l.map g).sum / l.length

/-- The variance of a quantity over a list of points. -/
noncomputable def varOver {P : Type} (g : P → ℝ) (l : List P) : ℝ := meanOver (fun p => (g p - meanOver g l) ^ 2) l

end Sampler
end Mcl3dl
