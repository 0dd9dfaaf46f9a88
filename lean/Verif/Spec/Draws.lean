import Verif.Model.PF
import Mathlib.MeasureTheory.Integral.IntervalIntegral.Basic

/-! # Specification: averages over the random draw of a resampling -/

namespace Mcl3dl
namespace PF
variable {S : Type}

/-- The average over the draws: the draw is uniform between 0 and the total weight divided by the number of particles. -/
noncomputable def overDraws (f : Filter S ℝ) (F : ℝ → ℝ) : ℝ :=
  (∫ u in (0 : ℝ)..((f.particles.map Particle.prob).sum / f.particles.length), F u) /
    ((f.particles.map Particle.prob).sum / f.particles.length)

end PF
end Mcl3dl
