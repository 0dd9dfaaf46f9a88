import Verif.Model.NodeMeasure

/-!
# The bias and the estimate of one measurement, over any number type

The node model (`Model/NodeMeasure.lean`) is over the real numbers.  The two steps whose result can stop being a number
are repeated here over an abstract number type, so that they can be read over the extended reals with NaN.
-/

namespace Mcl3dl

section
variable {F : Type} [Zero F] [One F] [Neg F] [Add F] [Sub F] [Mul F] [Div F] [NatCast F]
  [LT F] [DecidableLT F] [LE F] [DecidableLE F] [Transc F] [ExpFn F]

/-- mcl_3dl.cpp:436-450: the bias around the previous estimate (particle count not above `num_particles`); `eps` is the
literal `1e-6`. -/
def biasAround (vl va eps : F) (prev : State6 F) (f : PF.Filter (State6 F) F) : PF.Filter (State6 F) F :=
  f.bias fun s _ =>
    (NormalLikelihood.make vl).eval ((s.pos - prev.pos).norm) *
      (NormalLikelihood.make va).eval ((s.rot * prev.rot.inv).getAxisAng.2) + eps

/-- mcl_3dl.cpp:451: the estimate before its orientation is normalized; this is what the assertions of lines 454-460
check. -/
def rawEstimate (f : PF.Filter (State6 F) F) : State6 F := f.expectationBiased State6.meanQuat

/-- mcl_3dl.cpp:451 and 462. -/
def estimateOf (f : PF.Filter (State6 F) F) : State6 F := (rawEstimate f).normalize

/-- The estimates of a series of measurements (mcl_3dl.cpp:436-462 and 660): `fs` are the particle sets after each
`pf_->measure`, none larger than `num_particles`; every estimate becomes `state_prev_`, around which the next bias is
centred.  What the filter does between two measurements is in the `fs`. -/
def estimatesFrom (vl va eps : F) : State6 F → List (PF.Filter (State6 F) F) → List (State6 F)
  | _, [] => []
  | prev, f :: fs =>
    let e := estimateOf (biasAround vl va eps prev f)
    e :: estimatesFrom vl va eps e fs

end

namespace Node

/-- The node model uses these definitions. -/
theorem estimate_eq (f : Filter) : estimate f = estimateOf f := rfl

/-- The node model uses these definitions. -/
theorem biasFilter_eq (P : Params) (prev : State6 ℝ) (f : Filter) (h : (f.particles.length : ℤ) ≤ P.numParticles) :
    biasFilter P prev f = biasAround P.biasVarDist P.biasVarAng (1 / 1000000) prev f := by
  unfold biasFilter
  rw [if_neg (not_lt.2 h)]
  rfl

end Node
end Mcl3dl
