import Verif.Spec.Concentrate
import Mathlib.Data.List.Forall2

/-! # Specification for C177: likelihoods known up to a factor -/

namespace Mcl3dl
namespace PF
variable {S F : Type}

/-- On the states of the particles `lik` is positive and `lik'` is between `a` and `b` times it. -/
def Within [Zero F] [Mul F] [LT F] [LE F] (ps : List (Particle S F)) (a b : F) (lik lik' : S → F) : Prop :=
  ∀ p ∈ ps, 0 < lik p.state ∧ a * lik p.state ≤ lik' p.state ∧ lik' p.state ≤ b * lik p.state

/-- The same states in the same order, and each weight differs by at most the factor `b/a`. -/
def Close [Mul F] [LE F] (a b : F) (ps ps' : List (Particle S F)) : Prop :=
  List.Forall₂ (fun q q' => q'.state = q.state ∧ a * q.prob ≤ b * q'.prob ∧ a * q'.prob ≤ b * q.prob) ps ps'

end PF
end Mcl3dl
