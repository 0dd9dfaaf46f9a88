import Verif.Model.PF

/-! # Specification: repeated measurements -/

namespace Mcl3dl
namespace PF
variable {S F : Type}

/-- One measurement after the other, without resampling or motion in between. -/
def Filter.measureAll [Zero F] [One F] [Neg F] [Add F] [Mul F] [Div F] [LT F] [DecidableLT F] (log : F → F) (f : Filter S F)
    (liks : List (S → F)) : Filter S F :=
  liks.foldl (fun f lik => f.measure log lik) f

/-- A measurement favours particle `j`: its likelihood is positive, and that of every other particle at most the fraction
`ρ` of it. -/
def Favours [Zero F] [Mul F] [LT F] [LE F] (ps : List (Particle S F)) (j : Fin ps.length) (ρ : F) (lik : S → F) : Prop :=
  0 < lik ps[j].state ∧ ∀ i : Fin ps.length, i ≠ j → 0 ≤ lik ps[i].state ∧ lik ps[i].state ≤ ρ * lik ps[j].state

end PF
end Mcl3dl
