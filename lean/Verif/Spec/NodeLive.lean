import Verif.Spec.NodeBatch

/-! # Specification for bounded waiting -/

namespace Mcl3dl
namespace Node

/-- The number of clouds received. -/
def cloudCount (t : History) : ℕ := t.countP fun e => match e.1 with
  | .cloud _ _ => true
  | _ => false

/-- No map is received or loaded. -/
def KeepsMap (t : History) : Prop := ∀ e ∈ t, (∀ s m, e.1 ≠ .mapcloud s m) ∧ ∀ f, e.1 ≠ .loadPcd f

/-- Every cloud can be used: it has points and its frame can be transformed. -/
def UsableClouds (P : Params) (t : History) : Prop :=
  ∀ e ∈ t, ∀ header msg, e.1 = .cloud header msg → scanOf P e.2 header msg ≠ none

/-- The largest number of clouds in a batch. -/
def batchMax (P : Params) : ℕ := if P.accumCloud = 0 then 1 else Params.toSize P.totalAccumCloudMax

/-- All transforms are known. -/
def TfKnown (env : Env) : Prop := (∀ a b t, env.tf a b t ≠ none) ∧ ∀ a t b s f, env.tfFull a t b s f ≠ none

end Node
end Mcl3dl
