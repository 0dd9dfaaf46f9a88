import Verif.Spec.NodeStatus

/-! # Specification for C172: a node without particles -/

namespace Mcl3dl
namespace Node

/-- Nothing is localized: no pose, no transform, no markers, and published particle clouds are empty. -/
def Out.Idle : Out → Prop
  | .pose .. | .transforms _ | .markers _ => False
  | .particles _ ps => ps = []
  | _ => True

/-- Every message of every callback is idle. -/
def AllIdle (outs : List (List Out)) : Prop := ∀ o ∈ outs, ∀ x ∈ o, x.Idle

/-- The same node with the particles thrown away. -/
def emptied {C : Type} (n : Node C) : Node C :=
  { n with loc := { n.loc with pf := { n.loc.pf with particles := [] } } }

/-- The event asks for a positive number of particles. -/
def AsksParticles : Event × Env → Prop
  | (.resize size, _) => 0 < size
  | _ => False

end Node
end Mcl3dl
