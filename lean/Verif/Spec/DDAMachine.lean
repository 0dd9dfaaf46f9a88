import Verif.Model.DDAMachine
import Verif.Spec.DDA

/-! # Specification for C175: what is asked of the arithmetic, and the reachable casters -/

namespace Mcl3dl
namespace DDA

/-- All that is asked of the arithmetic: comparison is a total preorder, rounding never reverses an order, and the
lowest corner is in cell 0. -/
structure Machine.Monotone {F : Type} (M : Machine F) : Prop where
  lt_irrefl : ∀ a, ¬ M.lt a a
  le_trans : ∀ a b c, ¬ M.lt b a → ¬ M.lt c b → ¬ M.lt c a
  sub_mono : ∀ a b c, ¬ M.lt b a → ¬ M.lt (M.sub b c) (M.sub a c)
  cell_mono : ∀ a b, ¬ M.lt b a → M.cell a ≤ M.cell b
  cell_self : ∀ a, M.cell (M.sub a a) = 0

/-- The bounding box really bounds the points and the cloud has points. -/
structure MCloud.Bounded {F : Type} (M : Machine F) (c : MCloud F) : Prop where
  nonempty : c.pts ≠ []
  lo : ∀ p ∈ c.pts, ∀ i, ¬ M.lt (p i) (c.minP i)
  hi : ∀ p ∈ c.pts, ∀ i, ¬ M.lt (c.maxP i) (p i)

/-- The states a user can bring the caster into: any history of `setRay` and `getNextCastResult`, with any computed end
cells and any choice of the axes. -/
inductive MReach {F : Type} (M : Machine F) : MSt F → Prop
  | fresh : MReach M MSt.fresh
  | setRay {s s' : MSt F} {cloud : Option (MCloud F)} {b : Fin 3 → F} {ei : Cell} :
      MReach M s → (∀ c, cloud = some c → c.Bounded M) → M.setRay s cloud b ei = .ok s' → MReach M s'
  | next {s s' : MSt F} {r : Option (List ℕ)} {i : Fin 3} : MReach M s → s.getNext i = .ok (r, s') → MReach M s'

/-- Exact arithmetic with grid size `gs`. -/
noncomputable def exactMachine (gs : ℝ) : Machine ℝ := ⟨fun a b => a - b, fun x => truncZ (x / gs), fun a b => a < b⟩

/-- The arithmetic of the program: the coordinates are `float`, a difference of two is rounded by `fl`; the quotient by the
grid size is `double`, rounded by `dl`, and cut off. -/
noncomputable def roundedMachine (fl dl : ℝ → ℝ) (gs : ℝ) : Machine ℝ :=
  ⟨fun a b => fl (a - b), fun x => truncZ (dl (x / gs)), fun a b => a < b⟩

/-- What every rounding mode of IEEE-754 has, also with gradual underflow: it never reverses an order and keeps 0. -/
structure IsRounding (fl : ℝ → ℝ) : Prop where
  mono : Monotone fl
  zero : fl 0 = 0

/-- The cloud a caster over exact numbers sees, as a cloud for the machine. -/
noncomputable def Cloud.asMachine (c : Cloud) : MCloud ℝ where
  stamp := c.stamp
  pts := c.pts.map fun p i => p.1.get i
  minP := fun i => match c.refs with
    | [] => 0
    | p :: ps => minAlong i p ps
  maxP := fun i => match c.refs with
    | [] => 0
    | p :: ps => maxAlong i p ps

/-- The caster over exact numbers, seen as the machine's: the points in a cell by their numbers, and only the integers of
the ray. -/
def St.asMachine (s : St) : MSt ℝ where
  grid := s.grid.map fun g => ⟨g.stamp, g.minP, g.maxP, g.size, g.total, g.exist, fun a => (g.cells a).map MapPt.idx⟩
  ray := s.ray.map fun r => ⟨r.cur, r.step, r.maxMov, r.pos⟩

end DDA
end Mcl3dl
