import Verif.Model.DDA

/-!
# Vocabulary for the ray-casting properties

Independent of how the caster works: boxes, cells, rays and distances.
-/

namespace Mcl3dl
namespace DDA

/-- `mn`, `mx` are the smallest and largest coordinates of the points. -/
structure IsBoundingBox (pts : List (Vec3 ℝ)) (mn mx : Fin 3 → ℝ) : Prop where
  lo : ∀ p ∈ pts, ∀ i : Fin 3, mn i ≤ p.get i
  hi : ∀ p ∈ pts, ∀ i : Fin 3, p.get i ≤ mx i
  lo_att : ∀ i : Fin 3, ∃ p ∈ pts, p.get i = mn i
  hi_att : ∀ i : Fin 3, ∃ p ∈ pts, p.get i = mx i

/-- `x` is in the closed box. -/
def InsideBox (mn mx : Fin 3 → ℝ) (x : Vec3 ℝ) : Prop := ∀ i : Fin 3, mn i ≤ x.get i ∧ x.get i ≤ mx i

/-- `x` is in the closed cube of side `gs` number `c`, counted from the corner `mn`. -/
def InClosedCell (gs : ℝ) (mn : Fin 3 → ℝ) (c : Cell) (x : Vec3 ℝ) : Prop :=
  ∀ i : Fin 3, mn i + c i * gs ≤ x.get i ∧ x.get i ≤ mn i + (c i + 1) * gs

/-- `x` is in the half-open cube number `c`; every point is in exactly one. -/
def InCube (gs : ℝ) (mn : Fin 3 → ℝ) (c : Cell) (x : Vec3 ℝ) : Prop :=
  ∀ i : Fin 3, mn i + c i * gs ≤ x.get i ∧ x.get i < mn i + (c i + 1) * gs

/-- The cell is inside a grid with `size i` cells along axis `i`. -/
def CellInGrid (size : Fin 3 → ℤ) (c : Cell) : Prop := ∀ i, 0 ≤ c i ∧ c i < size i

/-- Number of cells needed to hold the box. -/
noncomputable def gridSize (gs : ℝ) (mn mx : Fin 3 → ℝ) (i : Fin 3) : ℤ := ⌊(mx i - mn i) / gs⌋ + 1

/-- Euclidean length. -/
noncomputable def len (v : Vec3 ℝ) : ℝ := Real.sqrt (v.x ^ 2 + v.y ^ 2 + v.z ^ 2)

/-- The point at distance `t` from `b` in the direction of `e`. -/
noncomputable def rayPoint (b e : Vec3 ℝ) (t : ℝ) : Vec3 ℝ :=
  ⟨b.x + t * ((e.x - b.x) / len (e - b)), b.y + t * ((e.y - b.y) / len (e - b)),
   b.z + t * ((e.z - b.z) / len (e - b))⟩

/-- `x` lies on the segment from `b` to `e`, prolonged by `tol` beyond `e`. -/
def OnRay (tol : ℝ) (b e x : Vec3 ℝ) : Prop := ∃ t, 0 ≤ t ∧ t ≤ len (e - b) + tol ∧ x = rayPoint b e t

/-- `d` is a neighbour of `c` along one axis, in the direction in which the ray from `b` to `e` goes. -/
def StepToward (b e : Vec3 ℝ) (c d : Cell) : Prop :=
  ∃ a : Fin 3, (b.get a < e.get a ∧ d = Function.update c a (c a + 1)) ∨
    (e.get a < b.get a ∧ d = Function.update c a (c a - 1))

/-- Squared Euclidean distance. -/
def distSq (p q : Vec3 ℝ) : ℝ := (p.x - q.x) ^ 2 + (p.y - q.y) ^ 2 + (p.z - q.z) ^ 2

/-- `D` is the squared distance of `p` from the straight line through `b` and `e`, reached at signed
distance `s` from `b`. -/
def LineDist (b e p : Vec3 ℝ) (s D : ℝ) : Prop :=
  D = distSq p (rayPoint b e s) ∧ ∀ t, D ≤ distSq p (rayPoint b e t)

/-- A point is close enough to the line of the ray to be hit: its squared distance from the line is
below the squared half-beam width at the foot of the perpendicular, or below `thr`. -/
def CloseToRay (angleHalf thr : ℝ) (b e p : Vec3 ℝ) : Prop :=
  ∃ s D, LineDist b e p s D ∧ (D < (angleHalf * s) ^ 2 ∨ D < thr)

end DDA
end Mcl3dl
