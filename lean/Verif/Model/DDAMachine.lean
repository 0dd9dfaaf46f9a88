import Verif.Model.DDA

/-!
# `mcl_3dl::RaycastUsingDDA` over machine numbers

Source: /repo/include/mcl_3dl/raycasts/raycast_using_dda.h.

`Model/DDA.lean` computes with real numbers.  Here the numbers are abstract: all that is left of the arithmetic are the
subtraction of coordinates, the conversion of a relative coordinate to a cell number and the comparison.  Everything else
that depends on rounding is arbitrary: the cell of the ray's end, the axis along which the ray advances (decided by the
comparisons of `t_max_`) and which stored point is hit.  The integers are as in `Model/DDA.lean`.
-/

namespace Mcl3dl
namespace DDA

/-- The arithmetic used for cell numbers: `point[i] - min_p_[i]` (raycast_using_dda.h:179, 207-216), the value of
`static_cast<int>(rel / dda_grid_size_)` before the range check, and `<` (raycast_using_dda.h:264). -/
structure Machine (F : Type) where
  sub : F → F → F
  cell : F → ℤ
  lt : F → F → Prop

/-- A map cloud: its stamp, its points and the result of `pcl::getMinMax3D` on it. -/
structure MCloud (F : Type) where
  stamp : ℕ
  pts : List (Fin 3 → F)
  minP : Fin 3 → F
  maxP : Fin 3 → F

/-- Members filled by `updatePointCloud`, raycast_using_dda.h:278-284; the cells hold the numbers of the points. -/
structure MGrid (F : Type) where
  stamp : ℕ
  minP : Fin 3 → F
  maxP : Fin 3 → F
  size : Fin 3 → ℤ
  total : ℤ
  exist : ℤ → Bool
  cells : ℤ → List ℕ

/-- The integer members describing the ray, raycast_using_dda.h:286-296. -/
structure MRay where
  cur : Cell
  step : Cell
  maxMov : ℤ
  pos : ℤ

/-- The object; `none`: not initialised. -/
structure MSt (F : Type) where
  grid : Option (MGrid F)
  ray : Option MRay

/-- A freshly constructed caster. -/
def MSt.fresh {F : Type} : MSt F := ⟨none, none⟩

namespace Machine
variable {F : Type} (M : Machine F)

/-- raycast_using_dda.h:205-217 `toIndex`. -/
def toIndex (mn p : Fin 3 → F) : Outcome Cell :=
  (i32 (M.cell (M.sub (p 0) (mn 0)))).bind fun a =>
  (i32 (M.cell (M.sub (p 1) (mn 1)))).bind fun b =>
  (i32 (M.cell (M.sub (p 2) (mn 2)))).bind fun c => .ok ![a, b, c]

/-- raycast_using_dda.h:230-235 `setExists` for point number `k`. -/
def setExists (g : MGrid F) (p : Fin 3 → F) (k : ℕ) : Outcome (MGrid F) :=
  (M.toIndex g.minP p).bind fun c =>
  (arrayIndex g.size c).bind fun a =>
  if 0 ≤ a ∧ a < g.total then
    .ok { g with exist := Function.update g.exist a true
                 cells := Function.update g.cells a (g.cells a ++ [k]) }
  else .ub "point_exists_ index out of range"

/-- raycast_using_dda.h:186-189. -/
def setAll : MGrid F → List ((Fin 3 → F) × ℕ) → Outcome (MGrid F)
  | g, [] => .ok g
  | g, p :: ps => (M.setExists g p.1 p.2).bind fun g => setAll g ps

/-- raycast_using_dda.h:179. -/
def axisSize (mn mx : F) : Outcome ℤ :=
  if M.cell (M.sub mx mn) < 0 then .ub "negative value converted to size_t"
  else i32 (M.cell (M.sub mx mn) + 1)

/-- raycast_using_dda.h:172-189. -/
def build (c : MCloud F) : Outcome (MGrid F) :=
  (M.axisSize (c.minP 0) (c.maxP 0)).bind fun s0 =>
  (M.axisSize (c.minP 1) (c.maxP 1)).bind fun s1 =>
  (i32 (s0 * s1)).bind fun s01 =>
  (M.axisSize (c.minP 2) (c.maxP 2)).bind fun s2 =>
  (i32 (s01 * s2)).bind fun total =>
  M.setAll { stamp := c.stamp, minP := c.minP, maxP := c.maxP, size := ![s0, s1, s2], total := total
             exist := fun _ => false, cells := fun _ => [] } c.pts.zipIdx

/-- raycast_using_dda.h:162-190 `updatePointCloud`. -/
def updatePointCloud (g : Option (MGrid F)) (cloud : Option (MCloud F)) : Outcome (Option (MGrid F)) :=
  match cloud with
  | none => .ok g
  | some c =>
    match g with
    | some old => if c.stamp = old.stamp then .ok g else (M.build c).bind fun n => .ok (some n)
    | none => (M.build c).bind fun n => .ok (some n)

/-- raycast_using_dda.h:260-270. -/
def isPointWithinMap (g : MGrid F) (p : Fin 3 → F) : Prop :=
  ∀ i : Fin 3, ¬ (M.lt (p i) (g.minP i) ∨ M.lt (g.maxP i) (p i))

/-- raycast_using_dda.h:76-88: the cells and counters of a ray whose begin is within the map; `ei` is the cell computed
for its end. -/
def startRay (g : MGrid F) (b : Fin 3 → F) (ei : Cell) : Outcome MRay :=
  (M.toIndex g.minP b).bind fun bi =>
  (i32 (ei 0 - bi 0)).bind fun d0 =>
  (i32 (ei 1 - bi 1)).bind fun d1 =>
  (i32 (ei 2 - bi 2)).bind fun d2 =>
  (i32 |d0|).bind fun a0 =>
  (i32 |d1|).bind fun a1 =>
  (i32 (a0 + a1)).bind fun a01 =>
  (i32 |d2|).bind fun a2 =>
  (i32 (a01 + a2)).bind fun mm =>
  .ok { cur := bi, step := fun i => if ei i - bi i < 0 then -1 else 1, maxMov := mm, pos := 0 }

open Classical in
/-- raycast_using_dda.h:66-104 `setRay`. -/
noncomputable def setRay (s : MSt F) (cloud : Option (MCloud F)) (b : Fin 3 → F) (ei : Cell) : Outcome (MSt F) :=
  (M.updatePointCloud s.grid cloud).bind fun grid =>
  match grid with
  | none => .ub "min_p_ read before initialisation"
  | some g =>
    if ¬ M.isPointWithinMap g b then
      .ok ⟨some g, some { (s.ray.getD ⟨fun _ => 0, fun _ => 0, 0, 0⟩) with maxMov := 0, pos := 0 }⟩
    else (M.startRay g b ei).bind fun r => .ok ⟨some g, some r⟩

end Machine

/-- raycast_using_dda.h:108-147, 192-203: one advance along axis `i`; `false`: `getNextCastResult` returns false. -/
def MRay.advance (size : Fin 3 → ℤ) (r : MRay) (i : Fin 3) : Bool × MRay :=
  let r := { r with pos := r.pos + 1 }
  if r.maxMov ≤ r.pos then (false, r)
  else
    let r := { r with cur := Function.update r.cur i (r.cur i + r.step i) }
    if r.cur i < 0 ∨ size i ≤ r.cur i then (false, { r with pos := r.maxMov }) else (true, r)

/-- raycast_using_dda.h:237-258 `hasIntersection`: the accesses to `point_exists_` and `points_`; the result is the list
of the points of the cell that are looked at. -/
def MGrid.lookUp {F : Type} (g : MGrid F) (c : Cell) : Outcome (List ℕ) :=
  (arrayIndex g.size c).bind fun a =>
  if 0 ≤ a ∧ a < g.total then
    if g.exist a = false then .ok []
    else if g.cells a = [] then .ub "dereferences end()"
    else .ok (g.cells a)
  else .ub "point_exists_ index out of range"

/-- raycast_using_dda.h:106-159 `getNextCastResult`, advancing along axis `i`: the points looked at, `none` if it returns
false. -/
def MSt.getNext {F : Type} (s : MSt F) (i : Fin 3) : Outcome (Option (List ℕ) × MSt F) :=
  match s.grid, s.ray with
  | some g, some r =>
    match r.advance g.size i with
    | (false, r') => .ok (none, ⟨some g, some r'⟩)
    | (true, r') => (g.lookUp r'.cur).bind fun l => .ok (some l, ⟨some g, some r'⟩)
  | _, _ => .ub "pos_ read before initialisation"

/-- Successive calls, the axes given. -/
def MSt.nexts {F : Type} : List (Fin 3) → MSt F → Outcome (List (Option (List ℕ)) × MSt F)
  | [], s => .ok ([], s)
  | i :: is, s =>
    (s.getNext i).bind fun a =>
    (nexts is a.2).bind fun b => .ok (a.1 :: b.1, b.2)

end DDA
end Mcl3dl
