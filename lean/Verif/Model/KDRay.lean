import Verif.Model.DDA
import Verif.Spec.KdSearch

/-!
# Model of `mcl_3dl::RaycastUsingKDTree`

Source: /repo/include/mcl_3dl/raycasts/raycast_using_kdtree.h, /repo/include/mcl_3dl/raycast.h.

Coordinates are real numbers.  The kd-tree's `radiusSearch(center, r, id, sqdist, 1)` is a parameter
`search center r`, the list of (id, squared distance) it reports.
-/

namespace Mcl3dl
namespace KDRay

/-- Constructor arguments, raycast_using_kdtree.h:49-56. -/
structure Cfg where
  gridX : ℝ
  gridY : ℝ
  gridZ : ℝ
  hitTolerance : ℝ

/-- raycast_using_kdtree.h:52. -/
noncomputable def Cfg.gridMin (c : Cfg) : ℝ := min (min c.gridX c.gridY) c.gridZ
/-- raycast_using_kdtree.h:53. -/
noncomputable def Cfg.gridMax (c : Cfg) : ℝ := max (max c.gridX c.gridY) c.gridZ

/-- raycast_using_kdtree.h:112-116.  `dir = none`: the ray has length 0, so `inc_` and `pos_` are NaN. -/
structure St where
  pos : Vec3 ℝ
  inc : Option (Vec3 ℝ)
  length : ℤ
  count : ℤ

/-- raycast.h:44-65 with the map point given by its index in the input cloud. -/
structure CastResult where
  pos : Vec3 ℝ
  collision : Bool
  sinAngle : ℝ
  point : Option ℕ

/-- raycast_using_kdtree.h:58-65 `setRay`.  With a grid size of 0 line 61 converts an infinity or NaN to
`int`, which is undefined. -/
noncomputable def setRay (cfg : Cfg) (b e : Vec3 ℝ) : Outcome St :=
  if cfg.gridMin = 0 then .ub "NaN converted to int" else
  (DDA.i32 ⌊((e - b).norm + cfg.hitTolerance) / cfg.gridMin⌋).bind fun length =>
  if (e - b).dot (e - b) = 0 then .ok ⟨b, none, length, 1⟩
  else
    let inc := (e - b).normalized.smul cfg.gridMin
    .ok ⟨b + inc, some inc, length, 1⟩

/-- raycast_using_kdtree.h:83 the search radius around the current position. -/
noncomputable def Cfg.radius (c : Cfg) : ℝ := Real.sqrt 2 * c.gridMax / 2

/-- raycast_using_kdtree.h:73-104: the result at the current position `pos`; `n` is the number of
points of the map. -/
noncomputable def resultAt (cfg : Cfg) (search : Vec3 ℝ → ℝ → Outcome (List (ℕ × ℝ))) (n : ℕ)
    (pos inc : Vec3 ℝ) : Outcome CastResult :=
  (search pos cfg.radius).bind fun r0 =>
  match r0 with
  | [] => .ok ⟨pos, false, 0, none⟩
  | (id, sq0) :: _ =>
    if n ≤ id then .ub "points[id] out of range"
    else
      let d0 := Real.sqrt sq0
      let prev := pos - inc.smul 2
      (search prev (cfg.gridMin * 2 + cfg.radius)).bind fun r1 =>
      match r1 with
      | [] => .ok ⟨pos, true, 1, some id⟩
      | (_, sq1) :: _ => .ok ⟨pos, true, |Real.sqrt sq1 - d0| / (cfg.gridMin * 2), some id⟩

/-- raycast_using_kdtree.h:67-109 `getNextCastResult`; `none` is the return value `false`.  With a NaN
position the kd-tree converts NaN to `int`, which is undefined. -/
noncomputable def getNext (cfg : Cfg) (search : Vec3 ℝ → ℝ → Outcome (List (ℕ × ℝ))) (n : ℕ) (s : St) :
    Outcome (Option CastResult × St) :=
  if s.length ≤ s.count then .ok (none, s)
  else
    match s.inc with
    | none => .ub "NaN converted to int"
    | some inc =>
      (resultAt cfg search n s.pos inc).bind fun res =>
      .ok (some res, { s with count := s.count + 1, pos := s.pos + inc })

/-- `k` successive calls. -/
noncomputable def nexts (cfg : Cfg) (search : Vec3 ℝ → ℝ → Outcome (List (ℕ × ℝ))) (n : ℕ) :
    ℕ → St → Outcome (List (Option CastResult) × St)
  | 0, s => .ok ([], s)
  | k + 1, s =>
    (getNext cfg search n s).bind fun a =>
    (nexts cfg search n k a.2).bind fun b => .ok (a.1 :: b.1, b.2)

end KDRay
end Mcl3dl
