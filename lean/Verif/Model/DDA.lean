import Verif.Model.Outcome
import Verif.Model.Quat
import Verif.Model.Num
import Mathlib.Data.Real.Basic
import Mathlib.Algebra.Order.Archimedean.Real.Basic
import Mathlib.Algebra.Order.Floor.Ring
import Mathlib.Order.WithBot
import Mathlib.Data.Fin.VecNotation

/-!
# Model of `mcl_3dl::RaycastUsingDDA`

Source: /repo/include/mcl_3dl/raycasts/raycast_using_dda.h, /repo/include/mcl_3dl/raycast.h.

Coordinates are real numbers (exact arithmetic, the `float`/`double` mix is not distinguished).
`int` arithmetic is exact with overflow as undefined behaviour, except for the call counter `pos_`,
whose overflow after 2^31 calls on one ray is not modelled.  Pointers into the map cloud are modelled
by `MapPt`: the identity of the cloud object, the index in it and the data stored there.
-/

namespace Mcl3dl
namespace DDA

/-- `const POINT_TYPE*`: a pointer to element `idx` of the cloud object `cloud`, with its data. -/
structure MapPt where
  cloud : ℕ
  idx : ℕ
  pos : Vec3 ℝ
  label : ℕ

/-- `kdtree_->getInputCloud()`: a cloud object with its header stamp. -/
structure Cloud where
  id : ℕ
  stamp : ℕ
  pts : List (Vec3 ℝ × ℕ)

/-- The pointers `&p` for `p` in the cloud, in order. -/
def Cloud.refs (c : Cloud) : List MapPt :=
  c.pts.zipIdx.map fun e => ⟨c.id, e.2, e.1.1, e.1.2⟩

/-- Constructor arguments, raycast_using_dda.h:56-64. -/
structure Cfg where
  mapGridX : ℝ
  mapGridY : ℝ
  mapGridZ : ℝ
  gridSize : ℝ
  rayAngleHalf : ℝ
  hitTolerance : ℝ

/-- raycast_using_dda.h:59 `min_dist_thr_sq_`, literally: the y size occurs twice. -/
def Cfg.minDistThrSq (c : Cfg) : ℝ := c.mapGridX ^ 2 + c.mapGridY ^ 2 + c.mapGridY ^ 2

/-- `Eigen::Vector3i`. -/
abbrev Cell := Fin 3 → ℤ

/-- A value of type `int`; anything outside the range is overflow, which is undefined. -/
def i32 (x : ℤ) : Outcome ℤ :=
  if -2 ^ 31 ≤ x ∧ x < 2 ^ 31 then .ok x else .ub "value does not fit int"

/-- `static_cast<int>(double)` before the range check: rounding toward zero. -/
noncomputable def truncZ (x : ℝ) : ℤ := if 0 ≤ x then ⌊x⌋ else ⌈x⌉

/-- Members filled by `updatePointCloud`, raycast_using_dda.h:278-284.  `points_` is never empty once
they are filled, since an empty cloud is undefined (see `updatePointCloud`). -/
structure Grid where
  stamp : ℕ
  minP : Fin 3 → ℝ
  maxP : Fin 3 → ℝ
  size : Fin 3 → ℤ
  /-- size of `point_exists_` -/
  total : ℤ
  /-- `point_exists_` -/
  exist : ℤ → Bool
  /-- `points_` -/
  cells : ℤ → List MapPt

/-- Members describing the current ray, raycast_using_dda.h:286-296.  `edge i` is
`(initial_edges_[i], t_delta_[i])`; `none` when both are infinity. -/
structure Ray where
  beginIdx : Cell
  endIdx : Cell
  rayBegin : Vec3 ℝ
  dir : Vec3 ℝ
  maxMov : ℤ
  pos : ℤ
  tMax : Fin 3 → WithTop ℝ
  edge : Fin 3 → Option (ℝ × ℝ)
  cur : Cell
  step : Cell

/-- The object.  `none`: the members have not been initialised (the constructor leaves them so). -/
structure St where
  grid : Option Grid
  ray : Option Ray

/-- A freshly constructed caster. -/
def St.fresh : St := ⟨none, none⟩

/-- raycast.h:44-65 `CastResult`. -/
structure CastResult where
  pos : Vec3 ℝ
  collision : Bool
  sinAngle : ℝ
  point : Option MapPt

/-- raycast_using_dda.h:205-217, one axis.  With a grid size of 0 the quotient is an infinity or NaN, whose
conversion to `int` is undefined. -/
noncomputable def axisIndex (gs mn x : ℝ) : Outcome ℤ :=
  if gs = 0 then .ub "NaN converted to int" else i32 (truncZ ((x - mn) / gs))

/-- raycast_using_dda.h:205-217 `toIndex` (both overloads). -/
noncomputable def toIndex (gs : ℝ) (mn : Fin 3 → ℝ) (p : Vec3 ℝ) : Outcome Cell :=
  (axisIndex gs (mn 0) (p.get 0)).bind fun a =>
  (axisIndex gs (mn 1) (p.get 1)).bind fun b =>
  (axisIndex gs (mn 2) (p.get 2)).bind fun c => .ok ![a, b, c]

/-- raycast_using_dda.h:219-223. -/
noncomputable def fromIndex (gs : ℝ) (mn : Fin 3 → ℝ) (c : Cell) : Vec3 ℝ :=
  ⟨(c 0 + 1 / 2) * gs + mn 0, (c 1 + 1 / 2) * gs + mn 1, (c 2 + 1 / 2) * gs + mn 2⟩

/-- raycast_using_dda.h:225-228 `getArrayIndex`, all products and sums in `int`; the conversion of a
negative result to `size_t` shows up as an index out of range. -/
def arrayIndex (size : Fin 3 → ℤ) (c : Cell) : Outcome ℤ :=
  (i32 (c 1 * size 0)).bind fun a =>
  (i32 (c 0 + a)).bind fun b =>
  (i32 (size 0 * size 1)).bind fun d =>
  (i32 (c 2 * d)).bind fun e => i32 (b + e)

/-- raycast_using_dda.h:230-235 `setExists`. -/
noncomputable def setExists (gs : ℝ) (g : Grid) (p : MapPt) : Outcome Grid :=
  (toIndex gs g.minP p.pos).bind fun c =>
  (arrayIndex g.size c).bind fun a =>
  if 0 ≤ a ∧ a < g.total then
    .ok { g with exist := Function.update g.exist a true
                 cells := Function.update g.cells a (g.cells a ++ [p]) }
  else .ub "point_exists_ index out of range"

/-- raycast_using_dda.h:186-189. -/
noncomputable def setAll (gs : ℝ) : Grid → List MapPt → Outcome Grid
  | g, [] => .ok g
  | g, p :: ps => (setExists gs g p).bind fun g => setAll gs g ps

/-- raycast_using_dda.h:175 `pcl::getMinMax3D`, minimum over the points along axis `i`. -/
noncomputable def minAlong (i : Fin 3) (p : MapPt) (ps : List MapPt) : ℝ :=
  ps.foldl (fun a q => min a (q.pos.get i)) (p.pos.get i)

/-- raycast_using_dda.h:175 `pcl::getMinMax3D`, maximum over the points along axis `i`. -/
noncomputable def maxAlong (i : Fin 3) (p : MapPt) (ps : List MapPt) : ℝ :=
  ps.foldl (fun a q => max a (q.pos.get i)) (p.pos.get i)

/-- raycast_using_dda.h:179 (the conversion of the `size_t` to `int` is required to be exact).  With a grid
size of 0 the quotient is an infinity or NaN, whose conversion is undefined, as is that of a number from -1 down. -/
noncomputable def axisSize (gs mn mx : ℝ) : Outcome ℤ :=
  if gs = 0 then .ub "NaN converted to int"
  else if truncZ ((mx - mn) / gs) < 0 then .ub "negative value converted to size_t"
  else i32 (truncZ ((mx - mn) / gs) + 1)

/-- raycast_using_dda.h:172-189: rebuilding the grid from a cloud.  For an empty cloud
`pcl::getMinMax3D` yields minimum > maximum and line 179 converts a negative number to `size_t`,
which is undefined. -/
noncomputable def build (cfg : Cfg) (c : Cloud) : Outcome Grid :=
  match c.refs with
  | [] => .ub "negative value converted to size_t"
  | p :: ps =>
    let mn := fun i => minAlong i p ps
    let mx := fun i => maxAlong i p ps
    (axisSize cfg.gridSize (mn 0) (mx 0)).bind fun s0 =>
    (axisSize cfg.gridSize (mn 1) (mx 1)).bind fun s1 =>
    (i32 (s0 * s1)).bind fun s01 =>
    (axisSize cfg.gridSize (mn 2) (mx 2)).bind fun s2 =>
    (i32 (s01 * s2)).bind fun total =>
    setAll cfg.gridSize
      { stamp := c.stamp, minP := mn, maxP := mx, size := ![s0, s1, s2], total := total
        exist := fun _ => false, cells := fun _ => [] } (p :: ps)

/-- raycast_using_dda.h:162-190 `updatePointCloud`; `cloud = none`: the kd-tree has no input. -/
noncomputable def updatePointCloud (cfg : Cfg) (g : Option Grid) (cloud : Option Cloud) :
    Outcome (Option Grid) :=
  match cloud with
  | none => .ok g
  | some c =>
    match g with
    | some old => if c.stamp = old.stamp then .ok g else (build cfg c).bind fun n => .ok (some n)
    | none => (build cfg c).bind fun n => .ok (some n)

/-- raycast_using_dda.h:260-270. -/
def isPointWithinMap (g : Grid) (p : Vec3 ℝ) : Prop :=
  ∀ i : Fin 3, ¬ (p.get i < g.minP i ∨ g.maxP i < p.get i)

/-- Stand-in for uninitialised members; never read. -/
def Ray.uninit : Ray :=
  ⟨fun _ => 0, fun _ => 0, 0, 0, 0, 0, fun _ => ⊤, fun _ => none, fun _ => 0, fun _ => 0⟩

/-- `t_max_[i]` as a function of how many cells the ray has moved along axis `i`
(raycast_using_dda.h:103 and 196).  `inf + inf * k` is only evaluated for `k >= 1`. -/
def tAt (e : Option (ℝ × ℝ)) (k : ℤ) : WithTop ℝ :=
  match e with
  | none => ⊤
  | some (init, delta) => ((init + delta * (|k| : ℤ) : ℝ) : WithTop ℝ)

/-- raycast_using_dda.h:90-101, one axis. -/
noncomputable def edgeOf (gs mn b d : ℝ) (bi ei : ℤ) : Option (ℝ × ℝ) :=
  if ei - bi = 0 then none
  else
    let nearest := if d < 0 then bi * gs + mn else (bi + 1) * gs + mn
    some (|(nearest - b) / d|, |gs / d|)

/-- raycast_using_dda.h:76-103: preparing a ray whose begin is within the map.  For a ray of length 0
`normalized()` is NaN and `toIndex` converts NaN to `int`, which is undefined. -/
noncomputable def startRay (cfg : Cfg) (g : Grid) (b eo : Vec3 ℝ) : Outcome Ray :=
  if (eo - b).dot (eo - b) = 0 then .ub "NaN converted to int"
  else
    let dir := (eo - b).normalized
    let e := eo + dir.smul cfg.hitTolerance
    (toIndex cfg.gridSize g.minP b).bind fun bi =>
    (toIndex cfg.gridSize g.minP e).bind fun ei =>
    (i32 (ei 0 - bi 0)).bind fun d0 =>
    (i32 (ei 1 - bi 1)).bind fun d1 =>
    (i32 (ei 2 - bi 2)).bind fun d2 =>
    (i32 |d0|).bind fun a0 =>
    (i32 |d1|).bind fun a1 =>
    (i32 (a0 + a1)).bind fun a01 =>
    (i32 |d2|).bind fun a2 =>
    (i32 (a01 + a2)).bind fun mm =>
    let edge : Fin 3 → Option (ℝ × ℝ) := fun i => edgeOf cfg.gridSize (g.minP i) (b.get i) (dir.get i) (bi i) (ei i)
    .ok { beginIdx := bi, endIdx := ei, rayBegin := b, dir := dir, maxMov := mm, pos := 0
          tMax := fun i => tAt (edge i) 0, edge := edge, cur := bi
          step := fun i => if ei i - bi i < 0 then -1 else 1 }

open Classical in
/-- raycast_using_dda.h:66-104 `setRay`. -/
noncomputable def setRay (cfg : Cfg) (s : St) (cloud : Option Cloud) (b eo : Vec3 ℝ) : Outcome St :=
  (updatePointCloud cfg s.grid cloud).bind fun grid =>
  match grid with
  | none => .ub "min_p_ read before initialisation"
  | some g =>
    if ¬ isPointWithinMap g b then
      .ok ⟨some g, some { (s.ray.getD Ray.uninit) with maxMov := 0, pos := 0 }⟩
    else (startRay cfg g b eo).bind fun r => .ok ⟨some g, some r⟩

/-- raycast_using_dda.h:192-203 `incrementIndex`. -/
noncomputable def incrementIndex (g : Grid) (r : Ray) (i : Fin 3) : Bool × Ray :=
  let cur := Function.update r.cur i (r.cur i + r.step i)
  let r := { r with cur := cur
                    tMax := Function.update r.tMax i (tAt (r.edge i) (cur i - r.beginIdx i)) }
  if cur i < 0 ∨ g.size i ≤ cur i then (false, { r with pos := r.maxMov }) else (true, r)

/-- raycast_using_dda.h:114-147: the axis along which the ray advances. -/
noncomputable def pickAxis (t : Fin 3 → WithTop ℝ) : Fin 3 :=
  if t 0 < t 1 then (if t 0 < t 2 then 0 else 2) else (if t 1 < t 2 then 1 else 2)

/-- raycast_using_dda.h:108-147: advancing the ray; `false`: `getNextCastResult` returns false. -/
noncomputable def advance (g : Grid) (r : Ray) : Bool × Ray :=
  let r := { r with pos := r.pos + 1 }
  if r.maxMov ≤ r.pos then (false, r) else incrementIndex g r (pickAxis r.tMax)

/-- raycast_using_dda.h:246-252: the test made for one stored point. -/
def nearRay (cfg : Cfg) (rayBegin dir : Vec3 ℝ) (p : Vec3 ℝ) : Prop :=
  let rel := p - rayBegin
  let foot := |rel.dot dir|
  rel.dot rel - foot * foot < max ((cfg.rayAngleHalf * foot) ^ 2) cfg.minDistThrSq

open Classical in
/-- raycast_using_dda.h:237-258 `hasIntersection`; `none` is the null pointer. -/
noncomputable def hasIntersection (cfg : Cfg) (g : Grid) (r : Ray) (c : Cell) : Outcome (Option MapPt) :=
  (arrayIndex g.size c).bind fun a =>
  if 0 ≤ a ∧ a < g.total then
    if g.exist a = false then .ok none
    else if g.cells a = [] then .ub "dereferences end()"
    else .ok ((g.cells a).find? fun p => decide (nearRay cfg r.rayBegin r.dir p.pos))
  else .ub "point_exists_ index out of range"

/-- raycast_using_dda.h:106-159 `getNextCastResult`; a result of `none` is the return value `false`. -/
noncomputable def getNext (cfg : Cfg) (s : St) : Outcome (Option CastResult × St) :=
  match s.grid, s.ray with
  | some g, some r =>
    match advance g r with
    | (false, r') => .ok (none, ⟨some g, some r'⟩)
    | (true, r') =>
      (hasIntersection cfg g r' r'.cur).bind fun hit =>
      .ok (some ⟨fromIndex cfg.gridSize g.minP r'.cur, hit.isSome, 1, hit⟩, ⟨some g, some r'⟩)
  | _, _ => .ub "pos_ read before initialisation"

/-- Whether the next `getNextCastResult` (raycast_using_dda.h:106-159) dereferences a pointer into another cloud
object than the live one: the first pointer of the cell it looks into is always dereferenced
(raycast_using_dda.h:244-246).  `getNext` itself takes the memory behind pointers to be still there; whoever lets
clouds go has to ask this. -/
def readsReleased (live : Option Cloud) (s : St) : Prop :=
  ∃ g r r' a p, s.grid = some g ∧ s.ray = some r ∧ advance g r = (true, r') ∧
    arrayIndex g.size r'.cur = .ok a ∧ (g.cells a).head? = some p ∧ live.map Cloud.id ≠ some p.cloud

/-- `n` successive calls of `getNextCastResult`. -/
noncomputable def nexts (cfg : Cfg) : ℕ → St → Outcome (List (Option CastResult) × St)
  | 0, s => .ok ([], s)
  | n + 1, s =>
    (getNext cfg s).bind fun a =>
    (nexts cfg n a.2).bind fun b => .ok (a.1 :: b.1, b.2)

/-- The states a user can bring the caster into with map clouds from `S`: any history of `setRay` and
`getNextCastResult` calls on a new object. -/
inductive Reachable (cfg : Cfg) (S : Set Cloud) : St → Prop
  | fresh : Reachable cfg S St.fresh
  | setRay {s s' : St} {cloud : Option Cloud} {b e : Vec3 ℝ} :
      Reachable cfg S s → (∀ c, cloud = some c → c ∈ S) → setRay cfg s cloud b e = .ok s' →
      Reachable cfg S s'
  | next {s s' : St} {r : Option CastResult} :
      Reachable cfg S s → getNext cfg s = .ok (r, s') → Reachable cfg S s'

end DDA
end Mcl3dl
