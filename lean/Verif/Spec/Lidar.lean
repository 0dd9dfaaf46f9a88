import Verif.Model.Lidar
import Mathlib.Data.List.MinMax

/-!
# Specification vocabulary for the lidar models
-/

namespace Mcl3dl
namespace Lidar

/-- `Casts caster c rs c'`: from `c`, calling `next` until it returns false yields the results `rs`. -/
inductive Casts {C : Type} (caster : Caster C) : C → List Cast → C → Prop
  | done {c c' : C} : caster.next c = .ok (none, c') → Casts caster c [] c'
  | more {c c1 c' : C} {r : Cast} {rs : List Cast} :
      caster.next c = .ok (some r, c1) → Casts caster c1 rs c' → Casts caster c (r :: rs) c'

/-- A collision with a map point whose label is not filtered out. -/
def Accepted (maxLabel : ℕ) (r : Cast) : Prop :=
  r.collision = true ∧ ∀ p label, r.point = some (p, label) → label ≤ maxLabel

/-- Distance between two points. -/
noncomputable def dist (a b : Vec3 ℝ) : ℝ := Real.sqrt ((a.x - b.x) ^ 2 + (a.y - b.y) ^ 2 + (a.z - b.z) ^ 2)

/-- `Statuses … pts c sts c'`: the beams of the points `pts` (already in map coordinates), evaluated
one after the other from caster state `c`, have the statuses `sts`. -/
inductive Statuses {C : Type} (b : Beam) (caster : Caster C) (origins : List (Vec3 ℝ)) (s : State6 ℝ) :
    List (Pt ℝ ℕ) → C → List BeamStatus → C → Prop
  | nil {c : C} : Statuses b caster origins s [] c [] c
  | cons {p : Pt ℝ ℕ} {ps : List (Pt ℝ ℕ)} {o : Vec3 ℝ} {c c1 c2 : C} {st : BeamStatus} {sts : List BeamStatus} :
      origins[p.attr]? = some o →
      getBeamStatus b caster (s.pos + s.rot.rotate o) p.pos c = .ok (st, c1) →
      Statuses b caster origins s ps c1 sts c2 →
      Statuses b caster origins s (p :: ps) c (st :: sts) c2

/-- A beam counts against the particle: SHORT always, LONG unless only short beams are penalised. -/
def Penalised (shortOnly : Bool) (st : BeamStatus) : Prop :=
  st = .short ∨ (st = .long ∧ shortOnly = false)

instance (b : Bool) : DecidablePred (Penalised b) := fun st => by unfold Penalised; infer_instance

/-- Objects obtainable from the constructor by `setGlobalLocalizationStatus` calls. -/
inductive Beam.Reach (p : BeamParams) : Beam → Prop
  | make : Reach p (Beam.make p)
  | set {b : Beam} (n cur : ℕ) : Reach p b → Reach p (b.setGlobalLocalizationStatus n cur)

/-- Objects obtainable from the constructor by `setGlobalLocalizationStatus` calls. -/
inductive Like.Reach (p : LikeParams) : Like → Prop
  | make : Reach p (Like.make p)
  | set {l : Like} (n cur : ℕ) : Reach p l → Reach p (l.setGlobalLocalizationStatus n cur)

/-- The squared distance (with axis weights `w`) from `q` to the nearest map point; `⊤` for an empty map. -/
noncomputable def nearestSq (map : List (Vec3 ℝ)) (w q : Vec3 ℝ) : WithTop ℝ :=
  (map.map (weightedDist w q)).minimum

open Classical in
/-- What a point at squared distance `d` from the map adds to the score. -/
noncomputable def gain (p : LikeParams) (d : WithTop ℝ) : ℝ :=
  if d < ((p.matchDistMin ^ 2 : ℝ) : WithTop ℝ) ∧ p.matchDistFlat ≤ p.matchDistMin then
    p.matchWeight * (p.matchDistMin - max (Real.sqrt (d.untopD 0)) p.matchDistFlat)
  else 0

open Classical in
/-- The point counts as matched. -/
noncomputable def matched (p : LikeParams) (d : WithTop ℝ) : ℕ :=
  if d < ((p.matchDistMin ^ 2 : ℝ) : WithTop ℝ) ∧ p.matchDistFlat ≤ p.matchDistMin then 1 else 0

end Lidar
end Mcl3dl
