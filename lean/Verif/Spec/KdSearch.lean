import Verif.Model.Quat
import Mathlib.Algebra.Order.Ring.Defs

/-!
# Contract of an exact radius search

`ExactSearch cloud dist r num res`: `res` is a correct answer to a radius search with radius `r` and
at most `num` results (`num = 0`: no limit) over `cloud`, where `dist p` is the squared distance of
`p` from the query.  pcl's kd-tree excludes points at exactly distance `r`.
-/

namespace Mcl3dl

structure ExactSearch {K P : Type*} [CommRing K] [LinearOrder K] (cloud : List P) (dist : P → K)
    (r : K) (num : ℕ) (res : List (ℕ × K)) : Prop where
  /-- no id twice -/
  nodup : (res.map Prod.fst).Nodup
  /-- ids are valid, distances are right and within the radius -/
  sound : ∀ e ∈ res, ∃ p, cloud[e.1]? = some p ∧ e.2 = dist p ∧ dist p < r ^ 2
  /-- nearest first -/
  sorted : res.Pairwise fun a b => a.2 ≤ b.2
  /-- at most `num` results -/
  bounded : num ≠ 0 → res.length ≤ num
  /-- a point within the radius is reported, unless `num` points at least as near are -/
  complete : ∀ (i : ℕ) (p : P), cloud[i]? = some p → dist p < r ^ 2 →
    i ∈ res.map Prod.fst ∨ (num ≠ 0 ∧ res.length = num ∧ ∀ e ∈ res, e.2 ≤ dist p)

/-- Squared distance with axis weights (pcl's rescaled point representation). -/
def weightedDist {K : Type*} [CommRing K] (w q p : Vec3 K) : K :=
  (w.x * (p.x - q.x)) ^ 2 + (w.y * (p.y - q.y)) ^ 2 + (w.z * (p.z - q.z)) ^ 2

end Mcl3dl
