import Verif.Model.Node
import Verif.Spec.NodeMap

/-!
# Specification of batches of clouds

Which clouds are measured together, from the sequence of events alone.
-/

namespace Mcl3dl
namespace Node

/-- A received cloud in the odometry frame. -/
structure Scan where
  header : Header
  points : List (Vec3 ℝ)

/-- The coordinates are `float` fields (the first field of the name is). -/
def Regular (m : Conv.Msg) : Prop :=
  ∀ k ∈ ["x", "y", "z"], m.index k .f32 = m.fields.findIdx? fun f => f.name == k

/-- The cloud of a message; `none` if its frame cannot be transformed to the odometry frame at its time
or it is not a cloud with points. -/
def scanOf (P : Params) (env : Env) (header : Header) (msg : Conv.Msg) : Option Scan :=
  match env.tf P.odomFrame header.frame header.stamp with
  | none => none
  | some t => if validCloud msg then some ⟨header, (cloudPoints msg).map fun p => t.point p.pos⟩ else none

/-- A batch is complete when a cloud of sensor `frame` arrives: it has the maximum number of clouds, or the
sensor that began it has contributed `accum_cloud` clouds and begins again. -/
def completes (P : Params) (b : List Scan) (frame : String) : Prop :=
  Params.toSize P.totalAccumCloudMax ≤ b.length ∨
    ∃ s t, b = s :: t ∧ s.header.frame = frame ∧
      Params.toSize P.accumCloud ≤ (b.filter fun s => s.header.frame = frame).length

open Classical in
/-- What an event does to the clouds collected so far (`b`): the batch to be measured, if any, and the
clouds collected afterwards.  With `accum_cloud: 0` each cloud is a batch; a cloud that cannot be used
discards what has been collected. -/
noncomputable def batchStep (P : Params) (available : Bool) (b : List Scan) (e : Event × Env) :
    Option (List Scan) × List Scan :=
  match e.1 with
  | .mapcloud _ m => (none, if validCloud m then [] else b)
  | .loadPcd (some _) => (none, [])
  | .cloud header msg =>
    if available then
      if P.accumCloud = 0 then ((scanOf P e.2 header msg).map fun s => [s], [])
      else if completes P b header.frame then (some b, (scanOf P e.2 header msg).toList)
      else
        (none, match scanOf P e.2 header msg with
          | some s => b ++ [s]
          | none => [])
    else (none, b)
  | _ => (none, b)

/-- Map and collected clouds after a history. -/
noncomputable def batchView (P : Params) (h : History) : Bool × List Scan :=
  h.foldl (fun v e => (mapAvailable v.1 e.1, (batchStep P v.1 v.2 e).2)) (false, [])

/-- The points of a batch; the label of a point is the number of its cloud. -/
def labelled (b : List Scan) : List Point :=
  (b.zipIdx.map fun x => x.1.points.map fun p => (⟨p, x.2 % 2 ^ 32⟩ : Point)).flatten

/-- The transforms needed to measure a batch (`last` is the stamp of its last cloud). -/
def transformable (P : Params) (env : Env) (b : List Scan) (last : ℝ) : Prop :=
  env.tf P.baseFrame P.odomFrame last ≠ none ∧
    ∀ s ∈ b, env.tfFull P.baseFrame last s.header.frame s.header.stamp P.odomFrame ≠ none

/-- The likelihood model uses the point: it is neither too near nor too far, too low nor too high. -/
def usable (P : Params) (p : Vec3 ℝ) : Prop :=
  P.like.clip.near ^ 2 ≤ p.x ^ 2 + p.y ^ 2 ∧ p.x ^ 2 + p.y ^ 2 ≤ P.like.clip.far ^ 2 ∧
    P.like.clip.zMin ≤ p.z ∧ p.z ≤ P.like.clip.zMax

end Node
end Mcl3dl
