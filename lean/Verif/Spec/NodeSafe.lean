import Verif.Model.Node
import Verif.Spec.Lidar
import Verif.Spec.KdSearch
import Verif.Spec.NodeMap

/-!
# Specification for C110: what is needed for the node never to crash
-/

namespace Mcl3dl
namespace Node

variable {C : Type}

/-- The ray caster deals with the rays `ok`, keeping its state good. -/
def CastsRays (b : Lidar.Beam) (c : Lidar.Caster C) (I : C → Prop) (ok : Vec3 ℝ → Vec3 ℝ → Prop) : Prop :=
  ∀ l s w, I w → ok l s → ∃ st w', Lidar.getBeamStatus b c l s w = .ok (st, w') ∧ I w'

/-- The kd-tree's answers refer to points it holds. -/
def FlannIds (flann : List (Vec3 ℝ) → Vec3 ℝ → ℝ → ℕ → List (ℕ × ℝ)) : Prop :=
  ∀ pts p r k, ∀ e ∈ flann pts p r k, e.1 < pts.length

/-- The kd-tree reports only points within the radius, in the metric weighted with `w`. -/
def FlannSound (flann : List (Vec3 ℝ) → Vec3 ℝ → ℝ → ℕ → List (ℕ × ℝ)) (w : Vec3 ℝ) : Prop :=
  ∀ pts q r k, ∀ e ∈ flann pts q r k, ∃ p, pts[e.1]? = some p ∧ weightedDist w q p < r ^ 2

/-- Parameters with which the node works, whichever sampler is used. -/
structure Sensible (P : Params) : Prop where
  particles : 0 < P.numParticles
  skip : Params.toSize P.skipMeasure ≠ 0
  lpf : 0 ≤ P.lpfStep
  like : P.like.matchDistMin ≤ P.mapChunk
  unmatch : P.unmatchOutputDist ≤ P.mapChunk
  accum : P.accumCloud = 0 ∨ Params.toSize P.totalAccumCloudMax ≠ 0
  divYaw : 0 < P.divYaw
  grid : 0 < P.globalGrid

/-- Parameters with which the node works (with the uniform sampler). -/
structure Sane (P : Params) : Prop extends Sensible P where
  uniform : P.useNormalSampler = false

/-- The library does what it promises: answers of the kd-tree are points within the radius (in a metric
that does not shrink heights), and every ray is cast (`I` is an invariant of the ray caster). -/
structure Works (P : Params) (lib : Lib C) (I : C → Prop) : Prop where
  sound : ∃ w : Vec3 ℝ, 1 ≤ w.z ∧ FlannSound lib.flann w
  rays : ∀ m b, Lidar.Beam.Reach P.beam b → CastsRays b (caster P lib m) I fun _ _ => True
  init : I lib.caster0

/-- The message has the fields the transformation needs. -/
def HasXYZ (msg : Conv.Msg) : Prop := ∀ k ∈ ["x", "y", "z"], ∃ f ∈ msg.fields, f.name = k

/-- Events that do not ask for the impossible. -/
def SafeEvent : Event → Prop
  | .cloud _ msg => HasXYZ msg
  | .resize size => 0 < size
  | .loadPcd (some pts) => pts ≠ []
  | _ => True

/-- The voxel grid does not lose everything. -/
def KeepsPoints (env : Env) : Prop := ∀ leaf pts, pts ≠ [] → env.voxel leaf pts ≠ []

end Node
end Mcl3dl
