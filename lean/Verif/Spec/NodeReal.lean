import Verif.Spec.NodePosterior
import Verif.Spec.NodeBatch
import Verif.Spec.NodeSafe
import Verif.Props.NodePosterior

/-!
# Specification for C139: the node with its own ray casters
-/

namespace Mcl3dl
namespace Node

variable {C : Type}

/-- The sensors are mounted so that a point within the clipping range of the beam model is never exactly at
the sensor and never farther away from it than `D`. -/
def SensorsSee (P : Params) (D : ℝ) (h : History) : Prop :=
  ∀ e ∈ h, ∀ last frame stamp t, e.2.tfFull P.baseFrame last frame stamp P.odomFrame = some t →
    ∀ p, inClip P.beam.clip p → p ≠ t.trans ∧ Lidar.dist p t.trans ≤ D

/-- The event `e` after the history `h` begins a measurement of the clouds `b ++ [s]`. -/
def Measuring (P : Params) (h : History) (e : Event × Env) (b : List Scan) (s : Scan) : Prop :=
  (batchStep P (batchView P h).1 (batchView P h).2 e).1 = some (b ++ [s])

/-- `like` are the likelihoods of the particles of `n` in that measurement. -/
def Weighed (P : Params) (lib : Lib C) (w : Vec3 ℝ) (h : History) (e : Event × Env) (n : Node C) (like : List ℝ) : Prop :=
  ∃ (b : List Scan) (s : Scan) (t : Tf) (model : Lidar.Beam) (origins : List (Vec3 ℝ)) (beamSel sel : List Point),
    Measuring P h e b s ∧ e.2.tf P.baseFrame P.odomFrame s.header.stamp = some t ∧
    Lidar.Beam.Reach P.beam model ∧
    Selection P e.2 t (b ++ [s]) s.header.stamp n.loc.pf.particles.length origins beamSel sel ∧
    List.Forall₂ (fun (q : Particle) l =>
      LikelihoodOf P model (caster P lib n.map) w (mapView P h).active origins beamSel sel q.state l)
      n.loc.pf.particles like

/-- The mean forward and upward directions of the particles, weighted with their votes, are parallel (or
zero): no orientation can be computed from them. -/
def Ambiguous (P : Params) (n : Node C) (like : List ℝ) : Prop :=
  let v := votes P n.loc.statePrev n.loc.pf.particles like
  let sum := fun a : Vec3 ℝ => weightedSum (v.zip (n.loc.pf.particles.map fun q => q.state.rot.rotate a))
  (sum ⟨1, 0, 0⟩).cross (sum ⟨0, 0, 1⟩) = ⟨0, 0, 0⟩

/-- One more event: the map as a user sees it, and the clouds given to the ray caster so far (a cloud is
recognised by its time stamp only). -/
noncomputable def mapsStep (P : Params) (v : MapView × List DDA.Cloud) (e : Event × Env) : MapView × List DDA.Cloud :=
  let v' := v.1.step P e
  let add := fun stamp : ℕ => v.2 ++ [⟨v.2.length + 1, stamp, v'.active.map fun p => (p.pos, p.attr)⟩]
  (v', match e.1 with
    | .mapcloud stamp m => if validCloud m then add (pclStamp (if stamp ≠ 0 then stamp else e.2.now 1)) else v.2
    | .loadPcd (some _) => add (pclStamp (e.2.now 1))
    | .timer => if v.1.available = true ∧ v.1.pending.isSome = true then add (pclStamp (e.2.now 0)) else v.2
    | _ => v.2)

/-- The clouds the ray caster has been given in a history: the loaded maps and the maps with updates. -/
noncomputable def maps (P : Params) (h : History) : List DDA.Cloud := (h.foldl (mapsStep P) (MapView.init, [])).2

/-- The grid of the DDA caster for the cloud is not absurdly large: its cells can be counted, and points at a
distance of up to `R` from the origin of the map along each axis can be numbered. -/
def GridFits (gridSize R : ℝ) (c : DDA.Cloud) : Prop :=
  ∃ mn mx, DDA.IsBoundingBox (c.pts.map Prod.fst) mn mx ∧
    DDA.gridSize gridSize mn mx 0 * DDA.gridSize gridSize mn mx 1 * DDA.gridSize gridSize mn mx 2 < 2 ^ 31 ∧
    (∀ i, DDA.gridSize gridSize mn mx i ≤ 2 ^ 28) ∧ ∀ i, R + |mn i| ≤ 2 ^ 28 * gridSize

end Node
end Mcl3dl
