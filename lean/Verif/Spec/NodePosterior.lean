import Verif.Spec.NodeMatch
import Verif.Spec.Lidar
import Verif.Model.NodeMeasure

/-! # Specification of the measurement update and of the estimate -/

namespace Mcl3dl
namespace Node

/-- The density of the normal distribution with mean 0. -/
noncomputable def gaussian (σ x : ℝ) : ℝ :=
  1 / (|σ| * Real.sqrt (2 * Real.pi)) * Real.exp (-(x ^ 2) / (2 * σ ^ 2))

/-- The sum of vectors with weights. -/
noncomputable def weightedSum (l : List (ℝ × Vec3 ℝ)) : Vec3 ℝ :=
  ⟨(l.map fun a => a.1 * a.2.x).sum, (l.map fun a => a.1 * a.2.y).sum, (l.map fun a => a.1 * a.2.z).sum⟩

/-- The mean of vectors with weights. -/
noncomputable def weightedMean (l : List (ℝ × Vec3 ℝ)) : Vec3 ℝ :=
  ⟨(l.map fun a => a.1 * a.2.x).sum / (l.map Prod.fst).sum, (l.map fun a => a.1 * a.2.y).sum / (l.map Prod.fst).sum,
    (l.map fun a => a.1 * a.2.z).sum / (l.map Prod.fst).sum⟩

/-- Bayes' rule with the stated exception: the weights are multiplied with the likelihoods and normalised; if
the products sum up to zero the old weights stay. -/
noncomputable def posterior (prior like : List ℝ) : List ℝ :=
  if 0 < (List.zipWith (· * ·) prior like).sum then
    (List.zipWith (· * ·) prior like).map fun x => x / (List.zipWith (· * ·) prior like).sum
  else prior

/-- The factor that prefers particles near the last estimate; there is none while the number of particles is
above the configured one. -/
noncomputable def nearness (P : Params) (count : ℕ) (prev s : State6 ℝ) : ℝ :=
  if P.numParticles < (count : ℤ) then 1
  else gaussian P.biasVarDist (s.pos - prev.pos).norm *
    gaussian P.biasVarAng (s.rot * prev.rot.inv).getAxisAng.2 + 1 / 1000000

/-- The point lies within the clipping range. -/
def inClip (c : Lidar.Clip ℝ) (p : Vec3 ℝ) : Prop :=
  c.near ^ 2 ≤ p.x ^ 2 + p.y ^ 2 ∧ p.x ^ 2 + p.y ^ 2 ≤ c.far ^ 2 ∧ c.zMin ≤ p.z ∧ p.z ≤ c.zMax

/-- Score of the likelihood field: what the points `sel`, seen from `s`, gain from their distances to the map. -/
noncomputable def fieldScore (p : Lidar.LikeParams) (w : Vec3 ℝ) (map : List Point) (s : State6 ℝ) (sel : List Point) : ℝ :=
  (sel.map fun q => Lidar.gain p (Lidar.nearestSq (map.map Pt.pos) w (s.rot.normalized.rotate q.pos + s.pos))).sum

/-- Score of the beams, `k` of which are penalised. -/
noncomputable def beamScore (p : Lidar.BeamParams) (k : ℕ) : ℝ :=
  max p.likelihoodMin (p.likelihoodMin ^ ((k : ℝ) / p.numDefault))

/-- `l` is the likelihood of the state `s`: the product of the beam score, the field score and the density of
the accumulated linear odometry error. -/
def LikelihoodOf {C : Type} (P : Params) (b : Lidar.Beam) (caster : Lidar.Caster C) (w : Vec3 ℝ) (map : List Point)
    (origins : List (Vec3 ℝ)) (beamSel sel : List Point) (s : State6 ℝ) (l : ℝ) : Prop :=
  ∃ c c' sts, Lidar.Statuses b caster origins s (s.transform beamSel) c sts c' ∧
    l = beamScore P.beam (sts.countP fun st => decide (Lidar.Penalised P.beam.shortOnly st)) *
      fieldScore P.like w map s sel * gaussian P.integLinSigma s.integLin.norm

/-- How many points a model with these parameters uses for `count` particles. -/
def pointsUsed (numDefault numGlobal : ℕ) (numParticles : ℤ) (count : ℕ) : ℕ :=
  if (count : ℤ) ≤ numParticles then numDefault else max numGlobal (numDefault * numParticles.toNat / count)

/-- The votes of the particles: posterior weight times nearness. -/
noncomputable def votes (P : Params) (prev : State6 ℝ) (ps : List Particle) (like : List ℝ) : List ℝ :=
  List.zipWith (fun x (p : Particle) => x * nearness P ps.length prev p.state)
    (posterior (ps.map PF.Particle.prob) like) ps

end Node
end Mcl3dl
