import Verif.Model.Outcome
import Verif.Model.Loop
import Verif.Model.Quat
import Verif.Model.PF

/-!
# Model of `mcl_3dl::State6DOF`, the noise generators and `ParticleWeightedMeanQuat`

Source: /repo/include/mcl_3dl/state_6dof.h, noise_generator_base.h,
noise_generators/diagonal_noise_generator.h, noise_generators/multivariate_noise_generator.h.
-/

namespace Mcl3dl

/-- state_6dof.h:49-79. -/
@[ext] structure State6 (F : Type) where
  pos : Vec3 F
  rot : Quat F
  diff : Bool
  noiseLL : F
  noiseLA : F
  noiseAL : F
  noiseAA : F
  integLin : Vec3 F
  integAng : Vec3 F
  rpy : Vec3 F

namespace State6
variable {F : Type}

/-- state_6dof.h:185-191 default constructor. -/
def default [Zero F] [One F] : State6 F :=
  { pos := 0, rot := 1, diff := false, noiseLL := 0, noiseLA := 0, noiseAL := 0, noiseAA := 0,
    integLin := 0, integAng := 0, rpy := 0 }

/-- state_6dof.h:192-200. -/
def ofQuat [Zero F] [One F] (pos : Vec3 F) (rot : Quat F) : State6 F :=
  { (default : State6 F) with pos := pos, rot := rot }

/-- state_6dof.h:201-209; a "difference" state carrying roll, pitch, yaw. -/
def ofRPY [Zero F] [One F] (pos : Vec3 F) (rpy : Vec3 F) : State6 F :=
  { (default : State6 F) with pos := pos, rpy := rpy, diff := true }

/-- state_6dof.h:115-149 `operator[] const` (indices up to 12; beyond that `assert` fails). -/
def get (s : State6 F) (i : Nat) : Outcome F :=
  match i with
  | 0 => .ok s.pos.x | 1 => .ok s.pos.y | 2 => .ok s.pos.z
  | 3 => .ok s.rot.x | 4 => .ok s.rot.y | 5 => .ok s.rot.z | 6 => .ok s.rot.w
  | 7 => .ok s.integLin.x | 8 => .ok s.integLin.y | 9 => .ok s.integLin.z
  | 10 => .ok s.integAng.x | 11 => .ok s.integAng.y | 12 => .ok s.integAng.z
  | _ => .ub "assert(false) in State6DOF::operator[]"

/-- state_6dof.h:154-157 `normalize()`. -/
def normalize [One F] [Add F] [Mul F] [Div F] [Transc F] (s : State6 F) : State6 F :=
  { s with rot := s.rot.normalized }

/-- state_6dof.h:249-261 `operator+`: every component except the orientation is added, the
orientation is `a.rot_ * rot_`, and all members that are not indexed components come from a default
constructed `ret`. -/
def add [Zero F] [One F] [Add F] [Sub F] [Mul F] (s a : State6 F) : State6 F :=
  { (default : State6 F) with
    pos := s.pos + a.pos, integLin := s.integLin + a.integLin, integAng := s.integAng + a.integAng,
    rot := a.rot * s.rot }

/-- state_6dof.h:262-274 `operator-`. -/
def sub [Zero F] [One F] [Neg F] [Add F] [Sub F] [Mul F] [Div F] (s a : State6 F) : State6 F :=
  { (default : State6 F) with
    pos := s.pos - a.pos, integLin := s.integLin - a.integLin, integAng := s.integAng - a.integAng,
    rot := a.rot.inv * s.rot }

section Cov
variable [Zero F] [One F] [Neg F] [Add F] [Sub F] [Mul F] [Div F] [NatCast F]
  [LT F] [DecidableLT F] [LE F] [DecidableLE F] [Transc F]

/-- state_6dof.h:164-165 the roll-pitch-yaw angles of a state. -/
def angles (s : State6 F) : Vec3 F := if s.diff then s.rpy else s.rot.getRPY

/-- state_6dof.h:176-179 the two wrapping loops. -/
noncomputable def wrapAngle (d : F) : Option F :=
  (whileLoop (fun d => Transc.pi < d) (fun d => d - Quat.two * Transc.pi) d).bind fun d =>
  whileLoop (fun d => d < -Transc.pi) (fun d => d + Quat.two * Transc.pi) d

/-- state_6dof.h:169-180 the deviation of component `i` (`i < 6`). -/
noncomputable def deviation (s e : State6 F) (i : Nat) : Option F :=
  if i < 3 then some (s.pos.get i - e.pos.get i)
  else wrapAngle (s.angles.get (i - 3) - e.angles.get (i - 3))

/-- state_6dof.h:162-184 `covElement`; `none` if a wrapping loop never ends. -/
noncomputable def covElement (s e : State6 F) (j k : Nat) : Option F :=
  (deviation s e j).bind fun a => (deviation s e k).bind fun b => some (1 * a * b)

end Cov

/-- A point of a point cloud: position and the remaining fields of the point type. -/
@[ext] structure _root_.Mcl3dl.Pt (F : Type) (A : Type) where
  pos : Vec3 F
  attr : A

/-- state_6dof.h:214-225 `transform`. -/
def transform {A : Type} [Zero F] [One F] [Neg F] [Add F] [Sub F] [Mul F] [Div F] [Transc F]
    (s : State6 F) (pc : List (Pt F A)) : List (Pt F A) :=
  let r := s.rot.normalized
  pc.map fun p => { p with pos := r.rotate p.pos + s.pos }

/-- The state operations used by the particle filter. -/
instance [Zero F] [One F] [Add F] [Sub F] [Mul F] [Div F] [Transc F] : PF.StateOps (State6 F) where
  add := add
  normalize := normalize

end State6

/-! ## Noise generators -/

/-- A noise generator: noise_generator_base.h:38-65 plus the virtual call operator.  `E` is the state
of the random engine. -/
structure NoiseGen (F E : Type) where
  mean : List F
  draw : E → Outcome (List F × E)

namespace NoiseGen
variable {F E : Type}

/-- noise_generators/diagonal_noise_generator.h:63-78, loop from component `i`.  `nd m s` models one
draw from a fresh `std::normal_distribution(m, s)`. -/
def diagonalLoop [Zero F] [DecidableEq F] (nd : F → F → E → F × E) (mean : List F) :
    List F → Nat → E → Outcome (List F × E)
  | [], _, e => .ok ([], e)
  | sg :: sigma, i, e =>
    match mean[i]? with
    | none => .ub "mean_[i] out of range"
    | some m =>
      let (x, e') := if sg = 0 then (m, e) else nd m sg e
      (diagonalLoop nd mean sigma (i + 1) e').bind fun (xs, e'') => .ok (x :: xs, e'')

/-- noise_generators/diagonal_noise_generator.h:46-78. -/
def diagonal [Zero F] [DecidableEq F] (nd : F → F → E → F × E) (mean sigma : List F) : NoiseGen F E where
  mean := mean
  draw := diagonalLoop nd mean sigma 0

/-- `dim` draws from one normal distribution, multivariate_noise_generator.h:84-88. -/
def drawN (nd : E → F × E) : Nat → E → List F × E
  | 0, e => ([], e)
  | n + 1, e =>
    let (x, e') := nd e
    let (xs, e'') := drawN nd n e'
    (x :: xs, e'')

end NoiseGen

namespace State6
variable {F E : Type}

section
variable [Zero F] [One F] [Neg F] [Add F] [Sub F] [Mul F] [Div F] [NatCast F]
  [LT F] [DecidableLT F] [LE F] [DecidableLE F] [Transc F]

/-- state_6dof.h:277-295 `setMean(const State6DOF&)`: the six mean components (it only logs an
error when the mean is a difference state). -/
def meanVec (m : State6 F) : List F :=
  [m.pos.x, m.pos.y, m.pos.z, m.rot.getRPY.x, m.rot.getRPY.y, m.rot.getRPY.z]

/-- state_6dof.h:297-314 `setSigma(const State6DOF&)`. -/
def sigmaVec (s : State6 F) : List F := [s.pos.x, s.pos.y, s.pos.z, s.rpy.x, s.rpy.y, s.rpy.z]

/-- state_6dof.h:233-247, the noise state from the six generated numbers. -/
def ofNoise (org mean : List F) : Outcome (State6 F) :=
  match org, mean with
  | o0 :: o1 :: o2 :: o3 :: o4 :: o5 :: _, _ :: _ :: _ :: m3 :: m4 :: m5 :: _ =>
    .ok { (default : State6 F) with
      pos := ⟨o0, o1, o2⟩, integLin := ⟨o0, o1, o2⟩,
      integAng := ⟨o3 - m3, o4 - m4, o5 - m5⟩, rot := Quat.ofRPY ⟨o3, o4, o5⟩ }
  | _, _ => .ub "org_noise or mean out of range"

/-- state_6dof.h:226-248 `generateNoise`. -/
def generateNoise (gen : NoiseGen F E) (e : E) : Outcome (State6 F × E) :=
  (gen.draw e).bind fun (org, e') => (ofNoise org gen.mean).bind fun s => .ok (s, e')

/-- The generator made by `init(mean, sigma)`, `resample(sigma)` and `noise(sigma)`
(pf.h:169-173, 182-186, 224-228). -/
def diagonalGen [DecidableEq F] (nd : F → F → E → F × E) (mean sigma : State6 F) : NoiseGen F E :=
  NoiseGen.diagonal nd mean.meanVec sigma.sigmaVec

/-- `n` consecutive noise states, threading the random engine
(the loops of pf.h:174-181 and 229-239). -/
def generateN (gen : NoiseGen F E) : Nat → E → Outcome (List (State6 F) × E)
  | 0, e => .ok ([], e)
  | n + 1, e =>
    (generateNoise gen e).bind fun (s, e') =>
    (generateN gen n e').bind fun (ss, e'') => .ok (s :: ss, e'')

/-- state_6dof.h:316-355 `ParticleWeightedMeanQuat`: the accumulated members. -/
structure MeanAcc (F : Type) where
  pSum : F
  pos : Vec3 F
  front : Vec3 F
  up : Vec3 F

/-- state_6dof.h:323-354: constructor, `add`, `getMean`, `getTotalProbability`. -/
def meanQuat : PF.MeanOps (State6 F) F (MeanAcc F) where
  empty := ⟨0, 0, 0, 0⟩
  add := fun m s prob =>
    { pSum := m.pSum + prob
      pos := m.pos + s.pos.smul prob
      front := m.front + (s.rot.rotate ⟨1, 0, 0⟩).smul prob
      up := m.up + (s.rot.rotate ⟨0, 0, 1⟩).smul prob }
  getMean := fun m => ofQuat (m.pos.sdiv m.pSum) (Quat.lookAt m.front m.up)
  total := fun m => m.pSum

end
end State6
end Mcl3dl
