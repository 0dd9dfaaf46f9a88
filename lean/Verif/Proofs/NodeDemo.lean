import Verif.Proofs.NodeBasic
import Verif.Props.Params

/-! # A concrete node: default parameters, an environment and a library

Used by the examples that show the hypotheses of the theorems about the node to be satisfiable. -/

namespace Mcl3dl
namespace Node
namespace Demo

/-- The default parameters. -/
noncomputable def P0 : Params := Params.loadFrom (fun _ => 0) (fun _ => none) false false

theorem load_P0 : Params.load (fun _ => 0) (fun _ => none) = some P0 := by
  have h : Params.rename (fun _ => 0) (fun _ => none) = fun _ => none := by
    simp [Params.rename, Params.renames, Compat.paramRename]
  simp [Params.load, h, P0, Server.boolD, Server.getBool]

@[simp] theorem P0_numParticles : P0.numParticles = 64 := rfl
@[simp] theorem P0_skipMeasure : P0.skipMeasure = 1 := rfl
@[simp] theorem P0_accumCloud : P0.accumCloud = 1 := rfl
@[simp] theorem P0_totalAccumCloudMax : P0.totalAccumCloudMax = 10 := by
  simp [P0, Params.loadFrom, Server.intD, Server.getInt]
@[simp] theorem P0_lpfStep : P0.lpfStep = 16 := rfl

open Classical in
/-- Sorting by accumulated weight. -/
noncomputable def sortParticles (ps : List Particle) : List Particle :=
  ps.insertionSort fun a b => a.accum ≤ b.accum

theorem sortParticles_sorted (ps : List Particle) : PF.IsSorted ps (sortParticles ps) := by
  classical
  refine ⟨List.perm_insertionSort _ _, ?_⟩
  have : Std.Total (fun a b : Particle => a.accum ≤ b.accum) := ⟨fun a b => le_total _ _⟩
  have : IsTrans Particle (fun a b : Particle => a.accum ≤ b.accum) := ⟨fun a b c => le_trans⟩
  have h := List.pairwise_insertionSort (fun a b : Particle => a.accum ≤ b.accum) ps
  exact h.imp fun h => not_lt.2 h

/-- The identity transform. -/
def tf0 : Tf := ⟨0, 1⟩

/-- An environment: time `t`, identity transforms, no downsampling, no noise. -/
noncomputable def env (t : ℝ) : Env where
  now := fun _ => t
  voxel := fun _ pts => pts
  tf := fun _ _ _ => some tf0
  tfFull := fun _ _ _ _ _ => some tf0
  sort := sortParticles
  covIdx := fun _ n sampling num => if sampling then (List.range n).take (min n num) else List.range n
  unit := 1 / 2
  normal := fun _ _ => 0
  driftNoise := fun _ => (0, 0, 0, 0)
  index := fun _ _ _ => 0
  canon := fun _ _ => 0
  normals := fun pts => pts.map fun _ => none
  order := id
  subMatched := true
  subUnmatched := true
  junk := fun _ => 0

theorem env_valid (t : ℝ) : (env t).Valid where
  voxel := fun _ pts q hq => ⟨q, hq, le_rfl⟩
  sort := sortParticles_sorted
  covIdx := by
    intro call n sampling num
    unfold PF.CovIndices env
    cases sampling
    · simp
    · exact ⟨List.range n, List.Perm.refl _, by simp⟩
  unit := by constructor <;> norm_num [env]
  index := fun _ _ _ h => h
  canon := fun _ _ => ⟨le_rfl, one_pos⟩
  normals := fun pts => by simp [env]
  order := fun l => List.Perm.refl l

/-- A library: the kd-tree finds nothing, rays hit nothing. -/
def lib : Lib Unit where
  flann := fun _ _ _ _ => []
  caster := fun _ _ => ⟨fun c _ _ => .ok c, fun c => .ok (none, c)⟩
  caster0 := ()
  solve3 := fun _ => (0, 0)
  solve6 := fun _ => (0, 0)

/-- Arbitrary initial motion. -/
def motion0 : Motion ℝ := ⟨0, 0, 0, 1, 0, 0, 0⟩

/-- A cloud message with one point. -/
def msg (x : ℝ) : Conv.Msg where
  fields := [⟨"x", .f32⟩, ⟨"y", .f32⟩, ⟨"z", .f32⟩]
  size := 1
  asFloat := fun _ f => if f = 0 then x else 0
  asUInt := fun _ _ => 0

theorem fromROSMsg_msg (x : ℝ) : Conv.fromROSMsg (msg x) [] = (true, [⟨⟨x, 0, 0⟩, 0, 0⟩]) := by
  simp [Conv.fromROSMsg, Conv.Msg.has, msg, Conv.fromROSMsgImpl, Conv.copyPoint, Conv.rawPoint,
    Conv.Msg.float, Conv.Msg.index, List.findIdx?_cons, Conv.Point.default]

end Demo
end Node
end Mcl3dl
