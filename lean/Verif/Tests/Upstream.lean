import Verif.Model.CloudAccum
import Verif.Model.PF
import Verif.Model.State6DOF
import Verif.Props.QuatAngles
import Verif.Props.PFFlat
import Verif.Model.ChunkedKdtree
import Verif.Spec.KdSearch
import Mathlib.Tactic

/-!
# The project's own unit tests, run on the model

These are tests of the model, not proofs of properties: each `example` below is an upstream unit test (file and name
cited) with the same inputs and the same expected values, checked by the kernel.  They are evidence that the definitions
describe the code.  Decimal constants are exact here; where the upstream test fixes a random seed, the statement is for
every draw for which the expected result can arise.
-/

namespace Mcl3dl
namespace Tests

/-! ## test_cloud_accum.cpp -/
section Accum
open CloudAccum

/-- The callbacks of test_cloud_accum.cpp:45-64: they append to a string; `accumulate` succeeds iff the message says
so. -/
def script : Callbacks String Bool where
  process := fun w => w ++ "p"
  accumulate := fun ok w => (ok, w ++ (if ok then "a" else "a'"))
  clear := fun w => w ++ "c"

/-- test_cloud_accum.cpp:39-70 PassThrough. -/
example : pushPassThrough true script "" = "cap" ∧
    pushPassThrough false script "cap" = "capca'" := by decide

/-- A sequence of pushes from the initial state; the string after each. -/
def pushes (cfg : Cfg) : St String → String → List (String × Bool) → Outcome (List String)
  | _, _, [] => .ok []
  | s, w, (k, ok) :: rest =>
    (push cfg s k ok script w).bind fun r =>
    (pushes cfg r.1 r.2 rest).bind fun l => .ok (r.2 :: l)

/-- test_cloud_accum.cpp:72-161 Accumulate. -/
example : pushes ⟨2, 6⟩ St.init "" [("1", true), ("2", true), ("1", true), ("2", true), ("1", true), ("2", true),
      ("2", true), ("1", true), ("2", true), ("1", true), ("2", false), ("2", true), ("1", true), ("1", true),
      ("1", true), ("1", true), ("1", true), ("1", true), ("1", false)] =
    .ok ["a", "aa", "aaa", "aaaa", "aaaapca", "aaaapcaa", "aaaapcaaa", "aaaapcaaaa", "aaaapcaaaaa", "aaaapcaaaaapca",
      "aaaapcaaaaapcaa'c", "aaaapcaaaaapcaa'ca", "aaaapcaaaaapcaa'caa", "aaaapcaaaaapcaa'caaa", "aaaapcaaaaapcaa'caaaa",
      "aaaapcaaaaapcaa'caaaaa", "aaaapcaaaaapcaa'caaaaaa", "aaaapcaaaaapcaa'caaaaaapca",
      "aaaapcaaaaapcaa'caaaaaapcaa'c"] := by rfl

end Accum

/-! ## test_pf.cpp -/
section Pf
open PF

/-- The state of test_pf.cpp:39-76: one number; the noise of `State()` is 0. -/
instance : StateOps ℚ := ⟨fun a b => a + b, id⟩

/-- test_pf.cpp:291-307 Iterators. -/
example : ((Filter.new (0 : ℚ) (fun _ => (0 : ℚ)) 10).init fun _ => 123/10).particles.map (·.state) =
    List.replicate 10 (123/10) := by decide +kernel

/-- test_pf.cpp:309-328 AppendParticles. -/
example (junk : ℕ → ℚ) :
    let f := ((Filter.new (0 : ℚ) junk 10).init fun _ => 123/10).append 0 junk 10
    f.particles.length = 20 ∧ (f.particles.map (·.state)).take 10 = List.replicate 10 (123/10) := by
  constructor
  · simp [Filter.append, Filter.init, Filter.new]
  · simp [Filter.append, Filter.init, Filter.new, List.range_succ, List.mapIdx_cons, List.replicate, defaultParticle]

/-- The filter of testResample, test_pf.cpp:210-228. -/
def filterOf (probs states : List ℚ) : PF.Filter ℚ ℚ :=
  ⟨List.zipWith (fun p s => ⟨s, p, 0, 0⟩) probs states, none⟩

/-- `dup` is the only sorted arrangement here, because the accumulated weights increase strictly. -/
theorem sorted_self {ps : List (Particle ℚ ℚ)} (h : ps.Pairwise fun a b => a.accum < b.accum) : IsSorted ps ps :=
  ⟨List.Perm.refl _, h.imp fun h => not_lt.2 h.le⟩

/-- test_pf.cpp:230-262 ResampleFirstParticle, for one draw in the middle of [0, pstep). -/
example : let f := filterOf [1/1000000, 1/5, 1/5, 1/5, 2/5 - 1/1000000] [0, 1, 2, 3, 4]
    (f.resample (accumulate 0 f.particles) (1/10) fun _ => 0).bind (fun g => .ok (g.particles.map (·.state))) =
      .ok [1, 2, 3, 4, 4] := by decide +kernel

/-- test_pf.cpp:263-289 ResampleLastParticle. -/
example : let f := filterOf [1/5, 1/5, 1/5, 2/5 - 1/1000000, 1/1000000] [0, 1, 2, 3, 4]
    (f.resample (accumulate 0 f.particles) (1/10) fun _ => 0).bind (fun g => .ok (g.particles.map (·.state))) =
      .ok [0, 1, 2, 3, 3] := by decide +kernel

end Pf
/-! ## test_vec3.cpp -/
section VecTests

/-- test_vec3.cpp:52-98 Operators. -/
example : let a : Vec3 ℚ := ⟨1, 2, 3⟩
    let d : Vec3 ℚ := ⟨1/2, -1/2, 1⟩
    a + d = ⟨3/2, 3/2, 4⟩ ∧ a - d = ⟨1/2, 5/2, 2⟩ ∧ -a = ⟨-1, -2, -3⟩ ∧ a.smul (1/2) = ⟨1/2, 1, 3/2⟩ ∧
    a.sdiv 2 = a.smul (1/2) ∧ a.get 0 = 1 ∧ a.get 1 = 2 ∧ a.get 2 = 3 ∧ a.get 3 = 1 := by
  refine ⟨?_, ?_, ?_, ?_, ?_, rfl, rfl, rfl, rfl⟩ <;> ext <;>
    norm_num [Vec3.add, Vec3.sub, Vec3.neg, Vec3.smul, Vec3.sdiv, HAdd.hAdd, Add.add, HSub.hSub, Sub.sub, Neg.neg]

/-- test_vec3.cpp:100-106 Times. -/
example : (⟨1, 2, 3⟩ : Vec3 ℚ).times ⟨-4, 5, 6⟩ = ⟨-4, 10, 18⟩ := by
  ext <;> norm_num [Vec3.times]

/-- test_vec3.cpp:108-117 Norm. -/
example : |(⟨1, 2, 3⟩ : Vec3 ℝ).norm - 3.741657| < 1e-6 ∧ |(⟨-4, 5, 6⟩ : Vec3 ℝ).norm - 8.774964| < 1e-6 := by
  simp only [Vec3.norm, Vec3.dot, Transc.sqrt_real]
  constructor
  · rw [abs_lt]
    constructor
    · rw [neg_lt_sub_iff_lt_add, ← sub_lt_iff_lt_add']
      exact Real.lt_sqrt_of_sq_lt (by norm_num)
    · rw [sub_lt_iff_lt_add]
      exact (Real.sqrt_lt' (by norm_num)).2 (by norm_num)
  · rw [abs_lt]
    constructor
    · rw [neg_lt_sub_iff_lt_add, ← sub_lt_iff_lt_add']
      exact Real.lt_sqrt_of_sq_lt (by norm_num)
    · rw [sub_lt_iff_lt_add]
      exact (Real.sqrt_lt' (by norm_num)).2 (by norm_num)

/-- test_vec3.cpp:119-149 Products, for all vectors. -/
example (a b : Vec3 ℝ) : (a - b).dot (a - b) - a.dot a - b.dot b + 2 * a.dot b = 0 ∧ a.dot (a.cross b) = 0 := by
  constructor
  · show (a.x - b.x) * (a.x - b.x) + (a.y - b.y) * (a.y - b.y) + (a.z - b.z) * (a.z - b.z) - a.dot a - b.dot b + 2 * a.dot b = 0
    simp only [Vec3.dot]; ring
  · simp only [Vec3.dot, Vec3.cross]; ring

end VecTests

/-! ## test_quat.cpp -/
section QuatTests

/-- test_quat.cpp:121-162 Operators. -/
example : let a : Quat ℚ := ⟨1, 2, 3, 4⟩
    let d : Quat ℚ := ⟨1/2, -1/2, 1, -1⟩
    a + d = ⟨3/2, 3/2, 4, 3⟩ ∧ a - d = ⟨1/2, 5/2, 2, 5⟩ ∧ -a = ⟨-1, -2, -3, -4⟩ ∧ a.smul (1/2) = ⟨1/2, 1, 3/2, 2⟩ ∧
    a.sdiv 2 = a.smul (1/2) := by
  refine ⟨?_, ?_, ?_, ?_, ?_⟩ <;> ext <;>
    norm_num [Quat.smul, Quat.sdiv, HAdd.hAdd, Add.add, HSub.hSub, Sub.sub, Neg.neg]

/-- test_quat.cpp:231-277, the nine rotated unit vectors (the rotations are written out: a quarter turn about x, and
minus a quarter turn about y and z, with `h` half the square root of 2). -/
example (h : ℝ) (hh : h * h = 1 / 2) (v : Vec3 ℝ) :
    (⟨h, 0, 0, h⟩ : Quat ℝ).rotate v = ⟨v.x, -v.z, v.y⟩ ∧ (⟨0, -h, 0, h⟩ : Quat ℝ).rotate v = ⟨-v.z, v.y, v.x⟩ ∧
    (⟨0, 0, -h, h⟩ : Quat ℝ).rotate v = ⟨v.y, -v.x, v.z⟩ := by
  refine ⟨?_, ?_, ?_⟩ <;> ext <;> simp only [Quat.rotate_x, Quat.rotate_y, Quat.rotate_z] <;>
    first
    | linear_combination 2 * v.x * hh
    | linear_combination 2 * v.y * hh
    | linear_combination 2 * v.z * hh
    | linear_combination (-2) * v.x * hh
    | linear_combination (-2) * v.y * hh
    | linear_combination (-2) * v.z * hh

/-- test_quat.cpp:55-90: the quarter turns made from roll, pitch, yaw and from axis and angle are the same. -/
example : Quat.ofRPY ⟨Real.pi / 2, 0, 0⟩ = Quat.ofAxisAng ⟨1, 0, 0⟩ (Real.pi / 2) ∧
    Quat.ofRPY ⟨0, Real.pi / 2, 0⟩ = Quat.ofAxisAng ⟨0, 1, 0⟩ (Real.pi / 2) ∧
    Quat.ofRPY ⟨0, 0, Real.pi / 2⟩ = Quat.ofAxisAng ⟨0, 0, 1⟩ (Real.pi / 2) := by
  refine ⟨?_, ?_, ?_⟩ <;> rw [Quat.ofAxisAng_eq _ (by norm_num [Vec3.dot])] <;> ext <;>
    simp [Quat.ofRPY, Quat.two_real]

end QuatTests

/-! ## test_state_6dof.cpp -/
section StateTests

/-- test_state_6dof.cpp:38-59 Constructors. -/
example : let a : State6 ℚ := State6.ofQuat ⟨1, 2, 3⟩ ⟨1/1000, 2/1000, 3/1000, 99/100⟩
    let b : State6 ℚ := State6.ofRPY ⟨4, 5, 6⟩ ⟨1/10, 2/10, 3/10⟩
    a.diff = false ∧ a.pos = ⟨1, 2, 3⟩ ∧ a.rot = ⟨1/1000, 2/1000, 3/1000, 99/100⟩ ∧ a.integLin = ⟨0, 0, 0⟩ ∧
    a.integAng = ⟨0, 0, 0⟩ ∧ b.diff = true ∧ b.pos = ⟨4, 5, 6⟩ ∧ b.rot = ⟨0, 0, 0, 1⟩ ∧ b.rpy = ⟨1/10, 2/10, 3/10⟩ ∧
    b.integLin = ⟨0, 0, 0⟩ ∧ b.integAng = ⟨0, 0, 0⟩ := by
  exact ⟨rfl, rfl, rfl, rfl, rfl, rfl, rfl, rfl, rfl, rfl, rfl⟩

/-- test_state_6dof.cpp:61-89 Accessors. -/
example : (List.range 13).map (State6.ofQuat (⟨1, 2, 3⟩ : Vec3 ℚ) ⟨1/1000, 2/1000, 3/1000, 99/100⟩).get =
    [.ok 1, .ok 2, .ok 3, .ok (1/1000), .ok (2/1000), .ok (3/1000), .ok (99/100), .ok 0, .ok 0, .ok 0, .ok 0, .ok 0,
     .ok 0] := by rfl

/-- test_state_6dof.cpp:91-113 Adder, with the yaw rotations as quaternions of the half angles. -/
example (s t : ℝ) :
    let q : ℝ → Quat ℝ := fun a => ⟨0, 0, Real.sin (a / 2), Real.cos (a / 2)⟩
    let a := State6.ofQuat ⟨1, 2, 3⟩ (q s)
    let b := State6.ofQuat ⟨4, 5, 6⟩ (q t)
    (a.add b).pos = ⟨5, 7, 9⟩ ∧ (a.add b).rot = q (s + t) ∧ (a.sub b).pos = ⟨-3, -3, -3⟩ ∧ (a.sub b).rot = q (s - t) := by
  intro q a b
  have e1 : (s + t) / 2 = s / 2 + t / 2 := by ring
  have e2 : (s - t) / 2 = s / 2 - t / 2 := by ring
  refine ⟨?_, ?_, ?_, ?_⟩
  · show (⟨1 + 4, 2 + 5, 3 + 6⟩ : Vec3 ℝ) = _; norm_num
  · show q t * q s = _
    ext <;> simp only [q, e1, Real.sin_add, Real.cos_add, Quat.mul_x, Quat.mul_y, Quat.mul_z, Quat.mul_w] <;> ring
  · show (⟨1 - 4, 2 - 5, 3 - 6⟩ : Vec3 ℝ) = _; norm_num
  · show (q t).inv * q s = _
    have hu : (q t).dot (q t) = 1 := by
      have := Real.sin_sq_add_cos_sq (t / 2)
      simp only [q, Quat.dot]; nlinarith
    rw [Quat.C30_inv_unit _ hu]
    ext <;> simp only [q, e2, Real.sin_sub, Real.cos_sub, Quat.mul_x, Quat.mul_y, Quat.mul_z, Quat.mul_w, Quat.conj_x,
      Quat.conj_y, Quat.conj_z, Quat.conj_w] <;> ring

end StateTests

/-! ## test_chunked_kdtree.cpp -/
section KdTests
open ChunkedKdtree

/-- A nearest-neighbour search by exhaustion, in place of FLANN: the nearest point if it is closer than `r`. -/
def nearest (pts : List (Vec3 ℚ)) (q : Vec3 ℚ) (r : ℚ) (_ : ℕ) : List (ℕ × ℚ) :=
  match ((pts.zipIdx.map fun e => (e.2, weightedDist ⟨1, 1, 1⟩ q e.1)).filter fun e => decide (e.2 < r ^ 2)).foldl
    (fun b e => match b with
      | none => some e
      | some b => if e.2 < b.2 then some e else some b) none with
  | none => []
  | some e => [e]

/-- The map of test_chunked_kdtree.cpp:40-48. -/
def testTree : Chunks ℚ := setInputCloud ⟨1, 3/10, false⟩
  [⟨1/2, 1/2, 1/2⟩, ⟨8/10, 0, 0⟩, ⟨13/10, 0, 0⟩, ⟨0, 2/10, 0⟩, ⟨0, -3/10, 0⟩]

/-- The ids found around a point, with radius 0.3 and at most one neighbour. -/
def ids (p : Vec3 ℚ) : Outcome (List ℕ) :=
  (radiusSearch ⟨1, 3/10, false⟩ testTree nearest p (3/10) 1).bind fun l => .ok (l.map Prod.fst)

/-- test_chunked_kdtree.cpp:38-88 RadiusSearch. -/
example : ids ⟨1/2, 1/2, 1/2⟩ = .ok [0] ∧ ids ⟨1/2, 4/10, 1/2⟩ = .ok [0] ∧ ids ⟨105/100, 0, 0⟩ = .ok [1] ∧
    ids ⟨11/10, 0, 0⟩ = .ok [2] ∧ ids ⟨0, -5/100, 0⟩ = .ok [3] ∧ ids ⟨0, -15/100, 0⟩ = .ok [4] := by
  decide +kernel

end KdTests

end Tests
end Mcl3dl
