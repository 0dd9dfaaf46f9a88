import Verif.Model.NodeMeasure
import Verif.Props.QuatLookAt

/-! # C113, C114: the pose estimate -/

set_option linter.unusedSectionVars false
set_option linter.unusedSimpArgs false

namespace Mcl3dl
namespace Node

theorem vadd_x (a b : Vec3 ℝ) : (a + b).x = a.x + b.x := rfl
theorem vadd_y (a b : Vec3 ℝ) : (a + b).y = a.y + b.y := rfl
theorem vadd_z (a b : Vec3 ℝ) : (a + b).z = a.z + b.z := rfl
theorem vzero_x : (0 : Vec3 ℝ).x = 0 := rfl
theorem vzero_y : (0 : Vec3 ℝ).y = 0 := rfl
theorem vzero_z : (0 : Vec3 ℝ).z = 0 := rfl

/-- The weight of a particle in the estimate. -/
def voteOf (p : Particle) : ℝ := p.prob * p.bias

/-- The sum of `g` over the particles, weighted with their votes. -/
noncomputable def voteSum (ps : List Particle) (g : State6 ℝ → ℝ) : ℝ :=
  (ps.map fun p => voteOf p * g p.state).sum

theorem voteSum_cons (p : Particle) (ps : List Particle) (g : State6 ℝ → ℝ) :
    voteSum (p :: ps) g = voteOf p * g p.state + voteSum ps g := by simp [voteSum]

/-- What the accumulation computes. -/
theorem fold_meanQuat (ps : List Particle) (m : State6.MeanAcc ℝ) :
    ps.foldl (fun m p => State6.meanQuat.add m p.state (p.prob * p.bias)) m =
      { pSum := m.pSum + voteSum ps fun _ => 1
        pos := m.pos + ⟨voteSum ps fun s => s.pos.x, voteSum ps fun s => s.pos.y, voteSum ps fun s => s.pos.z⟩
        front := m.front + ⟨voteSum ps fun s => (s.rot.rotate ⟨1, 0, 0⟩).x, voteSum ps fun s => (s.rot.rotate ⟨1, 0, 0⟩).y,
          voteSum ps fun s => (s.rot.rotate ⟨1, 0, 0⟩).z⟩
        up := m.up + ⟨voteSum ps fun s => (s.rot.rotate ⟨0, 0, 1⟩).x, voteSum ps fun s => (s.rot.rotate ⟨0, 0, 1⟩).y,
          voteSum ps fun s => (s.rot.rotate ⟨0, 0, 1⟩).z⟩ } := by
  induction ps generalizing m with
  | nil =>
    cases m
    simp only [List.foldl_nil, voteSum, List.map_nil, List.sum_nil, add_zero, State6.MeanAcc.mk.injEq, true_and]
    refine ⟨?_, ?_, ?_⟩ <;> ext <;> simp [vadd_x, vadd_y, vadd_z]
  | cons p ps ih =>
    rw [List.foldl_cons, ih]
    simp only [State6.meanQuat, voteSum_cons, voteOf, State6.MeanAcc.mk.injEq, mul_one]
    refine ⟨by ring, ?_, ?_, ?_⟩ <;> ext <;> simp [vadd_x, vadd_y, vadd_z, Vec3.smul] <;> ring

theorem estimate_pos (f : Filter) :
    (estimate f).pos = ⟨voteSum f.particles (fun s => s.pos.x) / voteSum f.particles fun _ => 1,
      voteSum f.particles (fun s => s.pos.y) / voteSum f.particles fun _ => 1,
      voteSum f.particles (fun s => s.pos.z) / voteSum f.particles fun _ => 1⟩ := by
  have e : (estimate f).pos = (f.expectationBiased State6.meanQuat).pos := rfl
  rw [e, PF.Filter.expectationBiased, fold_meanQuat]
  simp only [State6.meanQuat, State6.ofQuat]
  ext <;> simp [Vec3.sdiv, vadd_x, vadd_y, vadd_z, vzero_x, vzero_y, vzero_z, mul_comm, div_eq_mul_inv]

theorem estimate_rot (f : Filter) :
    (estimate f).rot = (Quat.lookAt
      ⟨voteSum f.particles fun s => (s.rot.rotate ⟨1, 0, 0⟩).x, voteSum f.particles fun s => (s.rot.rotate ⟨1, 0, 0⟩).y,
        voteSum f.particles fun s => (s.rot.rotate ⟨1, 0, 0⟩).z⟩
      ⟨voteSum f.particles fun s => (s.rot.rotate ⟨0, 0, 1⟩).x, voteSum f.particles fun s => (s.rot.rotate ⟨0, 0, 1⟩).y,
        voteSum f.particles fun s => (s.rot.rotate ⟨0, 0, 1⟩).z⟩).normalized := by
  have e : (estimate f).rot = (f.expectationBiased State6.meanQuat).rot.normalized := rfl
  rw [e, PF.Filter.expectationBiased, fold_meanQuat]
  simp only [State6.meanQuat, State6.ofQuat]
  congr 2 <;> ext <;> simp [vadd_x, vadd_y, vadd_z, vzero_x, vzero_y, vzero_z]

theorem voteSum_mono {ps : List Particle} (hw : ∀ p ∈ ps, 0 ≤ voteOf p) {g k : State6 ℝ → ℝ}
    (h : ∀ p ∈ ps, g p.state ≤ k p.state) : voteSum ps g ≤ voteSum ps k := by
  induction ps with
  | nil => simp [voteSum]
  | cons p ps ih =>
    rw [voteSum_cons, voteSum_cons]
    exact add_le_add (mul_le_mul_of_nonneg_left (h p List.mem_cons_self) (hw p List.mem_cons_self))
      (ih (fun q hq => hw q (List.mem_cons_of_mem _ hq)) fun q hq => h q (List.mem_cons_of_mem _ hq))

theorem voteSum_const (ps : List Particle) (c : ℝ) : voteSum ps (fun _ => c) = c * voteSum ps fun _ => 1 := by
  induction ps with
  | nil => simp [voteSum]
  | cons p ps ih => rw [voteSum_cons, voteSum_cons, ih]; ring

theorem voteSum_linear (ps : List Particle) (a b c : ℝ) :
    voteSum ps (fun s => a * s.pos.x + b * s.pos.y + c * s.pos.z) =
      a * voteSum ps (fun s => s.pos.x) + b * voteSum ps (fun s => s.pos.y) + c * voteSum ps fun s => s.pos.z := by
  induction ps with
  | nil => simp [voteSum]
  | cons p ps ih => simp only [voteSum_cons, ih]; ring

/-- C113: the estimated position lies in every half space that contains the particles, hence in their convex
hull and their bounding box. -/
theorem C113_hull (f : Filter) (hw : ∀ p ∈ f.particles, 0 ≤ p.prob * p.bias)
    (hs : 0 < (f.particles.map fun p => p.prob * p.bias).sum) (a : Vec3 ℝ) (c : ℝ)
    (h : ∀ p ∈ f.particles, a.dot p.state.pos ≤ c) : a.dot (estimate f).pos ≤ c := by
  have hs' : 0 < voteSum f.particles fun _ => 1 := by simpa [voteSum, voteOf] using hs
  have h1 := voteSum_mono (k := fun _ => c) (g := fun s => a.x * s.pos.x + a.y * s.pos.y + a.z * s.pos.z) hw h
  rw [voteSum_const, voteSum_linear] at h1
  rw [estimate_pos]
  simp only [Vec3.dot]
  rw [mul_div_assoc', mul_div_assoc', mul_div_assoc', ← add_div, ← add_div, div_le_iff₀ hs']
  exact h1

theorem voteSum_agree {ps : List Particle} {g : State6 ℝ → ℝ} {c : ℝ}
    (h : ∀ p ∈ ps, voteOf p ≠ 0 → g p.state = c) : voteSum ps g = c * voteSum ps fun _ => 1 := by
  induction ps with
  | nil => simp [voteSum]
  | cons p ps ih =>
    rw [voteSum_cons, voteSum_cons, ih fun q hq => h q (List.mem_cons_of_mem _ hq)]
    by_cases h0 : voteOf p = 0
    · rw [h0]; ring
    · rw [h p List.mem_cons_self h0]; ring

/-- The estimate of unanimous particles, before the question of half turns. -/
theorem estimate_unanimous (f : Filter) (hs : 0 < (f.particles.map fun p => p.prob * p.bias).sum)
    (pos : Vec3 ℝ) (rot : Quat ℝ) (hu : rot.dot rot = 1)
    (h : ∀ p ∈ f.particles, p.prob * p.bias ≠ 0 → p.state.pos = pos ∧ Quat.SameRotation p.state.rot rot) :
    (estimate f).pos = pos ∧ (estimate f).rot = (Quat.canon rot).normalized := by
  have hs' : 0 < voteSum f.particles fun _ => 1 := by simpa [voteSum, voteOf] using hs
  have hr : ∀ p ∈ f.particles, voteOf p ≠ 0 → ∀ v, p.state.rot.rotate v = rot.rotate v := by
    intro p hp h0 v
    rcases (h p hp h0).2 with e | e
    · rw [e]
    · rw [e]; ext <;> simp [Quat.rotate_x, Quat.rotate_y, Quat.rotate_z]
  constructor
  · rw [estimate_pos, voteSum_agree (g := fun s => s.pos.x) (c := pos.x) fun p hp h0 => by rw [(h p hp h0).1],
      voteSum_agree (g := fun s => s.pos.y) (c := pos.y) fun p hp h0 => by rw [(h p hp h0).1],
      voteSum_agree (g := fun s => s.pos.z) (c := pos.z) fun p hp h0 => by rw [(h p hp h0).1]]
    ext <;> simp [hs'.ne']
  · rw [estimate_rot, ← Quat.lookAt_eq_canon rot hu (voteSum f.particles fun _ => 1) (voteSum f.particles fun _ => 1) 0
      hs' hs']
    congr 2
    · ext
      · rw [voteSum_agree (g := fun s => (s.rot.rotate ⟨1, 0, 0⟩).x) (c := (rot.rotate ⟨1, 0, 0⟩).x) fun p hp h0 => by rw [hr p hp h0]]
        simp [Quat.ex, mul_comm, Vec3.smul]
      · rw [voteSum_agree (g := fun s => (s.rot.rotate ⟨1, 0, 0⟩).y) (c := (rot.rotate ⟨1, 0, 0⟩).y) fun p hp h0 => by rw [hr p hp h0]]
        simp [Quat.ex, mul_comm, Vec3.smul]
      · rw [voteSum_agree (g := fun s => (s.rot.rotate ⟨1, 0, 0⟩).z) (c := (rot.rotate ⟨1, 0, 0⟩).z) fun p hp h0 => by rw [hr p hp h0]]
        simp [Quat.ex, mul_comm, Vec3.smul]
    · ext
      · rw [voteSum_agree (g := fun s => (s.rot.rotate ⟨0, 0, 1⟩).x) (c := (rot.rotate ⟨0, 0, 1⟩).x) fun p hp h0 => by rw [hr p hp h0]]
        simp [Quat.ez, mul_comm, Vec3.smul, vadd_x, vadd_y, vadd_z, vzero_x, vzero_y, vzero_z]
      · rw [voteSum_agree (g := fun s => (s.rot.rotate ⟨0, 0, 1⟩).y) (c := (rot.rotate ⟨0, 0, 1⟩).y) fun p hp h0 => by rw [hr p hp h0]]
        simp [Quat.ez, mul_comm, Vec3.smul, vadd_x, vadd_y, vadd_z, vzero_x, vzero_y, vzero_z]
      · rw [voteSum_agree (g := fun s => (s.rot.rotate ⟨0, 0, 1⟩).z) (c := (rot.rotate ⟨0, 0, 1⟩).z) fun p hp h0 => by rw [hr p hp h0]]
        simp [Quat.ez, mul_comm, Vec3.smul, vadd_x, vadd_y, vadd_z, vzero_x, vzero_y, vzero_z]

/-- C114: if the particles that have a vote agree on a pose, the estimate has their position, and their
orientation unless that is a half turn about an axis with components of mixed signs. -/
theorem C114_unanimous (f : Filter) (hs : 0 < (f.particles.map fun p => p.prob * p.bias).sum)
    (pos : Vec3 ℝ) (rot : Quat ℝ) (hu : rot.dot rot = 1)
    (h : ∀ p ∈ f.particles, p.prob * p.bias ≠ 0 → p.state.pos = pos ∧ Quat.SameRotation p.state.rot rot) :
    (estimate f).pos = pos ∧ (Quat.SameRotation (estimate f).rot rot ↔ ¬ Quat.MixedHalfTurn rot) := by
  obtain ⟨h1, h2⟩ := estimate_unanimous f hs pos rot hu h
  refine ⟨h1, ?_⟩
  have hcu : (Quat.canon rot).dot (Quat.canon rot) = 1 := by
    rw [← hu]
    unfold Quat.canon
    split_ifs with g1 g2
    · rfl
    · simp [Quat.dot]
    · have hw0 : rot.w = 0 := le_antisymm (not_lt.1 g1) (not_lt.1 g2)
      simp [Quat.dot, hw0]
  rw [h2, Quat.C31_normalized_unit _ hcu]
  exact Quat.canon_same_iff rot

/-- C114, the exception: a single particle turned about the axis (3, -4, 0) gives an estimate that
is another rotation. -/
theorem C114_half_turn_example : ∃ (f : Filter) (p : Particle), f.particles = [p] ∧ 0 < p.prob * p.bias ∧
    p.state.rot.dot p.state.rot = 1 ∧ ¬ Quat.SameRotation (estimate f).rot p.state.rot := by
  refine ⟨⟨[⟨State6.ofQuat 0 ⟨3 / 5, -4 / 5, 0, 0⟩, 1, 1, 0⟩], none⟩, _, rfl, by norm_num, ?_, ?_⟩
  · simp [Quat.dot, State6.ofQuat]; norm_num
  · have hu : (⟨3 / 5, -4 / 5, 0, 0⟩ : Quat ℝ).dot ⟨3 / 5, -4 / 5, 0, 0⟩ = 1 := by simp [Quat.dot]; norm_num
    have h := (estimate_unanimous ⟨[⟨State6.ofQuat 0 ⟨3 / 5, -4 / 5, 0, 0⟩, 1, 1, 0⟩], none⟩ (by simp) 0
      ⟨3 / 5, -4 / 5, 0, 0⟩ hu (by simp [State6.ofQuat, Quat.SameRotation])).2
    have hc : Quat.canon (⟨3 / 5, -4 / 5, 0, 0⟩ : Quat ℝ) = ⟨3 / 5, 4 / 5, 0, 0⟩ := by
      simp [Quat.canon, abs_div, abs_of_pos]
    rw [h, hc, Quat.C31_normalized_unit _ (by simp [Quat.dot]; norm_num)]
    rintro (e | e)
    · have := congrArg Quat.y e
      simp [State6.ofQuat] at this
      norm_num at this
    · have := congrArg Quat.x e
      simp [State6.ofQuat] at this
      norm_num at this

/-- The hypotheses of C113 and C114 are met by two particles at the same pose. -/
example : ∃ f : Filter, f.particles.length = 2 ∧ (∀ p ∈ f.particles, 0 ≤ p.prob * p.bias) ∧
    0 < (f.particles.map fun p => p.prob * p.bias).sum ∧
    (∀ p ∈ f.particles, (⟨1, 0, 0⟩ : Vec3 ℝ).dot p.state.pos ≤ 3) ∧
    (∀ p ∈ f.particles, p.prob * p.bias ≠ 0 → p.state.pos = ⟨3, 2, 1⟩ ∧ Quat.SameRotation p.state.rot 1) := by
  refine ⟨⟨[⟨State6.ofQuat ⟨3, 2, 1⟩ 1, 1 / 4, 1, 0⟩, ⟨State6.ofQuat ⟨3, 2, 1⟩ 1, 1 / 2, 1 / 2, 0⟩], none⟩, rfl, ?_⟩
  simp [State6.ofQuat, Quat.SameRotation, Vec3.dot]
  norm_num

end Node
end Mcl3dl
