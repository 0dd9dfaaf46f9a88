import Verif.Model.State6DOF
import Verif.Props.QuatLookAt
import Mathlib.Tactic

/-!
# C39 - C45: the 6-DOF state, its mean and its noise
-/

set_option linter.unusedSectionVars false

namespace Mcl3dl
namespace State6

open Real Quat

/-! ## C39: weighted mean of equal orientations -/

section Mean

theorem meanAdd_front (m : MeanAcc ℝ) (s : State6 ℝ) (p : ℝ) :
    (meanQuat.add m s p).front = m.front + (s.rot.rotate ⟨1, 0, 0⟩).smul p := rfl

/-- Invariant of the accumulating loop when all orientations are `q`. -/
def Acc (q : Quat ℝ) (m : MeanAcc ℝ) : Prop :=
  m.front = (q.rotate ex).smul m.pSum ∧ m.up = (q.rotate ez).smul m.pSum

theorem acc_empty (q : Quat ℝ) : Acc q (meanQuat (F := ℝ)).empty := by
  constructor <;> ext <;> simp [meanQuat, Vec3.smul] <;> rfl

theorem acc_add (q : Quat ℝ) (m : MeanAcc ℝ) (s : State6 ℝ) (p : ℝ) (h : Acc q m) (hs : s.rot = q) :
    Acc q (meanQuat.add m s p) := by
  obtain ⟨h1, h2⟩ := h
  constructor
  · change m.front + (s.rot.rotate ⟨1, 0, 0⟩).smul p = (q.rotate ex).smul (m.pSum + p)
    rw [h1, hs]
    ext <;> simp only [Vec3.add_x, Vec3.add_y, Vec3.add_z, Vec3.smul, ex] <;> ring
  · change m.up + (s.rot.rotate ⟨0, 0, 1⟩).smul p = (q.rotate ez).smul (m.pSum + p)
    rw [h2, hs]
    ext <;> simp only [Vec3.add_x, Vec3.add_y, Vec3.add_z, Vec3.smul, ez] <;> ring

theorem acc_loop (q : Quat ℝ) (r : ℝ) (ps : List (PF.Particle (State6 ℝ) ℝ))
    (h : ∀ p ∈ ps, p.state.rot = q ∧ 0 < p.prob) :
    ∀ m : MeanAcc ℝ, Acc q m → 0 ≤ m.pSum →
      Acc q (PF.meanLoop meanQuat r m ps) ∧ m.pSum ≤ (PF.meanLoop meanQuat r m ps).pSum ∧
      (ps ≠ [] → 0 < (PF.meanLoop meanQuat r m ps).pSum) := by
  induction ps with
  | nil => intro m hm h0; exact ⟨hm, le_refl _, fun h => absurd rfl h⟩
  | cons p ps ih =>
    intro m hm h0
    obtain ⟨hs, hp⟩ := h p (by simp)
    have ha := acc_add q m p.state p.prob hm hs
    have hsum : (meanQuat.add m p.state p.prob).pSum = m.pSum + p.prob := rfl
    simp only [PF.meanLoop]
    split_ifs with hc
    · exact ⟨ha, by rw [hsum]; linarith, fun _ => by rw [hsum]; linarith⟩
    · obtain ⟨a, b, _⟩ := ih (fun p hp => h p (by simp [hp])) _ ha (by rw [hsum]; linarith)
      rw [hsum] at b
      exact ⟨a, by linarith, fun _ => by linarith⟩

/-- What `expectation()` returns for particles that share one unit orientation `q`. -/
theorem expectation_rot (f : PF.Filter (State6 ℝ) ℝ) (q : Quat ℝ) (hq : q.dot q = 1)
    (hne : f.particles ≠ []) (h : ∀ p ∈ f.particles, p.state.rot = q ∧ 0 < p.prob)
    (r : ℝ) (sorted : List (PF.Particle (State6 ℝ) ℝ)) (hs : PF.IsSortedDesc f.particles sorted) :
    (f.expectation meanQuat r sorted).1.rot = canon q := by
  have key : ∀ ps : List (PF.Particle (State6 ℝ) ℝ), ps ≠ [] → (∀ p ∈ ps, p.state.rot = q ∧ 0 < p.prob) →
      (meanQuat.getMean (PF.meanLoop meanQuat r meanQuat.empty ps)).rot = canon q := by
    intro ps hne h
    obtain ⟨⟨a1, a2⟩, _, hpos⟩ := acc_loop q r ps h meanQuat.empty (acc_empty q) (le_refl (0:ℝ))
    have hp := hpos hne
    generalize PF.meanLoop meanQuat r meanQuat.empty ps = m at *
    change lookAt m.front m.up = canon q
    rw [a1, a2]
    have := lookAt_eq_canon q hq m.pSum m.pSum 0 hp hp
    have e : (q.rotate ez).smul m.pSum + (q.rotate ex).smul 0 = (q.rotate ez).smul m.pSum := by
      ext <;> simp [Vec3.add_x, Vec3.add_y, Vec3.add_z, Vec3.smul]
    rwa [e] at this
  unfold PF.Filter.expectation
  simp only
  split_ifs with hc
  · refine key sorted ?_ ?_
    · intro h0; apply hne
      have := hs.1.length_eq
      rw [h0] at this
      exact List.length_eq_zero_iff.1 this.symm
    · intro p hp; exact h p (hs.1.mem_iff.1 hp)
  · exact key _ hne h

/-- **C39**: the mean of particles sharing one orientation is that rotation, whatever the positive weights and the
pass ratio, exactly if the orientation is not a half turn about an axis with components of mixed signs. -/
theorem C39_mean_equal_orientation (f : PF.Filter (State6 ℝ) ℝ) (q : Quat ℝ)
    (hq : q.dot q = 1) (hne : f.particles ≠ [])
    (h : ∀ p ∈ f.particles, p.state.rot = q ∧ 0 < p.prob)
    (r : ℝ) (sorted : List (PF.Particle (State6 ℝ) ℝ)) (hs : PF.IsSortedDesc f.particles sorted) :
    SameRotation (f.expectation meanQuat r sorted).1.rot q ↔ ¬ MixedHalfTurn q := by
  rw [expectation_rot f q hq hne h r sorted hs, canon_same_iff]

/-- C39: such half turns occur: two particles upside down and facing -y have a mean facing +y. -/
theorem C39_half_turn_example :
    ∃ (f : PF.Filter (State6 ℝ) ℝ) (q : Quat ℝ), q.dot q = 1 ∧ f.particles.length = 2 ∧
      (∀ p ∈ f.particles, p.state.rot = q ∧ 0 < p.prob) ∧
      ¬ SameRotation (f.expectation meanQuat 1 f.particles).1.rot q := by
  have hr : Real.sqrt 2 * Real.sqrt 2 = 2 := Real.mul_self_sqrt (by norm_num)
  have hnr : (Real.sqrt 2)⁻¹ * (Real.sqrt 2)⁻¹ = 1/2 := by rw [← mul_inv, hr]; norm_num
  have hrp : 0 < (Real.sqrt 2)⁻¹ := by positivity
  set r := (Real.sqrt 2)⁻¹ with hrdef
  have hq : (⟨r, -r, 0, 0⟩ : Quat ℝ).dot ⟨r, -r, 0, 0⟩ = 1 := by
    simp only [Quat.dot]; linear_combination 2 * hnr
  set f : PF.Filter (State6 ℝ) ℝ :=
    ⟨[⟨ofQuat 0 ⟨r, -r, 0, 0⟩, 1/2, 0, 0⟩, ⟨ofQuat 0 ⟨r, -r, 0, 0⟩, 1/2, 0, 0⟩], none⟩ with hf
  have hall : ∀ p ∈ f.particles, p.state.rot = ⟨r, -r, 0, 0⟩ ∧ 0 < p.prob := by
    intro p hp
    have : p = ⟨ofQuat 0 ⟨r, -r, 0, 0⟩, 1/2, 0, 0⟩ := by simpa [hf] using hp
    subst this
    exact ⟨rfl, by norm_num⟩
  refine ⟨f, ⟨r, -r, 0, 0⟩, hq, rfl, hall, ?_⟩
  rw [expectation_rot f _ hq (by simp [hf]) hall 1 f.particles ⟨List.Perm.refl _, by simp [hf]⟩]
  simp only [canon, lt_irrefl, if_false, abs_neg, abs_of_pos hrp, abs_zero]
  rintro (h | h)
  · have := congrArg Quat.y h; simp only at this; linarith
  · have := congrArg Quat.x h; simp only [neg_x] at this; linarith

end Mean

/-! ## C40: addition and subtraction -/

section AddSub
variable {K : Type} [Field K]

/-- The members a user sees as the estimated state. -/
def pose (s : State6 K) : Vec3 K × Quat K × Vec3 K × Vec3 K := (s.pos, s.rot, s.integLin, s.integAng)

/-- C40: subtracting and adding back a state recovers position, orientation and error integrals. -/
theorem C40_sub_add (s a : State6 K) (ha : a.rot.dot a.rot ≠ 0) :
    pose ((s.sub a).add a) = pose s := by
  simp only [pose, add, sub, default, Prod.mk.injEq]
  refine ⟨?_, ?_, ?_, ?_⟩
  · ext <;> simp [Vec3.add_x, Vec3.add_y, Vec3.add_z, Vec3.sub_x, Vec3.sub_y, Vec3.sub_z]
  · rw [← C29_mul_assoc, (C30_inv_mul _ ha).2, (C29_one _ 0).1]
  · ext <;> simp [Vec3.add_x, Vec3.add_y, Vec3.add_z, Vec3.sub_x, Vec3.sub_y, Vec3.sub_z]
  · ext <;> simp [Vec3.add_x, Vec3.add_y, Vec3.add_z, Vec3.sub_x, Vec3.sub_y, Vec3.sub_z]

/-- C40: adding and subtracting a state recovers position, orientation and error integrals. -/
theorem C40_add_sub (s a : State6 K) (ha : a.rot.dot a.rot ≠ 0) :
    pose ((s.add a).sub a) = pose s := by
  simp only [pose, add, sub, default, Prod.mk.injEq]
  refine ⟨?_, ?_, ?_, ?_⟩
  · ext <;> simp [Vec3.add_x, Vec3.add_y, Vec3.add_z, Vec3.sub_x, Vec3.sub_y, Vec3.sub_z]
  · rw [← C29_mul_assoc, (C30_inv_mul _ ha).1, (C29_one _ 0).1]
  · ext <;> simp [Vec3.add_x, Vec3.add_y, Vec3.add_z, Vec3.sub_x, Vec3.sub_y, Vec3.sub_z]
  · ext <;> simp [Vec3.add_x, Vec3.add_y, Vec3.add_z, Vec3.sub_x, Vec3.sub_y, Vec3.sub_z]

/-- Non-vacuity: the orientation of a state built from RPY angles is never zero. -/
example (p r : Vec3 ℝ) : (ofQuat p (Quat.ofRPY r)).rot.dot (ofQuat p (Quat.ofRPY r)).rot ≠ 0 := by
  change (Quat.ofRPY r).dot (Quat.ofRPY r) ≠ 0
  rw [C32_unit]; exact one_ne_zero

/-- C40: without the orientation hypothesis it fails (a zero quaternion has no inverse): the claim's
hypothesis is needed. -/
theorem C40_needs_nonzero : ∃ s a : State6 ℚ, pose ((s.sub a).add a) ≠ pose s := by
  refine ⟨default, ofQuat 0 ⟨0, 0, 0, 0⟩, ?_⟩
  intro h
  have := congrArg (fun p => p.2.1.w) h
  simp [pose, add, sub, default, ofQuat] at this

end AddSub

/-! ## C41: wrapping of angular deviations -/

section Wrap

/-- Specification: `r` is the angle `d` reduced by whole turns into `[-π, π]`. -/
def IsShortest (d r : ℝ) : Prop := -π ≤ r ∧ r ≤ π ∧ ∃ k : ℤ, r = d + k * (2 * π)

theorem wrapDown (n : ℕ) : ∀ d : ℝ, d ≤ π + n * (2 * π) → -π ≤ d →
    ∃ r, whileLoop (fun d => π < d) (fun d => d - 2 * π) d = some r ∧ IsShortest d r := by
  induction n with
  | zero =>
    intro d h h2
    refine ⟨d, whileLoop_done (by simpa using h), h2, by simpa using h, 0, by simp⟩
  | succ n ih =>
    intro d h h2
    by_cases hd : π < d
    · obtain ⟨r, h3, h4, h5, k, hk⟩ := ih (d - 2 * π) (by push_cast at h; linarith) (by linarith [Real.pi_pos])
      refine ⟨r, ?_, h4, h5, k - 1, ?_⟩
      · rw [whileLoop_step hd]; exact h3
      · rw [hk]; push_cast; ring
    · exact ⟨d, whileLoop_done hd, h2, not_lt.1 hd, 0, by simp⟩

theorem wrapUp (n : ℕ) : ∀ d : ℝ, -π - n * (2 * π) ≤ d → d ≤ π →
    ∃ r, whileLoop (fun d => d < -π) (fun d => d + 2 * π) d = some r ∧ IsShortest d r := by
  induction n with
  | zero =>
    intro d h h2
    refine ⟨d, whileLoop_done (by simpa using h), by simpa using h, h2, 0, by simp⟩
  | succ n ih =>
    intro d h h2
    by_cases hd : d < -π
    · obtain ⟨r, h3, h4, h5, k, hk⟩ := ih (d + 2 * π) (by push_cast at h; linarith) (by linarith [Real.pi_pos])
      refine ⟨r, ?_, h4, h5, k + 1, ?_⟩
      · rw [whileLoop_step (c := fun d : ℝ => d < -π) (s := d) hd]; exact h3
      · rw [hk]; push_cast; ring
    · exact ⟨d, whileLoop_done (c := fun d : ℝ => d < -π) hd, not_lt.1 hd, h2, 0, by simp⟩

/-- The wrapping loops always end and give a shortest representative. -/
theorem wrap_spec (d : ℝ) : ∃ r, wrapAngle d = some r ∧ IsShortest d r := by
  have hpi := Real.pi_pos
  unfold wrapAngle
  simp only [two_real, Transc.pi_real]
  by_cases hd : π < d
  · obtain ⟨n, hn⟩ := exists_nat_gt ((d - π) / (2 * π))
    have : d ≤ π + n * (2 * π) := by
      rw [div_lt_iff₀ (by positivity)] at hn; linarith
    obtain ⟨r, h1, h2, h3, k, hk⟩ := wrapDown n d this (by linarith)
    refine ⟨r, ?_, h2, h3, k, hk⟩
    rw [h1]
    exact whileLoop_done (c := fun d : ℝ => d < -π) (not_lt.2 h2)
  · rw [whileLoop_done hd]
    obtain ⟨n, hn⟩ := exists_nat_gt ((-π - d) / (2 * π))
    have : -π - n * (2 * π) ≤ d := by
      rw [div_lt_iff₀ (by positivity)] at hn; linarith
    exact wrapUp n d this (not_lt.1 hd)

/-- Shortest representatives of equivalent angles agree, unless they are exactly half turns. -/
theorem isShortest_unique {d d' r r' : ℝ} (k : ℤ) (hd : d' = d + k * (2 * π)) (h : IsShortest d r)
    (h' : IsShortest d' r') (hr : |r| ≠ π) : r' = r := by
  obtain ⟨h1, h2, m, hm⟩ := h
  obtain ⟨h1', h2', m', hm'⟩ := h'
  have hpi := Real.pi_pos
  have h1s : -π < r := lt_of_le_of_ne h1 (by
    intro he; apply hr; rw [← he, abs_neg, abs_of_pos hpi])
  have h2s : r < π := lt_of_le_of_ne h2 (by
    intro he; apply hr; rw [he, abs_of_pos hpi])
  have e : r' - r = ((k + m' - m : ℤ) : ℝ) * (2 * π) := by rw [hm, hm', hd]; push_cast; ring
  set j := k + m' - m
  have hlt : ((j : ℤ) : ℝ) * (2 * π) < 1 * (2 * π) := by linarith
  have hgt : (-1) * (2 * π) < ((j : ℤ) : ℝ) * (2 * π) := by linarith
  have j1 : (j : ℝ) < 1 := lt_of_mul_lt_mul_right hlt (by positivity)
  have j2 : (-1 : ℝ) < j := lt_of_mul_lt_mul_right hgt (by positivity)
  have : j = 0 := by
    have a : j < 1 := by exact_mod_cast j1
    have b : -1 < j := by exact_mod_cast j2
    omega
  rw [this] at e; simp at e; linarith

/-- The specified deviation of component `i`: position difference for 0-2, shortest turn between the
roll/pitch/yaw angles for 3-5. -/
def Deviates (s e : State6 ℝ) (i : Nat) (a : ℝ) : Prop :=
  if i < 3 then a = s.pos.get i - e.pos.get i
  else IsShortest (s.angles.get (i - 3) - e.angles.get (i - 3)) a

/-- C41: `covElement` always terminates, and is the product of the two deviations, each angular one
reduced to the shortest turn. -/
theorem C41_covElement (s e : State6 ℝ) (j k : Nat) :
    ∃ a b, Deviates s e j a ∧ Deviates s e k b ∧ covElement s e j k = some (a * b) := by
  have key : ∀ i, ∃ a, Deviates s e i a ∧ deviation s e i = some a := by
    intro i
    unfold Deviates deviation
    split_ifs with h
    · exact ⟨_, rfl, rfl⟩
    · obtain ⟨r, h1, h2⟩ := wrap_spec (s.angles.get (i - 3) - e.angles.get (i - 3))
      exact ⟨r, h2, h1⟩
  obtain ⟨a, h1, h2⟩ := key j
  obtain ⟨b, h3, h4⟩ := key k
  exact ⟨a, b, h1, h3, by simp [covElement, h2, h4]⟩

/-- C41: adding whole turns to the angles of the particle does not change its covariance elements,
unless an angular deviation is exactly a half turn. -/
theorem C41_turn_invariant (s s' e : State6 ℝ) (hpos : s'.pos = s.pos)
    (hang : ∀ i, ∃ n : ℤ, s'.angles.get i = s.angles.get i + n * (2 * π)) (j k : Nat)
    (hj : j < 3 ∨ ¬ Deviates s e j π ∧ ¬ Deviates s e j (-π))
    (hk : k < 3 ∨ ¬ Deviates s e k π ∧ ¬ Deviates s e k (-π)) :
    covElement s' e j k = covElement s e j k := by
  have key : ∀ i, (i < 3 ∨ ¬ Deviates s e i π ∧ ¬ Deviates s e i (-π)) →
      deviation s' e i = deviation s e i := by
    intro i hi
    unfold deviation
    split_ifs with h
    · rw [hpos]
    · obtain ⟨r, h1, h2⟩ := wrap_spec (s.angles.get (i - 3) - e.angles.get (i - 3))
      obtain ⟨r', h1', h2'⟩ := wrap_spec (s'.angles.get (i - 3) - e.angles.get (i - 3))
      obtain ⟨n, hn⟩ := hang (i - 3)
      rw [h1, h1']
      congr 1
      refine isShortest_unique n (by rw [hn]; ring) h2 h2' ?_
      intro hr
      rcases hi with hi | ⟨ha, hb⟩
      · exact h hi
      · rcases abs_eq Real.pi_pos.le |>.1 hr with hr | hr
        · apply ha; unfold Deviates; rw [if_neg h]; rw [← hr]; exact h2
        · apply hb; unfold Deviates; rw [if_neg h]; rw [← hr]; exact h2
  unfold covElement
  rw [key j hj, key k hk]

/-- Non-vacuity: a difference state with yaw 3.1 against yaw -3.1 deviates by 6.2 - 2π, not 6.2. -/
example : Deviates (ofRPY 0 ⟨0, 0, 3.1⟩) (ofRPY 0 ⟨0, 0, -3.1⟩) 5 (6.2 - 2 * π) ∧
    ¬ Deviates (ofRPY 0 ⟨0, 0, 3.1⟩) (ofRPY 0 ⟨0, 0, -3.1⟩) 5 6.2 := by
  have h1 := Real.pi_gt_three
  have h2 := Real.pi_lt_four
  constructor
  · unfold Deviates
    rw [if_neg (by norm_num)]
    refine ⟨by norm_num; linarith [Real.pi_lt_d2], by norm_num; linarith, -1, ?_⟩
    norm_num [angles, ofRPY, Vec3.get]; ring
  · unfold Deviates
    rw [if_neg (by norm_num)]
    rintro ⟨_, h, _⟩
    linarith

end Wrap

/-! ## C42: transforming a cloud -/

section Transform
variable {A : Type}

/-- Squared distance of two points. -/
def dist2 (u v : Vec3 ℝ) : ℝ := (u - v).dot (u - v)

/-- C42: `transform` keeps the number, order and attributes of the points; every point is rotated by
the normalized orientation and translated. -/
theorem C42_pointwise (s : State6 ℝ) (pc : List (Pt ℝ A)) :
    (s.transform pc).length = pc.length ∧
    (s.transform pc).map Pt.attr = pc.map Pt.attr ∧
    ∀ (i : Nat) (p : Pt ℝ A), pc[i]? = some p →
      (s.transform pc)[i]? = some ⟨s.rot.normalized.rotate p.pos + s.pos, p.attr⟩ := by
  refine ⟨by simp [transform], by simp [transform], ?_⟩
  intro i p h
  simp [transform, h]

/-- C42: `transform` is rigid, for every state with a non-zero orientation, unit or not: all pairwise
distances are preserved. -/
theorem C42_rigid (s : State6 ℝ) (hs : s.rot ≠ ⟨0, 0, 0, 0⟩) (pc : List (Pt ℝ A)) (i j : Nat)
    (p q : Pt ℝ A) (hi : pc[i]? = some p) (hj : pc[j]? = some q) :
    ∃ p' q', (s.transform pc)[i]? = some p' ∧ (s.transform pc)[j]? = some q' ∧
      dist2 p'.pos q'.pos = dist2 p.pos q.pos := by
  obtain ⟨_, _, h⟩ := C42_pointwise s pc
  refine ⟨_, _, h i p hi, h j q hj, ?_⟩
  have hu := (C31_normalized s.rot hs).2.1
  generalize s.rot.normalized = r at *
  have e : (r.rotate p.pos + s.pos) - (r.rotate q.pos + s.pos) = r.rotate (p.pos - q.pos) := by
    ext <;> simp only [Vec3.sub_x, Vec3.sub_y, Vec3.sub_z, Vec3.add_x, Vec3.add_y, Vec3.add_z,
      rotate_x, rotate_y, rotate_z] <;> ring
  simp only [dist2]
  rw [e, C28_unit_preserves_dot r hu]

/-- C42: the orientation is preserved as well (no reflection). -/
theorem C42_orientation (s : State6 ℝ) (hs : s.rot ≠ ⟨0, 0, 0, 0⟩) (u v : Vec3 ℝ) :
    (s.rot.normalized.rotate u).cross (s.rot.normalized.rotate v) = s.rot.normalized.rotate (u.cross v) :=
  C28_unit_preserves_cross _ (C31_normalized s.rot hs).2.1 u v

example : (ofQuat (⟨1, 2, 3⟩ : Vec3 ℝ) ⟨0, 0, 2, 2⟩).rot ≠ ⟨0, 0, 0, 0⟩ := by
  intro h; have := congrArg Quat.w h; norm_num [ofQuat, default] at this

end Transform

/-! ## C43 - C45: noise -/

section Noise
variable {E : Type}

/-- C43: after `init(mean, sigma)` (as a batch of `n` generated particles) every particle's
angular error integral is the deviation of its roll, pitch, yaw from the mean; the linear integral
equals the absolute position, i.e. the deviation exactly when the mean position is the origin. -/
theorem C43_init [DecidableEq ℝ] (nd : ℝ → ℝ → E → ℝ × E) (mean sigma : State6 ℝ) (n : Nat) (e : E) :
    ∃ ss e', generateN (diagonalGen nd mean sigma) n e = .ok (ss, e') ∧ ss.length = n ∧
      ∀ s ∈ ss, (∃ rpy : Vec3 ℝ, s.rot = Quat.ofRPY rpy ∧ s.integAng = rpy - mean.rot.getRPY) ∧
        s.integLin = s.pos ∧ (mean.pos = 0 → s.integLin = s.pos - mean.pos) := by
  have one : ∀ e, ∃ s e', generateNoise (diagonalGen nd mean sigma) e = .ok (s, e') ∧
      (∃ rpy : Vec3 ℝ, s.rot = Quat.ofRPY rpy ∧ s.integAng = rpy - mean.rot.getRPY) ∧
        s.integLin = s.pos := by
    intro e
    simp only [generateNoise, diagonalGen, NoiseGen.diagonal, meanVec, sigmaVec, NoiseGen.diagonalLoop,
      List.getElem?_cons_zero, List.getElem?_cons_succ, Outcome.bind, ofNoise]
    refine ⟨_, _, rfl, ⟨_, rfl, ?_⟩, rfl⟩
    ext <;> simp [Vec3.sub_x, Vec3.sub_y, Vec3.sub_z]
  induction n generalizing e with
  | zero => exact ⟨[], e, rfl, rfl, by simp⟩
  | succ n ih =>
    obtain ⟨s, e1, h1, h2, h3⟩ := one e
    obtain ⟨ss, e2, h4, h5, h6⟩ := ih e1
    refine ⟨s :: ss, e2, by simp [generateN, h1, h4, Outcome.bind], by simp [h5], ?_⟩
    intro t ht
    rcases List.mem_cons.1 ht with rfl | ht
    · refine ⟨h2, h3, fun h0 => ?_⟩
      rw [h3, h0]
      ext
      · exact (sub_zero _).symm
      · exact (sub_zero _).symm
      · exact (sub_zero _).symm
    · exact h6 t ht

/-- C43 applied: a particle drawn without any spread around the pose (1, 0, 0) starts with a linear
error integral of (1, 0, 0) although it does not deviate from the mean. -/
theorem C43_linear_example [DecidableEq ℝ] (nd : ℝ → ℝ → E → ℝ × E) (e : E) :
    ∃ mean sigma s : State6 ℝ, ∃ e', generateNoise (diagonalGen nd mean sigma) e = .ok (s, e') ∧
      s.pos = mean.pos ∧ s.integLin ≠ s.pos - mean.pos := by
  refine ⟨ofQuat ⟨1, 0, 0⟩ 1, ofRPY 0 0, ?_⟩
  have z1 : (ofRPY (0 : Vec3 ℝ) 0).pos.x = 0 := rfl
  have z2 : (ofRPY (0 : Vec3 ℝ) 0).pos.y = 0 := rfl
  have z3 : (ofRPY (0 : Vec3 ℝ) 0).pos.z = 0 := rfl
  have z4 : (ofRPY (0 : Vec3 ℝ) 0).rpy.x = 0 := rfl
  have z5 : (ofRPY (0 : Vec3 ℝ) 0).rpy.y = 0 := rfl
  have z6 : (ofRPY (0 : Vec3 ℝ) 0).rpy.z = 0 := rfl
  simp only [generateNoise, diagonalGen, NoiseGen.diagonal, meanVec, sigmaVec, NoiseGen.diagonalLoop,
      List.getElem?_cons_zero, List.getElem?_cons_succ, Outcome.bind, ofNoise, z1, z2, z3, z4, z5, z6, if_true]
  refine ⟨_, _, rfl, rfl, ?_⟩
  intro h
  have := congrArg Vec3.x h
  simp [Vec3.sub_x, ofQuat] at this

/-- C44 (what happens): after `noise()` with any generated noise, every particle has lost its
odometry-noise coefficients; they are all zero. -/
theorem C44_noise_resets (f : PF.Filter (State6 ℝ) ℝ) (noise : Nat → State6 ℝ) :
    ∀ p ∈ (f.noise noise).particles,
      p.state.noiseLL = 0 ∧ p.state.noiseLA = 0 ∧ p.state.noiseAL = 0 ∧ p.state.noiseAA = 0 := by
  intro p hp
  simp only [PF.Filter.noise, List.mem_mapIdx] at hp
  obtain ⟨i, hi, rfl⟩ := hp
  exact ⟨rfl, rfl, rfl, rfl⟩

/-- C44 applied: some particle loses its coefficients. -/
theorem C44_noise_example :
    ∃ (f : PF.Filter (State6 ℝ) ℝ) (noise : Nat → State6 ℝ),
      f.particles.map (fun p => p.state.noiseLL) ≠ (f.noise noise).particles.map (fun p => p.state.noiseLL) := by
  refine ⟨⟨[⟨{ (default : State6 ℝ) with noiseLL := 1 }, 1, 0, 0⟩], none⟩, fun _ => default, ?_⟩
  simp [PF.Filter.noise, PF.StateOps.add, add, default]

variable {F : Type}

/-- C45: whatever the engine, the diagonal generator returns as many components as `sigma`, and
exactly the mean wherever sigma is zero. -/
theorem C45_zero_sigma [Zero F] [DecidableEq F] (nd : F → F → E → F × E) (mean sigma : List F)
    (h : sigma.length ≤ mean.length) (e : E) :
    ∃ xs e', (NoiseGen.diagonal nd mean sigma).draw e = .ok (xs, e') ∧ xs.length = sigma.length ∧
      ∀ (i : Nat), sigma[i]? = some 0 → xs[i]? = mean[i]? := by
  have key : ∀ (sigma : List F) (i : Nat) (e : E), i + sigma.length ≤ mean.length →
      ∃ xs e', NoiseGen.diagonalLoop nd mean sigma i e = .ok (xs, e') ∧ xs.length = sigma.length ∧
        ∀ (j : Nat), sigma[j]? = some 0 → xs[j]? = mean[i + j]? := by
    intro sigma
    induction sigma with
    | nil => intro i e _; exact ⟨[], e, rfl, rfl, by simp⟩
    | cons sg sigma ih =>
      intro i e hi
      simp only [List.length_cons] at hi
      have hm : mean[i]? = some mean[i] := List.getElem?_eq_getElem (by omega)
      unfold NoiseGen.diagonalLoop
      rw [hm]
      simp only
      by_cases h0 : sg = 0
      · obtain ⟨xs, e', h1, h2, h3⟩ := ih (i + 1) e (by omega)
        simp only [h0, if_true, h1, Outcome.bind]
        refine ⟨_, _, rfl, by simp [h2], ?_⟩
        intro j hj
        cases j with
        | zero => simp [hm]
        | succ j =>
          have := h3 j (by simpa using hj)
          simp only [List.getElem?_cons_succ, this]
          congr 1; omega
      · obtain ⟨xs, e', h1, h2, h3⟩ := ih (i + 1) (nd mean[i] sg e).2 (by omega)
        simp only [h0, if_false, h1, Outcome.bind]
        refine ⟨_, _, rfl, by simp [h2], ?_⟩
        intro j hj
        cases j with
        | zero => simp at hj; exact absurd hj h0
        | succ j =>
          have := h3 j (by simpa using hj)
          simp only [List.getElem?_cons_succ, this]
          congr 1; omega
  obtain ⟨xs, e', h1, h2, h3⟩ := key sigma 0 e (by simpa using h)
  exact ⟨xs, e', h1, h2, fun i hi => by simpa using h3 i hi⟩

/-- C45: with all sigmas zero nothing is drawn: the engine is left as it was, and the result is the
mean. -/
theorem C45_all_zero [Zero F] [DecidableEq F] (nd : F → F → E → F × E) (mean : List F) (e : E) :
    (NoiseGen.diagonal nd mean (mean.map fun _ => 0)).draw e = .ok (mean, e) := by
  have key : ∀ (l : List F) (i : Nat), (∀ j, l[j]? = mean[i + j]?) →
      NoiseGen.diagonalLoop nd mean (l.map fun _ => 0) i e = .ok (l, e) := by
    intro l
    induction l with
    | nil => intro i _; rfl
    | cons a l ih =>
      intro i h
      have h0 := h 0
      simp only [List.getElem?_cons_zero, add_zero] at h0
      simp only [List.map_cons, NoiseGen.diagonalLoop, ← h0, if_true]
      rw [ih (i + 1) (fun j => by
        have := h (j + 1)
        simp only [List.getElem?_cons_succ] at this
        rw [this]; congr 1; omega)]
      rfl
  exact key mean 0 (by simp)

/-- C45: a mean shorter than sigma is an out-of-range read. -/
theorem C45_short_mean [Zero F] [DecidableEq F] (nd : F → F → E → F × E) (sg : F) (e : E) :
    (NoiseGen.diagonal nd [] [sg]).draw e = .ub "mean_[i] out of range" := rfl

example : (NoiseGen.diagonal (fun m s (e : Nat) => (m + s * e, e + 1)) [10, 20, 30] [1, 0, 2]).draw 5
    = .ok ([15, 20, 42], 7) := rfl

end Noise

end State6
end Mcl3dl
