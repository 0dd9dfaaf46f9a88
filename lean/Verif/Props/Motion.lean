import Verif.Model.Motion
import Verif.Props.QuatAngles
import Mathlib.Tactic

/-!
# C77 - C79: motion prediction

`act s v` is the point with coordinates `v` in the frame `s`, expressed in the frame in which `s` is
given.  Statements are about points, so they do not mention how poses are composed.
-/

set_option linter.unusedSectionVars false

namespace Mcl3dl
namespace Motion

/-- The rigid motion of a pose. -/
def act (s : State6 ℝ) (v : Vec3 ℝ) : Vec3 ℝ := s.rot.rotate v + s.pos

/-- The pose has a unit orientation. -/
def UnitPose (s : State6 ℝ) : Prop := s.rot.dot s.rot = 1

/-- The particle has no noise coefficients. -/
def NoNoise (s : State6 ℝ) : Prop := s.noiseLL = 0 ∧ s.noiseLA = 0 ∧ s.noiseAL = 0 ∧ s.noiseAA = 0

/-- Rotation of a vector about the z axis by `t`. -/
noncomputable def rotZ (t : ℝ) (v : Vec3 ℝ) : Vec3 ℝ :=
  ⟨Real.cos t * v.x - Real.sin t * v.y, Real.sin t * v.x + Real.cos t * v.y, v.z⟩

theorem axisZ_ne : (⟨0, 0, 1⟩ : Vec3 ℝ) ≠ ⟨0, 0, 0⟩ := by
  intro h; have := congrArg Vec3.z h; norm_num at this

theorem ofAxisAng_z (t : ℝ) : Quat.ofAxisAng (⟨0, 0, 1⟩ : Vec3 ℝ) t = ⟨0, 0, Real.sin (t/2), Real.cos (t/2)⟩ := by
  rw [Quat.ofAxisAng_eq _ (by norm_num [Vec3.dot])]; simp

theorem rotate_z_axis (t : ℝ) (v : Vec3 ℝ) : (Quat.ofAxisAng (⟨0, 0, 1⟩ : Vec3 ℝ) t).rotate v = rotZ t v := by
  rw [ofAxisAng_z]
  have h1 := Real.sin_sq_add_cos_sq (t/2)
  rw [rotZ, Quat.cos_half t, Quat.sin_half t]
  ext
  · simp only [Quat.rotate_x]; ring
  · simp only [Quat.rotate_y]; ring
  · simp only [Quat.rotate_z]; linear_combination v.z * h1

theorem relQuat_unit {p c : State6 ℝ} (hp : UnitPose p) (hc : UnitPose c) :
    (p.rot.inv * c.rot).dot (p.rot.inv * c.rot) = 1 := by
  rw [Quat.C29_dot_mul, Quat.C30_inv_unit _ hp, Quat.conj_dot]
  unfold UnitPose at *; rw [hp, hc]; norm_num

/-- The predicted orientation, before the numerically motivated normalization, already is unit. -/
theorem predict_rot (m : Motion ℝ) {p c s : State6 ℝ} (dt : ℝ) (hp : UnitPose p) (hc : UnitPose c)
    (hs : UnitPose s) :
    (m.stepParticle p c dt s).rot =
      Quat.ofAxisAng ⟨0, 0, 1⟩ (s.noiseLA * (m.setOdoms p c dt).relNorm + s.noiseAA * (m.setOdoms p c dt).relAngle)
        * s.rot * (p.rot.inv * c.rot) := by
  change Quat.normalized _ = _
  apply Quat.C31_normalized_unit
  have e : (m.setOdoms p c dt).relQuat = p.rot.inv * c.rot := rfl
  rw [e]
  rw [Quat.C29_dot_mul, Quat.C29_dot_mul, Quat.C35_unit _ axisZ_ne, relQuat_unit hp hc]
  unfold UnitPose at hs; rw [hs]; norm_num

/-- C77: one odometry step of a particle without noise coefficients.  Whatever point `v` (seen from the
robot after the motion) and `u` (seen from the robot before the motion) are the same point according
to odometry are also the same point according to the particle: the particle moved by
`odom_prev^-1 * odom_current`, and the map-to-odom transform it implies did not change. -/
theorem C77_step (m : Motion ℝ) (p c s : State6 ℝ) (dt : ℝ) (hp : UnitPose p) (hc : UnitPose c)
    (hs : UnitPose s) (hn : NoNoise s) (u v : Vec3 ℝ) (h : act p u = act c v) :
    act (m.stepParticle p c dt s) v = act s u := by
  obtain ⟨hll, hla, hal, haa⟩ := hn
  have hrot := predict_rot m dt hp hc hs
  rw [hla, haa, zero_mul, zero_mul, add_zero] at hrot
  have h0 : Quat.ofAxisAng (⟨0, 0, 1⟩ : Vec3 ℝ) 0 = 1 := by
    rw [ofAxisAng_z]; simp; rfl
  rw [h0, (Quat.C29_one s.rot v).1] at hrot
  have hpos : (m.stepParticle p c dt s).pos = s.pos + s.rot.rotate (p.rot.inv.rotate (c.pos - p.pos)) := by
    change s.pos + s.rot.rotate (Vec3.smul _ (1 + s.noiseLL) + ⟨s.noiseAL * _, 0, 0⟩) = _
    rw [hll, hal]
    congr 2
    ext <;> simp [setOdoms, Vec3.smul_x, Vec3.smul_y, Vec3.smul_z, Vec3.add_x, Vec3.add_y, Vec3.add_z]
  have hu : u = p.rot.inv.rotate (c.rot.rotate v + (c.pos - p.pos)) := by
    have hne : p.rot.dot p.rot ≠ 0 := by rw [show p.rot.dot p.rot = 1 from hp]; norm_num
    have e : c.rot.rotate v + (c.pos - p.pos) = p.rot.rotate u := by
      simp only [act] at h
      have hx := congrArg Vec3.x h; have hy := congrArg Vec3.y h; have hz := congrArg Vec3.z h
      simp only [Vec3.add_x, Vec3.add_y, Vec3.add_z] at hx hy hz
      ext
      · simp only [Vec3.add_x, Vec3.sub_x]; linarith
      · simp only [Vec3.add_y, Vec3.sub_y]; linarith
      · simp only [Vec3.add_z, Vec3.sub_z]; linarith
    rw [e]; exact ((Quat.C30_inv_rotate p.rot hne u).1).symm
  simp only [act]
  rw [hpos, hrot, Quat.C29_mul_rotate, Quat.C29_mul_rotate, hu,
    (Quat.C28_rotate_linear p.rot.inv _ _ 0).1, (Quat.C28_rotate_linear s.rot _ _ 0).1]
  ext
  · simp only [Vec3.add_x]; ring
  · simp only [Vec3.add_y]; ring
  · simp only [Vec3.add_z]; ring

/-- C77 / C78: prediction keeps unit orientations and does not change the noise coefficients. -/
theorem C78_unit (m : Motion ℝ) (p c s : State6 ℝ) (dt : ℝ) (hp : UnitPose p) (hc : UnitPose c)
    (hs : UnitPose s) :
    UnitPose (m.stepParticle p c dt s) ∧
    (m.stepParticle p c dt s).noiseLL = s.noiseLL ∧ (m.stepParticle p c dt s).noiseLA = s.noiseLA ∧
    (m.stepParticle p c dt s).noiseAL = s.noiseAL ∧ (m.stepParticle p c dt s).noiseAA = s.noiseAA := by
  refine ⟨?_, rfl, rfl, rfl, rfl⟩
  unfold UnitPose
  rw [predict_rot m dt hp hc hs, Quat.C29_dot_mul, Quat.C29_dot_mul, Quat.C35_unit _ axisZ_ne, relQuat_unit hp hc]
  unfold UnitPose at hs; rw [hs]; norm_num

/-- The last odometry of a sequence. -/
def lastOdom (prev : State6 ℝ) (odoms : List (State6 ℝ × ℝ)) : State6 ℝ :=
  (odoms.getLast?.map Prod.fst).getD prev

/-- C77, over any sequence of odometry messages: the map-to-odom transform of the particle never
changes. -/
theorem C77_sequence (odoms : List (State6 ℝ × ℝ)) : ∀ (m : Motion ℝ) (o s : State6 ℝ),
    UnitPose o → (∀ c ∈ odoms, UnitPose c.1) → UnitPose s → NoNoise s →
    ∀ u v, act o u = act (lastOdom o odoms) v → act (m.run o s odoms) v = act s u := by
  induction odoms with
  | nil =>
    intro m o s ho _ hs _ u v h
    have hne : o.rot.dot o.rot ≠ 0 := by rw [show o.rot.dot o.rot = 1 from ho]; norm_num
    have : u = v := by
      simp only [act, lastOdom, List.getLast?_nil, Option.map_none, Option.getD_none] at h
      have e : o.rot.rotate u = o.rot.rotate v := by
        have hx := congrArg Vec3.x h; have hy := congrArg Vec3.y h; have hz := congrArg Vec3.z h
        simp only [Vec3.add_x, Vec3.add_y, Vec3.add_z] at hx hy hz
        ext <;> linarith
      rw [← (Quat.C30_inv_rotate o.rot hne u).1, e, (Quat.C30_inv_rotate o.rot hne v).1]
    rw [this]; rfl
  | cons c rest ih =>
    intro m o s ho hall hs hn u v h
    obtain ⟨c, dt⟩ := c
    have hc : UnitPose c := hall _ List.mem_cons_self
    have h2 := C78_unit m o c s dt ho hc hs
    have hne : c.rot.dot c.rot ≠ 0 := by rw [show c.rot.dot c.rot = 1 from hc]; norm_num
    -- the same point seen from the intermediate pose
    set w := c.rot.inv.rotate (act o u - c.pos) with hw
    have hwact : act c w = act o u := by
      simp only [act, hw]
      rw [(Quat.C30_inv_rotate c.rot hne _).2]
      ext
      · simp only [Vec3.add_x, Vec3.sub_x]; ring
      · simp only [Vec3.add_y, Vec3.sub_y]; ring
      · simp only [Vec3.add_z, Vec3.sub_z]; ring
    have hlast : lastOdom o ((c, dt) :: rest) = lastOdom c rest := by
      unfold lastOdom
      cases rest with
      | nil => rfl
      | cons d r =>
        rw [List.getLast?_cons_cons]
        simp [List.getLast?_cons]
    have hnn : NoNoise (m.stepParticle o c dt s) := by
      obtain ⟨_, h3, h4, h5, h6⟩ := h2
      unfold NoNoise; rw [h3, h4, h5, h6]; exact hn
    have hfin := ih (m.setOdoms o c dt) c (m.stepParticle o c dt s) hc
      (fun d hd => hall d (List.mem_cons_of_mem _ hd)) h2.1 hnn w v (by rw [hwact, h, hlast])
    change act (run _ _ _ rest) v = _
    rw [hfin]
    exact C77_step m o c s dt ho hc hs hn u w hwact.symm

/-- C78: with noise coefficients, the predicted orientation is the noise-free one followed by a
rotation about the map z axis by `noise_la * (distance driven) + noise_aa * angle`, and the position
error is `noise_ll` times the driven distance plus `noise_al * angle` along the robot's x axis. -/
theorem C78_yaw_error (m : Motion ℝ) (p c s : State6 ℝ) (dt : ℝ) (hp : UnitPose p) (hc : UnitPose c)
    (hs : UnitPose s) (v : Vec3 ℝ) :
    let s0 : State6 ℝ := { s with noiseLL := 0, noiseLA := 0, noiseAL := 0, noiseAA := 0 }
    let dist := (c.pos - p.pos).norm
    let ang := (p.rot.conj * c.rot).getAxisAng.2
    let t := p.rot.conj.rotate (c.pos - p.pos)
    (m.stepParticle p c dt s).rot.rotate v =
        rotZ (s.noiseLA * dist + s.noiseAA * ang) ((m.stepParticle p c dt s0).rot.rotate v) ∧
      (m.stepParticle p c dt s).pos =
        (m.stepParticle p c dt s0).pos + s.rot.rotate (t.smul s.noiseLL + ⟨s.noiseAL * ang, 0, 0⟩) := by
  intro s0 dist ang t
  have hinv := Quat.C30_inv_unit p.rot hp
  have hang : (m.setOdoms p c dt).relAngle = ang := by
    change (p.rot.inv * c.rot).getAxisAng.2 = _; rw [hinv]
  have ht : (m.setOdoms p c dt).relTrans = t := by
    change p.rot.inv.rotate _ = _; rw [hinv]
  have hdist : (m.setOdoms p c dt).relNorm = dist := by
    change Vec3.norm (p.rot.inv.rotate _) = _
    rw [hinv, Quat.C28_rotate_norm, Quat.norm, Quat.conj_dot, show p.rot.dot p.rot = 1 from hp, Transc.sqrt_real, Real.sqrt_one, one_pow, one_mul]
  constructor
  · have e0 := predict_rot m (s := s0) dt hp hc hs
    rw [predict_rot m dt hp hc hs, e0, hang, hdist]
    change _ = rotZ _ ((Quat.ofAxisAng _ (0 * dist + 0 * ang) * s.rot * _).rotate v)
    rw [zero_mul, zero_mul, add_zero, ofAxisAng_z 0]
    have h0 : (⟨0, 0, Real.sin (0/2), Real.cos (0/2)⟩ : Quat ℝ) = 1 := by simp; rfl
    rw [h0, (Quat.C29_one s.rot v).1, Quat.C29_mul_assoc, Quat.C29_mul_rotate, rotate_z_axis]
  · change s.pos + s.rot.rotate ((m.setOdoms p c dt).relTrans.smul (1 + s.noiseLL) + ⟨s.noiseAL * (m.setOdoms p c dt).relAngle, 0, 0⟩) =
      s.pos + s.rot.rotate ((m.setOdoms p c dt).relTrans.smul (1 + 0) + ⟨0 * (m.setOdoms p c dt).relAngle, 0, 0⟩) + _
    rw [ht, hang, (Quat.C28_rotate_linear s.rot _ _ 0).1, (Quat.C28_rotate_linear s.rot _ _ 0).1,
      (Quat.C28_rotate_linear s.rot _ _ 0).1, (Quat.C28_rotate_linear s.rot t t _).2, (Quat.C28_rotate_linear s.rot t t _).2,
      (Quat.C28_rotate_linear s.rot t t _).2]
    ext
    · simp only [Vec3.add_x, Vec3.smul_x, Quat.rotate_x]; ring
    · simp only [Vec3.add_y, Vec3.smul_y, Quat.rotate_y]; ring
    · simp only [Vec3.add_z, Vec3.smul_z, Quat.rotate_z]; ring

/-- C78: the angle entering the error is the rotation angle of the odometry change: it is in `[-π, π]`
and its cosine is that of the rotation, unless the change is below the resolution of `getAxisAng`
(then it is 0). -/
theorem C78_angle (p c : State6 ℝ) (hp : UnitPose p) (hc : UnitPose c) :
    let q := p.rot.conj * c.rot
    |q.getAxisAng.2| ≤ Real.pi ∧
      (Real.cos q.getAxisAng.2 = 2 * (p.rot.dot c.rot) ^ 2 - 1 ∨
        1 - 1/1000000 ≤ |p.rot.dot c.rot| ∧ q.getAxisAng.2 = 0) := by
  intro q
  have hq : q.dot q = 1 := by
    have := relQuat_unit hp hc
    rwa [Quat.C30_inv_unit _ hp] at this
  have hw : q.w = p.rot.dot c.rot := by
    simp only [q, Quat.mul_w, Quat.conj_x, Quat.conj_y, Quat.conj_z, Quat.conj_w, Quat.dot]; ring
  by_cases h : 1 - 1/1000000 ≤ |q.w|
  · have := (Quat.C36_near_identity q h).1
    rw [this]
    refine ⟨by simp [Real.pi_pos.le], Or.inr ⟨hw ▸ h, rfl⟩⟩
  · obtain ⟨h1, h2, h3⟩ := Quat.C36_getAxisAng q hq (not_le.1 h)
    refine ⟨abs_le.2 ⟨h2.1.le, h2.2⟩, Or.inl ?_⟩
    rw [Quat.ofAxisAng_eq _ h1] at h3
    rw [← hw, Quat.cos_half]
    have hc2 := Real.sin_sq_add_cos_sq (q.getAxisAng.2 / 2)
    rcases h3 with h3 | h3
    · have := congrArg Quat.w h3
      simp only at this
      rw [← this]; linarith
    · have := congrArg Quat.w h3
      simp only [Quat.neg_w] at this
      have e : q.w = -Real.cos (q.getAxisAng.2 / 2) := by linarith
      rw [e, neg_sq]; linarith

theorem decay_eq (odoms : List (State6 ℝ × ℝ)) : ∀ (m : Motion ℝ) (o s : State6 ℝ), NoNoise s →
    (m.run o s odoms).integLin = s.integLin.smul (odoms.map fun c => 1 - c.2 / m.linTc).prod ∧
    (m.run o s odoms).integAng = s.integAng.smul (odoms.map fun c => 1 - c.2 / m.angTc).prod := by
  induction odoms with
  | nil => intro m o s _; constructor <;> ext <;> simp [run, Vec3.smul]
  | cons c rest ih =>
    intro m o s hn
    obtain ⟨c, dt⟩ := c
    have hnn : NoNoise (m.stepParticle o c dt s) := hn
    obtain ⟨h1, h2⟩ := ih (m.setOdoms o c dt) c (m.stepParticle o c dt s) hnn
    obtain ⟨hll, hla, hal, haa⟩ := hn
    have e1 : (m.stepParticle o c dt s).integLin = s.integLin.smul (1 - dt / m.linTc) := by
      change Vec3.smul (s.integLin + (Vec3.smul _ (1 + s.noiseLL) + ⟨s.noiseAL * _, 0, 0⟩ - _)) _ = _
      rw [hll, hal]
      ext
      · simp only [Vec3.smul_x, Vec3.add_x, Vec3.sub_x, setOdoms]; ring
      · simp only [Vec3.smul_y, Vec3.add_y, Vec3.sub_y, setOdoms]; ring
      · simp only [Vec3.smul_z, Vec3.add_z, Vec3.sub_z, setOdoms]; ring
    have e2 : (m.stepParticle o c dt s).integAng = s.integAng.smul (1 - dt / m.angTc) := by
      change Vec3.smul (s.integAng + ⟨0, 0, s.noiseLA * _ + s.noiseAA * _⟩) _ = _
      rw [hla, haa]
      ext
      · simp only [Vec3.smul_x, Vec3.add_x, setOdoms]; ring
      · simp only [Vec3.smul_y, Vec3.add_y, setOdoms]; ring
      · simp only [Vec3.smul_z, Vec3.add_z, setOdoms]; ring
    constructor
    · change (run _ _ _ rest).integLin = _
      rw [h1, e1]
      change (s.integLin.smul _).smul (rest.map fun c => 1 - c.2 / m.linTc).prod = _
      ext <;> simp [Vec3.smul] <;> ring
    · change (run _ _ _ rest).integAng = _
      rw [h2, e2]
      change (s.integAng.smul _).smul (rest.map fun c => 1 - c.2 / m.angTc).prod = _
      ext <;> simp [Vec3.smul] <;> ring

/-- C79: without noise coefficients, a prediction over `dt` scales the error integrals by
`1 - dt / tc`; over a sequence, by the product of these factors.  (The time constants are not 0; for 0 see C141.) -/
theorem C79_decay (odoms : List (State6 ℝ × ℝ)) (m : Motion ℝ) (_ : m.linTc ≠ 0) (_ : m.angTc ≠ 0)
    (o s : State6 ℝ) (hn : NoNoise s) :
    (m.run o s odoms).integLin = s.integLin.smul (odoms.map fun c => 1 - c.2 / m.linTc).prod ∧
    (m.run o s odoms).integAng = s.integAng.smul (odoms.map fun c => 1 - c.2 / m.angTc).prod :=
  decay_eq odoms m o s hn

/-- C79: with `0 ≤ dt ≤ 2 tc` in every step the integrals never grow in magnitude; with `dt ≤ tc`
their components never change sign. -/
theorem C79_bounded (m : Motion ℝ) (o s : State6 ℝ) (hn : NoNoise s) (odoms : List (State6 ℝ × ℝ))
    (htl : 0 < m.linTc) (hta : 0 < m.angTc) :
    ((∀ c ∈ odoms, 0 ≤ c.2 ∧ c.2 ≤ 2 * m.linTc) → ∀ i, |(m.run o s odoms).integLin.get i| ≤ |s.integLin.get i|) ∧
    ((∀ c ∈ odoms, 0 ≤ c.2 ∧ c.2 ≤ 2 * m.angTc) → ∀ i, |(m.run o s odoms).integAng.get i| ≤ |s.integAng.get i|) ∧
    ((∀ c ∈ odoms, c.2 ≤ m.linTc) → ∀ i, 0 ≤ (m.run o s odoms).integLin.get i * s.integLin.get i) ∧
    ((∀ c ∈ odoms, c.2 ≤ m.angTc) → ∀ i, 0 ≤ (m.run o s odoms).integAng.get i * s.integAng.get i) := by
  obtain ⟨h1, h2⟩ := decay_eq odoms m o s hn
  have hget : ∀ (v : Vec3 ℝ) (r : ℝ) (i : ℕ), (v.smul r).get i = v.get i * r := by
    intro v r i
    match i with
    | 0 => rfl
    | 1 => rfl
    | 2 => rfl
    | n + 3 => rfl
  have habs : ∀ tc : ℝ, 0 < tc → (∀ c ∈ odoms, 0 ≤ c.2 ∧ c.2 ≤ 2 * tc) →
      |(odoms.map fun c => 1 - c.2 / tc).prod| ≤ 1 := by
    intro tc htc h
    clear h1 h2
    induction odoms with
    | nil => simp
    | cons c rest ih =>
      simp only [List.map_cons, List.prod_cons, abs_mul]
      have hc := h c List.mem_cons_self
      have h3 : c.2 / tc ≤ 2 := by rw [div_le_iff₀ htc]; exact hc.2
      have h4 : 0 ≤ c.2 / tc := div_nonneg hc.1 htc.le
      have h5 : |1 - c.2 / tc| ≤ 1 := abs_le.2 ⟨by linarith, by linarith⟩
      have h6 := ih (fun d hd => h d (List.mem_cons_of_mem _ hd))
      calc _ ≤ 1 * 1 := mul_le_mul h5 h6 (abs_nonneg _) zero_le_one
        _ = 1 := one_mul 1
  have hsign : ∀ tc : ℝ, 0 < tc → (∀ c ∈ odoms, c.2 ≤ tc) → 0 ≤ (odoms.map fun c => 1 - c.2 / tc).prod := by
    intro tc htc h
    apply List.prod_nonneg
    intro a ha
    obtain ⟨c, hc, rfl⟩ := List.mem_map.1 ha
    have : c.2 / tc ≤ 1 := by rw [div_le_one htc]; exact h c hc
    linarith
  refine ⟨?_, ?_, ?_, ?_⟩
  · intro h i
    rw [h1, hget, abs_mul]
    calc _ ≤ |s.integLin.get i| * 1 := mul_le_mul_of_nonneg_left (habs _ htl h) (abs_nonneg _)
      _ = _ := mul_one _
  · intro h i
    rw [h2, hget, abs_mul]
    calc _ ≤ |s.integAng.get i| * 1 := mul_le_mul_of_nonneg_left (habs _ hta h) (abs_nonneg _)
      _ = _ := mul_one _
  · intro h i
    rw [h1, hget]
    have := mul_nonneg (mul_self_nonneg (s.integLin.get i)) (hsign _ htl h)
    linarith
  · intro h i
    rw [h2, hget]
    have := mul_nonneg (mul_self_nonneg (s.integAng.get i)) (hsign _ hta h)
    linarith

/-- A unit, noise-free particle and odometry that drive and turn: the hypotheses of C77 - C79 hold. -/
noncomputable def exOdom : State6 ℝ := State6.ofQuat ⟨1, 2, 0⟩ ⟨0, 0, 3/5, 4/5⟩

example : UnitPose exOdom ∧ UnitPose (State6.default : State6 ℝ) ∧ NoNoise exOdom ∧
    ∀ c ∈ [(exOdom, (1/10 : ℝ))], UnitPose c.1 ∧ 0 ≤ c.2 ∧ c.2 ≤ 2 * 10 := by
  have h : UnitPose exOdom := by norm_num [UnitPose, exOdom, State6.ofQuat, Quat.dot]
  refine ⟨h, ?_, ⟨rfl, rfl, rfl, rfl⟩, ?_⟩
  · simp [UnitPose, State6.default, Quat.dot]
  · intro c hc
    simp only [List.mem_singleton] at hc
    subst hc
    exact ⟨h, by norm_num, by norm_num⟩

end Motion
end Mcl3dl
