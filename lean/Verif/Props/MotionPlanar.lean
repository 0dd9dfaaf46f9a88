import Verif.Props.Motion

/-! # Property C146: motion prediction when odometry and particle only turn about the vertical -/

set_option linter.unusedSectionVars false

namespace Mcl3dl
namespace Motion
open Real

/-- Specification: one odometry step, seen from the robot: it moves by `trans` (in its own frame), then turns by `yaw`
about its own z axis, in the time `dt`. -/
structure Move where
  trans : Vec3 ℝ
  yaw : ℝ
  dt : ℝ

/-- Specification: the quaternion of a rotation by `t` about the z axis.  `t` and `t + 2 π` are the same rotation with
the two signs of the quaternion. -/
noncomputable def yawQuat (t : ℝ) : Quat ℝ := ⟨0, 0, Real.sin (t / 2), Real.cos (t / 2)⟩

/-- Specification: the odometry goes from pose `o` to pose `c` by the move. -/
def Moved (o c : State6 ℝ) (mv : Move) : Prop :=
  c.pos = o.pos + o.rot.rotate mv.trans ∧ c.rot = o.rot * yawQuat mv.yaw

/-- Specification: the size of the turn as the noise sees it: the angle without sign, 0 for turns below about 0.16
degrees; if the quaternion comes with the other sign (`π < |t|`), the negative angle. -/
noncomputable def turn (t : ℝ) : ℝ :=
  if 1 - 1 / 1000000 ≤ |Real.cos (t / 2)| then 0 else if |t| ≤ π then |t| else |t| - 2 * π

/-- Specification: the odometry `o`, and the poses after it, follow the moves. -/
def Follows : State6 ℝ → List (State6 ℝ × ℝ) → List Move → Prop
  | _, [], [] => True
  | o, (c, dt) :: cs, mv :: mvs => Moved o c mv ∧ dt = mv.dt ∧ Follows c cs mvs
  | _, _, _ => False

/-- The turn quaternion is the constructor from roll, pitch, yaw with roll = pitch = 0. -/
theorem yawQuat_eq (t : ℝ) : yawQuat t = Quat.ofRPY ⟨0, 0, t⟩ := by
  ext <;> simp [yawQuat, Quat.ofRPY, Quat.two_real]

theorem yawQuat_unit (t : ℝ) : (yawQuat t).dot (yawQuat t) = 1 := by
  have := Real.sin_sq_add_cos_sq (t / 2)
  simp only [yawQuat, Quat.dot]; nlinarith

theorem yawQuat_mul (s t : ℝ) : yawQuat s * yawQuat t = yawQuat (s + t) := by
  have e : (s + t) / 2 = s / 2 + t / 2 := by ring
  ext
  · simp [yawQuat, Quat.mul_x]
  · simp [yawQuat, Quat.mul_y]
  · simp only [yawQuat, Quat.mul_z, e, Real.sin_add]; ring
  · simp only [yawQuat, Quat.mul_w, e, Real.cos_add]; ring

theorem yawQuat_rotate (t : ℝ) (v : Vec3 ℝ) : (yawQuat t).rotate v = rotZ t v := by
  rw [← rotate_z_axis, ofAxisAng_z]; rfl

/-- The angle computed from the relative quaternion. -/
theorem angle_yawQuat {t : ℝ} (ht : |t| ≤ 2 * π) : (yawQuat t).getAxisAng.2 = turn t := by
  have hc : (yawQuat t).w = Real.cos (t / 2) := rfl
  unfold Quat.getAxisAng turn
  rw [hc]
  have habs : cabs (Real.cos (t / 2)) = |Real.cos (t / 2)| := cabs_eq _
  rw [habs]
  norm_num only [Nat.cast_ofNat]
  by_cases h : (999999 : ℝ) / 1000000 ≤ |Real.cos (t / 2)|
  · rw [if_pos h, if_pos h]
  · rw [if_neg h, if_neg h]
    simp only [Transc.acos_real, Quat.two_real, Transc.pi_real]
    have hac : Real.arccos (Real.cos (t / 2)) = |t| / 2 := by
      rw [← Real.cos_abs, abs_div, abs_two, Real.arccos_cos (by positivity) (by linarith)]
    rw [hac]
    have h2 : |t| / 2 * 2 = |t| := by ring
    rw [h2]
    by_cases hp : |t| ≤ π
    · rw [if_neg (not_lt.2 hp), if_pos hp]
    · rw [if_pos (not_le.1 hp), if_neg hp]

theorem moved_rel {o c : State6 ℝ} {mv : Move} (ho : UnitPose o) (h : Moved o c mv) :
    o.rot.inv * c.rot = yawQuat mv.yaw ∧ o.rot.inv.rotate (c.pos - o.pos) = mv.trans := by
  have hne : o.rot.dot o.rot ≠ 0 := by rw [show o.rot.dot o.rot = 1 from ho]; norm_num
  obtain ⟨h1, h2⟩ := h
  constructor
  · rw [h2, ← Quat.C29_mul_assoc, (Quat.C30_inv_mul _ hne).1, (Quat.C29_one _ (0 : Vec3 ℝ)).1]
  · have : c.pos - o.pos = o.rot.rotate mv.trans := by
      rw [h1]
      ext
      · rw [Vec3.sub_x, Vec3.add_x]; ring
      · rw [Vec3.sub_y, Vec3.add_y]; ring
      · rw [Vec3.sub_z, Vec3.add_z]; ring
    rw [this, (Quat.C30_inv_rotate _ hne _).1]

theorem moved_unit {o c : State6 ℝ} {mv : Move} (ho : UnitPose o) (h : Moved o c mv) : UnitPose c := by
  unfold UnitPose at *
  rw [h.2, Quat.C29_dot_mul, ho, yawQuat_unit, one_mul]

/-- C146: one step.  The odometry (in any unit orientation) moves by `trans` and turns by `yaw` about its z axis; the
particle has heading `ψ`, no roll and pitch.  Then the particle has no roll and pitch afterwards, its heading is the old
one plus the turn plus the noise, its position moves by the noisy translation in the direction of the old heading, and
the error integrals take up exactly the noise and decay. -/
theorem C146_step (m : Motion ℝ) {o c s : State6 ℝ} {mv : Move} {ψ : ℝ} (ho : UnitPose o) (h : Moved o c mv)
    (hy : |mv.yaw| ≤ 2 * π) (hs : s.rot = yawQuat ψ) :
    let s' := m.stepParticle o c mv.dt s
    let err := s.noiseLA * mv.trans.norm + s.noiseAA * turn mv.yaw
    let dx := (1 + s.noiseLL) * mv.trans.x + s.noiseAL * turn mv.yaw
    let dy := (1 + s.noiseLL) * mv.trans.y
    s'.rot = yawQuat (ψ + mv.yaw + err) ∧
    s'.pos = ⟨s.pos.x + (dx * Real.cos ψ - dy * Real.sin ψ), s.pos.y + (dx * Real.sin ψ + dy * Real.cos ψ),
      s.pos.z + (1 + s.noiseLL) * mv.trans.z⟩ ∧
    s'.integLin = (⟨s.integLin.x + (s.noiseLL * mv.trans.x + s.noiseAL * turn mv.yaw),
      s.integLin.y + s.noiseLL * mv.trans.y, s.integLin.z + s.noiseLL * mv.trans.z⟩ : Vec3 ℝ).smul (1 - mv.dt / m.linTc) ∧
    s'.integAng = (⟨s.integAng.x, s.integAng.y, s.integAng.z + err⟩ : Vec3 ℝ).smul (1 - mv.dt / m.angTc) := by
  obtain ⟨hq, ht⟩ := moved_rel ho h
  have hsu : UnitPose s := by unfold UnitPose; rw [hs, yawQuat_unit]
  have hc := moved_unit ho h
  have e1 : (m.setOdoms o c mv.dt).relAngle = turn mv.yaw := by
    show (o.rot.inv * c.rot).getAxisAng.2 = _
    rw [hq, angle_yawQuat hy]
  have e2 : (m.setOdoms o c mv.dt).relNorm = mv.trans.norm := by
    show (o.rot.inv.rotate (c.pos - o.pos)).norm = _
    rw [ht]
  have e3 : (m.setOdoms o c mv.dt).relTrans = mv.trans := ht
  intro s' err dx dy
  refine ⟨?_, ?_, ?_, ?_⟩
  · show (m.stepParticle o c mv.dt s).rot = _
    rw [predict_rot m mv.dt ho hc hsu, hq, hs, e1, e2, ofAxisAng_z]
    show yawQuat err * yawQuat ψ * yawQuat mv.yaw = _
    rw [yawQuat_mul, yawQuat_mul]; congr 1; ring
  · show s.pos + s.rot.rotate ((m.setOdoms o c mv.dt).relTrans.smul (1 + s.noiseLL) +
      ⟨s.noiseAL * (m.setOdoms o c mv.dt).relAngle, 0, 0⟩) = _
    rw [e1, e3, hs, yawQuat_rotate]
    ext
    · simp only [rotZ, dx, dy, Vec3.add_x, Vec3.add_y, Vec3.smul_x, Vec3.smul_y]; ring
    · simp only [rotZ, dx, dy, Vec3.add_x, Vec3.add_y, Vec3.smul_x, Vec3.smul_y]; ring
    · simp only [rotZ, Vec3.add_z, Vec3.smul_z]; ring
  · show (s.integLin + ((m.setOdoms o c mv.dt).relTrans.smul (1 + s.noiseLL) +
      ⟨s.noiseAL * (m.setOdoms o c mv.dt).relAngle, 0, 0⟩ - (m.setOdoms o c mv.dt).relTrans)).smul
      (1 - mv.dt / m.linTc) = _
    rw [e1, e3]
    congr 1
    ext
    · simp only [Vec3.add_x, Vec3.sub_x, Vec3.smul_x]; ring
    · simp only [Vec3.add_y, Vec3.sub_y, Vec3.smul_y]; ring
    · simp only [Vec3.add_z, Vec3.sub_z, Vec3.smul_z]; ring
  · show (s.integAng + ⟨0, 0, s.noiseLA * (m.setOdoms o c mv.dt).relNorm +
      s.noiseAA * (m.setOdoms o c mv.dt).relAngle⟩).smul (1 - mv.dt / m.angTc) = _
    rw [e1, e2]
    congr 1
    ext <;> simp only [err, Vec3.add_x, Vec3.add_y, Vec3.add_z, add_zero]

/-- C146: any number of steps.  A particle without roll and pitch never gets any, its heading is the first one plus all
turns plus all noise contributions, and its height changes by the scaled sum of the vertical moves. -/
theorem C146_run : ∀ (cs : List (State6 ℝ × ℝ)) (mvs : List Move) (m : Motion ℝ) (o s : State6 ℝ) (ψ : ℝ),
    UnitPose o → Follows o cs mvs → (∀ mv ∈ mvs, |mv.yaw| ≤ 2 * π) → s.rot = yawQuat ψ →
    (m.run o s cs).rot = yawQuat (ψ + (mvs.map fun mv =>
      mv.yaw + s.noiseLA * mv.trans.norm + s.noiseAA * turn mv.yaw).sum) ∧
    (m.run o s cs).pos.z = s.pos.z + (1 + s.noiseLL) * (mvs.map fun mv => mv.trans.z).sum := by
  intro cs
  induction cs with
  | nil =>
    intro mvs m o s ψ ho hf hy hs
    cases mvs with
    | nil => simp [run, hs]
    | cons => exact hf.elim
  | cons cd cs ih =>
    intro mvs m o s ψ ho hf hy hs
    obtain ⟨c, dt⟩ := cd
    cases mvs with
    | nil => exact hf.elim
    | cons mv mvs =>
      obtain ⟨h1, rfl, h3⟩ := hf
      obtain ⟨g1, g2, -, -⟩ := C146_step m ho h1 (hy mv (by simp)) hs
      obtain ⟨i1, i2⟩ := ih mvs (m.setOdoms o c mv.dt) c (m.stepParticle o c mv.dt s) _ (moved_unit ho h1) h3
        (fun x hx => hy x (by simp [hx])) g1
      constructor
      · show (run _ c (m.stepParticle o c mv.dt s) cs).rot = _
        rw [i1]
        show yawQuat (_ + (mvs.map fun mv => mv.yaw + s.noiseLA * mv.trans.norm + s.noiseAA * turn mv.yaw).sum) = _
        rw [List.map_cons, List.sum_cons]
        congr 1; ring
      · show (run _ c (m.stepParticle o c mv.dt s) cs).pos.z = _
        rw [i2, g2]
        show _ + (1 + s.noiseLL) * _ = _
        rw [List.map_cons, List.sum_cons]
        ring

/-- C146: the noise sees turns without their direction, 0 for turns below 0.16 degrees, and with the opposite sign if
the odometry gives the quaternion with the opposite sign (although that is the same orientation). -/
theorem C146_turn {t : ℝ} (h0 : 0 ≤ t) (h1 : t ≤ π) :
    turn (-t) = turn t ∧ yawQuat (t - 2 * π) = -yawQuat t ∧
    (0 < t → t < π → turn (t - 2 * π) = -turn t) ∧ (turn t = t ∨ turn t = 0 ∧ Real.cos (t / 2) ≥ 1 - 1 / 1000000) := by
  have hcos : 0 ≤ Real.cos (t / 2) := Real.cos_nonneg_of_mem_Icc ⟨by linarith, by linarith⟩
  have ht : |t| = t := abs_of_nonneg h0
  have hq : (t - 2 * π) / 2 = t / 2 - π := by ring
  refine ⟨?_, ?_, ?_, ?_⟩
  · unfold turn
    rw [neg_div, Real.cos_neg, abs_neg]
  · unfold yawQuat
    rw [hq, Real.sin_sub_pi, Real.cos_sub_pi]
    ext <;> simp
  · intro hpos hlt
    unfold turn
    rw [hq, Real.cos_sub_pi, abs_neg, ht, abs_of_nonpos (by linarith : t - 2 * π ≤ 0)]
    by_cases h : 1 - 1 / 1000000 ≤ |Real.cos (t / 2)|
    · rw [if_pos h, if_pos h, neg_zero]
    · rw [if_neg h, if_neg h, if_pos h1]
      rw [if_neg (by linarith)]; ring
  · unfold turn
    rw [ht, abs_of_nonneg hcos]
    by_cases h : 1 - 1 / 1000000 ≤ Real.cos (t / 2)
    · right; exact ⟨if_pos h, h⟩
    · left; rw [if_neg h, if_pos h1]

/-- Upstream's test numbers: the odometry, anywhere, moves by (1, 0.2, 0.3) and turns by 0.2 in one second, twice; the
particle has heading 0.3 and noise coefficients 0.1, 0.3, 0.2, 0.4.  The hypotheses hold, and the heading afterwards is
0.3 plus twice (0.2 + 0.3 times the distance + 0.4 times 0.2), if the turn is large enough for `getAxisAng`. -/
example (o c1 c2 s : State6 ℝ) (ho : UnitPose o) (h1 : Moved o c1 ⟨⟨1, 1/5, 3/10⟩, 1/5, 1⟩)
    (h2 : Moved c1 c2 ⟨⟨1, 1/5, 3/10⟩, 1/5, 1⟩) (hs : s.rot = yawQuat (3/10)) (hll : s.noiseLL = 1/10)
    (hla : s.noiseLA = 3/10) (haa : s.noiseAA = 4/10) (m : Motion ℝ) :
    (m.run o s [(c1, 1), (c2, 1)]).rot =
      yawQuat (3/10 + 2 * (1/5 + 3/10 * (⟨1, 1/5, 3/10⟩ : Vec3 ℝ).norm + 4/10 * (1/5))) ∧
    (m.run o s [(c1, 1), (c2, 1)]).pos.z = s.pos.z + (1 + 1/10) * (6/10) := by
  have hpi := Real.pi_gt_three
  have hturn : turn (1/5) = 1/5 := by
    rcases (C146_turn (t := 1/5) (by norm_num) (by linarith)).2.2.2 with h | ⟨-, h⟩
    · exact h
    · exfalso
      have h3 := Real.cos_le_one_sub_mul_cos_sq (x := 1 / 5 / 2)
        (by rw [abs_of_nonneg (by norm_num)]; linarith)
      have h4 : 2 / 4 ^ 2 ≤ 2 / π ^ 2 :=
        div_le_div_of_nonneg_left (by norm_num) (by positivity) (pow_le_pow_left₀ (by linarith) Real.pi_le_four 2)
      norm_num at h h3 h4
      nlinarith
  obtain ⟨g1, g2⟩ := C146_run [(c1, 1), (c2, 1)] [⟨⟨1, 1/5, 3/10⟩, 1/5, 1⟩, ⟨⟨1, 1/5, 3/10⟩, 1/5, 1⟩] m o s (3/10) ho
    ⟨h1, rfl, h2, rfl, trivial⟩ (by intro mv h; simp at h; subst h; simp only; rw [abs_of_nonneg] <;> linarith) hs
  rw [g1, g2]
  simp only [List.map_cons, List.map_nil, List.sum_cons, List.sum_nil, hturn, hll, hla, haa]
  constructor
  · congr 1; ring
  · ring

end Motion
end Mcl3dl
