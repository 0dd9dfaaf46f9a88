import Verif.Proofs.DriveLaw
import Verif.Proofs.NoiseSwap
import Verif.Props.NoiseLaw
import Verif.Props.NodeUnit
import Verif.Props.NodeResample

/-!
# C169: odometry errors are normally distributed
-/

set_option linter.unusedSectionVars false

namespace Mcl3dl
namespace Node

open MeasureTheory ProbabilityTheory

variable {C : Type}

theorem reseed_drift (env : Env) (ω : ℕ → ℝ) : env.withDrift ω =
    env.reseed env.normal fun k => (ω (4 * k), ω (4 * k + 1), ω (4 * k + 2), ω (4 * k + 3)) := rfl

theorem unit_turn (a : ℝ) : (Quat.ofAxisAng (⟨0, 0, 1⟩ : Vec3 ℝ) a).dot (Quat.ofAxisAng ⟨0, 0, 1⟩ a) = 1 := by
  exact Quat.C35_unit _ (fun h => by simpa using congrArg Vec3.z h) a

theorem turn_w (a : ℝ) : (Quat.ofAxisAng (⟨0, 0, 1⟩ : Vec3 ℝ) a).w = Real.cos (a / 2) := by
  rw [Quat.ofAxisAng_eq _ (by norm_num [Vec3.dot])]

/-- The angle the motion model counts. -/
theorem axisAng_sq {a : ℝ} (ha : |a| ≤ Real.pi) :
    (Quat.ofAxisAng (⟨0, 0, 1⟩ : Vec3 ℝ) a).getAxisAng.2 ^ 2 = countedTurn a ^ 2 := by
  have hu : (Quat.ofAxisAng (⟨0, 0, 1⟩ : Vec3 ℝ) a).dot (Quat.ofAxisAng ⟨0, 0, 1⟩ a) = 1 := unit_turn a
  have hw : (Quat.ofAxisAng (⟨0, 0, 1⟩ : Vec3 ℝ) a).w = Real.cos (a / 2) := turn_w a
  rw [countedTurn]
  by_cases hc : 1 - 1 / 1000000 ≤ |Real.cos (a / 2)|
  · rw [if_pos hc, (Quat.C36_near_identity _ (by rw [hw]; exact hc)).1]
  · rw [if_neg hc]
    have hone : (1 : Quat ℝ) = ⟨0, 0, 0, 1⟩ := rfl
    have hk : (1 : Quat ℝ).conj * Quat.ofAxisAng ⟨0, 0, 1⟩ a = Quat.ofAxisAng ⟨0, 0, 1⟩ a := by
      rw [hone]
      ext <;> simp [Quat.conj_x, Quat.conj_y, Quat.conj_z, Quat.conj_w]
    obtain ⟨h1, h2⟩ := Motion.C78_angle (State6.ofQuat ⟨0, 0, 0⟩ 1) (State6.ofQuat ⟨0, 0, 0⟩ (Quat.ofAxisAng ⟨0, 0, 1⟩ a))
      (by show (1 : Quat ℝ).dot 1 = 1; rw [hone]; norm_num [Quat.dot]) hu
    have e1 : (State6.ofQuat (⟨0, 0, 0⟩ : Vec3 ℝ) 1).rot = 1 := rfl
    have e2 : (State6.ofQuat (⟨0, 0, 0⟩ : Vec3 ℝ) (Quat.ofAxisAng ⟨0, 0, 1⟩ a)).rot = Quat.ofAxisAng ⟨0, 0, 1⟩ a := rfl
    have e3 : (1 : Quat ℝ).dot (Quat.ofAxisAng ⟨0, 0, 1⟩ a) = Real.cos (a / 2) := by
      rw [hone, ← hw]; simp [Quat.dot]
    rw [e1, e2, hk] at h1 h2
    rw [e3] at h2
    rcases h2 with h2 | ⟨h2, _⟩
    · have h3 : Real.cos |(Quat.ofAxisAng (⟨0, 0, 1⟩ : Vec3 ℝ) a).getAxisAng.2| = Real.cos |a| := by
        rw [Real.cos_abs, Real.cos_abs, h2, ← Real.cos_two_mul]
        congr 1
        ring
      have := Real.injOn_cos ⟨abs_nonneg _, h1⟩ ⟨abs_nonneg _, ha⟩ h3
      rw [← sq_abs, this, sq_abs]
    · exact absurd h2 hc

/-- After a measurement that does not expand, with other numbers for the odometry errors. -/
theorem drift_swap {P : Params} {lib : Lib C} {env : Env} {n n1 : Node C} {ev : Event} {o : List Out}
    (h : step P lib env n ev = .ok (n1, o)) {stamp : ℝ} {frame : String} {pos : Vec3 ℝ} {rot : Quat ℝ} {cov : ℕ → ℕ → ℝ}
    (hp : .pose stamp frame pos rot cov ∈ o) (hcount : (n.loc.pf.particles.length : ℤ) ≤ P.numParticles) (hv : env.Valid) :
    ∃ st en lv, .status st en lv ∈ o ∧ 0 ≤ st.matchRatio ∧ (¬ st.matchRatio < P.matchRatioThresh →
      n1.loc.pf.particles.length = n.loc.pf.particles.length ∧
      ∀ ω, ∃ n' o', step P lib (env.withDrift ω) n ev = .ok (n', o') ∧
        n'.loc.pf.particles.length = n1.loc.pf.particles.length ∧
        ∀ (k : ℕ) (p : Particle), n'.loc.pf.particles[k]? = some p →
          (∀ p1, n1.loc.pf.particles[k]? = some p1 → poseOf p = poseOf p1) ∧
          drift p.state = (ω (4 * k) * P.errLinLin, ω (4 * k + 1) * P.errLinAng, ω (4 * k + 3) * P.errAngLin, ω (4 * k + 2) * P.errAngAng)) := by
  obtain ⟨r, hw, h0, -, -, h3, h5, h6, hpf, ⟨st, en, lv, hmem, hratio⟩, hsw⟩ := cloud_swap h hp
  refine ⟨st, en, lv, hmem, by rw [hratio]; exact h0, fun hm => ?_⟩
  rw [hratio] at hm
  have hl2 : (r.pf2 P (freshen env n).loc).particles.length = n.loc.pf.particles.length := (pf2_spec (loc := (freshen env n).loc) hw).1
  have hl3 : r.pf3.particles.length = n.loc.pf.particles.length := by
    rw [(resampleFilter_spec hv h3).1, hl2]
  rw [expandFilter, if_neg hm, Outcome.ok.injEq] at h5
  have hl5 : r.pf5.particles.length = n.loc.pf.particles.length := by
    rw [← h5, (driftFilter_spec _ _ _).1, hl3]
  rw [reduceFilter, if_neg (by rw [hl5]; exact not_lt.2 hcount), Outcome.ok.injEq] at h6
  have hl1 : n1.loc.pf.particles.length = n.loc.pf.particles.length := by rw [hpf, ← h6, hl5]
  refine ⟨hl1, fun ω => ?_⟩
  obtain ⟨o', ho'⟩ := hsw env.normal (fun k => (ω (4 * k), ω (4 * k + 1), ω (4 * k + 2), ω (4 * k + 3))) r.pf3
    (driftFilter P (env.withDrift ω) r.pf3) (driftFilter P (env.withDrift ω) r.pf3) h3
    (by rw [expandFilter, if_neg hm]; rfl)
    (by rw [reduceFilter, if_neg (by rw [(driftFilter_spec _ _ _).1, hl3]; exact not_lt.2 hcount)])
    (by rw [(driftFilter_spec _ _ _).1, hl3, hl5]) (by rw [(driftFilter_spec _ _ _).1, hl3, ← h6, hl5])
  refine ⟨_, o', ho', ?_, ?_⟩
  · show (driftFilter P (env.withDrift ω) r.pf3).particles.length = _
    rw [(driftFilter_spec _ _ _).1, hl3, hl1]
  · intro k p hk
    change (driftFilter P (env.withDrift ω) r.pf3).particles[k]? = some p at hk
    rw [hpf, ← h6, ← h5]
    simp only [driftFilter, List.getElem?_mapIdx, Option.map_eq_some_iff] at hk ⊢
    obtain ⟨p3, hp3, rfl⟩ := hk
    refine ⟨?_, rfl⟩
    rintro p1 ⟨p3', hp3', rfl⟩
    rw [hp3, Option.some.injEq] at hp3'
    subst hp3'
    rfl

/-- C169: after a localization that did not expand the particles, a drive of the distance `d` and the turn `a` moves each
particle by a distance and with a heading error that are independent and normally distributed: the mean of the distance
is `d`, its variance is `(odom_err_lin_lin d)² + (odom_err_ang_lin a)²`, and the variance of the heading error is
`(odom_err_lin_ang d)² + (odom_err_ang_ang a)²`; the particles are independent of each other.  (A turn of less than
0.0028 rad counts as none.) -/
theorem C169_drive {P : Params} (hf : P.fakeOdom = false) {lib : Lib C} {env0 env env2 : Env} {motion0 : Motion ℝ} {h : History}
    {ev : Event} (hv : HistValid (h ++ [(ev, env)])) (hu : UnitMessages (h ++ [(ev, env)])) {n0 n n1 : Node C} {outs : List (List Out)}
    {o : List Out} (hs : start P lib env0 motion0 = .ok n0) (hr : run P lib n0 h = .ok (n, outs))
    (hst : step P lib env n ev = .ok (n1, o)) {stamp : ℝ} {frame : String} {pos : Vec3 ℝ} {rot : Quat ℝ} {cov : ℕ → ℕ → ℝ}
    (hp : .pose stamp frame pos rot cov ∈ o) (hcount : (n.loc.pf.particles.length : ℤ) ≤ P.numParticles)
    {r m : OdomMsg} (href : odomRef h = some r) (h1 : r.stamp + 1 / 20 < m.stamp) (h2 : m.stamp ≤ r.stamp + 5)
    {d a : ℝ} (ha : |a| ≤ Real.pi) (hd : r.rot.inv.rotate (m.pos - r.pos) = ⟨d, 0, 0⟩)
    (ht : r.rot.inv * m.rot = Quat.ofAxisAng ⟨0, 0, 1⟩ a) :
    ∃ st en lv, .status st en lv ∈ o ∧ 0 ≤ st.matchRatio ∧ (¬ st.matchRatio < P.matchRatioThresh →
      ∀ (q : ℕ → Vec3 ℝ × Quat ℝ) (B : ℕ → Set (Vec3 ℝ × Quat ℝ)), (∀ k p, n1.loc.pf.particles[k]? = some p → poseOf p = q k) →
      (∀ k, MeasurableSet (drivenBy (Quat.ofAxisAng ⟨0, 0, 1⟩ a) (q k) ⁻¹' B k)) →
      normalStream.real {ω | ∃ n1' o1 n2 o2, step P lib (env.withDrift ω) n ev = .ok (n1', o1) ∧
          step P lib env2 n1' (.odom m) = .ok (n2, o2) ∧ AllIn B n2.loc.pf.particles} =
        ∏ k ∈ Finset.range n1.loc.pf.particles.length,
          (driveLaw P d (countedTurn a)).real (drivenBy (Quat.ofAxisAng ⟨0, 0, 1⟩ a) (q k) ⁻¹' B k)) := by
  obtain ⟨st, en, lv, hmem, hr0, hlaw⟩ := drift_swap hst hp hcount (hv _ (List.mem_append_right _ (List.mem_singleton.2 rfl)))
  refine ⟨st, en, lv, hmem, hr0, fun hm q B hq hB => ?_⟩
  obtain ⟨hl1, hsw⟩ := hlaw hm
  choose N' O' hstep hlen hpart using hsw
  have hrun1 : run P lib n0 (h ++ [(ev, env)]) = .ok (n1, outs ++ [o]) := by
    rw [run_append, hr, Outcome.bind_ok]
    simp only [run, hst, Outcome.bind_ok]
  have hunit := C126_unit hv hu hs hrun1
  set M : Motion ℝ := { linTc := P.integLinTc, angTc := P.integAngTc, relTrans := 0, relQuat := 1, relNorm := 0, relAngle := 0, timeDiff := 0 } with hM
  have hstates : ∀ ω, ∃ n2 o2, step P lib env2 (N' ω) (.odom m) = .ok (n2, o2) ∧
      states n2 = (states (N' ω)).map (M.stepParticle r.pose m.pose (m.stamp - r.stamp)) := by
    intro ω
    obtain ⟨n2, o2, h2'⟩ := C88_terminates P lib env2 (N' ω) (.odom m) (.inl ⟨m, rfl⟩)
    refine ⟨n2, o2, h2', ?_⟩
    have hrun' : run P lib n0 (h ++ [(ev, env.withDrift ω)]) = .ok (N' ω, outs ++ [O' ω]) := by
      rw [run_append, hr, Outcome.bind_ok]
      simp only [run, hstep ω, Outcome.bind_ok]
    have href' : odomRef (h ++ [(ev, env.withDrift ω)]) = some r := by
      have hev : ∃ header msg, ev = .cloud header msg := by
        by_contra hc
        push _root_.Not at hc
        exact step_minor hst hc _ hp
      obtain ⟨header, msg, rfl⟩ := hev
      have : odomMsgs (h ++ [(.cloud header msg, env.withDrift ω)]) = odomMsgs h := by simp [odomMsgs]
      rw [odomRef, this]
      exact href
    exact (C86_gate hf hs hrun' h2').1 r href' h1 h2 M rfl rfl
  choose N2 O2 hodom hst2 using hstates
  set ang := (Quat.ofAxisAng (⟨0, 0, 1⟩ : Vec3 ℝ) a).getAxisAng.2 with hang
  rw [← prob_drives (N := n1.loc.pf.particles.length) (X := fun ω k => (d + (P.errLinLin * d * ω (4 * k) + P.errAngLin * ang * ω (4 * k + 3)),
      0 + (P.errLinAng * |d| * ω (4 * k + 1) + P.errAngAng * ang * ω (4 * k + 2)))) (fun _ _ => rfl) rfl
    (by rw [mul_pow, mul_pow, hang, axisAng_sq ha]) (by rw [mul_pow, mul_pow, sq_abs]) (by rw [mul_pow, mul_pow, hang, axisAng_sq ha]) hB]
  congr 1
  ext ω
  simp only [Set.mem_ofPred_eq]
  have hl2 : (N2 ω).loc.pf.particles.length = n1.loc.pf.particles.length := by
    have := congrArg List.length (hst2 ω)
    simp only [states, List.length_map] at this
    rw [this, hlen]
  have key : AllIn B (N2 ω).loc.pf.particles ↔ ∀ k : Fin n1.loc.pf.particles.length,
      drivenBy (Quat.ofAxisAng ⟨0, 0, 1⟩ a) (q k) (d + (P.errLinLin * d * ω (4 * k) + P.errAngLin * ang * ω (4 * k + 3)),
      0 + (P.errLinAng * |d| * ω (4 * k + 1) + P.errAngAng * ang * ω (4 * k + 2))) ∈ B k := by
    refine allIn_iff hl2 (g := fun k => drivenBy (Quat.ofAxisAng ⟨0, 0, 1⟩ a) (q k) (d + (P.errLinLin * d * ω (4 * k) + P.errAngLin * ang * ω (4 * k + 3)),
      0 + (P.errLinAng * |d| * ω (4 * k + 1) + P.errAngAng * ang * ω (4 * k + 2)))) ?_ B
    intro k p hk
    have e := congrArg (fun l => l[k]?) (hst2 ω)
    simp only [states, List.getElem?_map, hk, Option.map_some] at e
    cases hk1 : (N' ω).loc.pf.particles[k]? with
    | none => rw [hk1] at e; simp at e
    | some p1 =>
      rw [hk1] at e
      simp only [Option.map_some, Option.some.injEq] at e
      obtain ⟨hpose, hdr⟩ := hpart ω k p1 hk1
      have hlt : k < n1.loc.pf.particles.length := by rw [← hlen ω]; exact (List.getElem?_eq_some_iff.1 hk1).1
      have hg : n1.loc.pf.particles[k]? = some n1.loc.pf.particles[k] := List.getElem?_eq_getElem hlt
      have hp1 := hpose _ hg
      rw [hq k _ hg] at hp1
      have hur : p1.state.rot.dot p1.state.rot = 1 := by
        have := hunit _ (List.getElem_mem hlt)
        have e2 := congrArg Prod.snd (hpose _ hg)
        simp only [poseOf] at e2
        rw [e2]; exact this
      rw [← hp1]
      simp only [drift, Prod.mk.injEq] at hdr
      obtain ⟨d1, d2, d3, d4⟩ := hdr
      have hrt : (r.pose.rot.inv * m.pose.rot) = Quat.ofAxisAng ⟨0, 0, 1⟩ a := ht
      have hrd : r.pose.rot.inv.rotate (m.pose.pos - r.pose.pos) = ⟨d, 0, 0⟩ := hd
      have hnorm : (⟨d, 0, 0⟩ : Vec3 ℝ).norm = |d| := by
        simp [Vec3.norm, Vec3.dot, Real.sqrt_mul_self_eq_abs]
      simp only [poseOf, drivenBy, e, Motion.stepParticle, Motion.setOdoms, Motion.predict, hrt, hrd, hnorm, d1, d2, d3, d4, ← hang]
      refine Prod.ext ?_ ?_
      · show p1.state.pos + _ = p1.state.pos + _
        congr 2
        ext <;> simp [Vec3.add_x, Vec3.add_y, Vec3.add_z, Vec3.smul_x, Vec3.smul_y, Vec3.smul_z]
        ring
      · show (Quat.normalized _) = _
        have hψ : ω (4 * k + 1) * P.errLinAng * |d| + ω (4 * k + 2) * P.errAngAng * ang =
            0 + (P.errLinAng * |d| * ω (4 * k + 1) + P.errAngAng * ang * ω (4 * k + 2)) := by ring
        rw [hψ]
        refine Quat.C31_normalized_unit _ ?_
        rw [Quat.C29_dot_mul, Quat.C29_dot_mul, unit_turn, unit_turn, hur]
        norm_num
  constructor
  · rintro ⟨n1', o1, n2, o2, g1, g2, hin⟩
    rw [hstep ω, Outcome.ok.injEq] at g1
    cases g1
    rw [hodom ω, Outcome.ok.injEq] at g2
    cases g2
    exact key.1 hin
  · exact fun hall => ⟨_, _, _, _, hstep ω, hodom ω, key.2 hall⟩

/-- C169: with the default `match_ratio_thresh` of 0 this is so after every localization. -/
theorem C169_default {P : Params} (hf : P.fakeOdom = false) (hthr : P.matchRatioThresh ≤ 0) {lib : Lib C} {env0 env env2 : Env}
    {motion0 : Motion ℝ} {h : History} {ev : Event} (hv : HistValid (h ++ [(ev, env)])) (hu : UnitMessages (h ++ [(ev, env)]))
    {n0 n n1 : Node C} {outs : List (List Out)}
    {o : List Out} (hs : start P lib env0 motion0 = .ok n0) (hr : run P lib n0 h = .ok (n, outs))
    (hst : step P lib env n ev = .ok (n1, o)) {stamp : ℝ} {frame : String} {pos : Vec3 ℝ} {rot : Quat ℝ} {cov : ℕ → ℕ → ℝ}
    (hp : .pose stamp frame pos rot cov ∈ o) (hcount : (n.loc.pf.particles.length : ℤ) ≤ P.numParticles)
    {r m : OdomMsg} (href : odomRef h = some r) (h1 : r.stamp + 1 / 20 < m.stamp) (h2 : m.stamp ≤ r.stamp + 5)
    {d a : ℝ} (ha : |a| ≤ Real.pi) (hd : r.rot.inv.rotate (m.pos - r.pos) = ⟨d, 0, 0⟩)
    (ht : r.rot.inv * m.rot = Quat.ofAxisAng ⟨0, 0, 1⟩ a)
    {q : ℕ → Vec3 ℝ × Quat ℝ} {B : ℕ → Set (Vec3 ℝ × Quat ℝ)} (hq : ∀ k p, n1.loc.pf.particles[k]? = some p → poseOf p = q k)
    (hB : ∀ k, MeasurableSet (drivenBy (Quat.ofAxisAng ⟨0, 0, 1⟩ a) (q k) ⁻¹' B k)) :
    normalStream.real {ω | ∃ n1' o1 n2 o2, step P lib (env.withDrift ω) n ev = .ok (n1', o1) ∧
        step P lib env2 n1' (.odom m) = .ok (n2, o2) ∧ AllIn B n2.loc.pf.particles} =
      ∏ k ∈ Finset.range n1.loc.pf.particles.length,
        (driveLaw P d (countedTurn a)).real (drivenBy (Quat.ofAxisAng ⟨0, 0, 1⟩ a) (q k) ⁻¹' B k) := by
  obtain ⟨st, en, lv, _, h0, hlaw⟩ := C169_drive (env2 := env2) hf hv hu hs hr hst hp hcount href h1 h2 ha hd ht
  exact hlaw (not_lt.2 (le_trans hthr h0)) q B hq hB

/-- C123: with the default `match_ratio_thresh` of 0 the node never expands the particles by itself: the match ratio it
publishes with a pose is not negative. -/
theorem C123_default {P : Params} (hthr : P.matchRatioThresh ≤ 0) {lib : Lib C} {env : Env} {n n1 : Node C} {ev : Event} {o : List Out}
    (h : step P lib env n ev = .ok (n1, o)) {stamp : ℝ} {frame : String} {pos : Vec3 ℝ} {rot : Quat ℝ} {cov : ℕ → ℕ → ℝ}
    (hp : .pose stamp frame pos rot cov ∈ o) :
    ∃ st en lv, .status st en lv ∈ o ∧ ¬ st.matchRatio < P.matchRatioThresh := by
  obtain ⟨r, _, h0, _, _, _, _, _, _, ⟨st, en, lv, hmem, hratio⟩, _⟩ := cloud_swap h hp
  exact ⟨st, en, lv, hmem, by rw [hratio]; exact not_lt.2 (le_trans hthr h0)⟩

end Node
end Mcl3dl
