import Verif.Spec.DeadReckoning
import Verif.Props.NodeUnit

/-!
# C165: without noise the particles move exactly with the odometry
-/

set_option linter.unusedSectionVars false

namespace Mcl3dl
namespace Node

variable {C : Type}

/-- A property of states that everything but odometry and the placing of particles keeps when there is no noise. -/
structure Still (J : State6 ℝ → Prop) : Prop where
  add : ∀ s a, a.pos = ⟨0, 0, 0⟩ → a.rot = 1 → J s → J (s.add a)
  normalize : ∀ s, J s → J s.normalize
  reset : ∀ s, J s → J (resetInteg s)
  drift : ∀ s, J s → J { s with noiseLL := 0, noiseLA := 0, noiseAA := 0, noiseAL := 0 }

theorem ofRPY_zero : Quat.ofRPY (⟨0, 0, 0⟩ : Vec3 ℝ) = 1 := by
  show _ = (⟨0, 0, 0, 1⟩ : Quat ℝ)
  simp [Quat.ofRPY]

/-- Noise without spread is no noise. -/
theorem pick_zero {env : Env} {call : ℕ} {sigma : State6 ℝ} {n : ℕ} {ns : List (State6 ℝ)} (h0 : ∀ i, sigmas sigma i = 0)
    (h : env.noiseStates call State6.default sigma n = .ok ns) (k : ℕ) :
    (pickNoise ns k).pos = ⟨0, 0, 0⟩ ∧ (pickNoise ns k).rot = 1 := by
  obtain ⟨hl, idx, _, hp⟩ := noiseStates_spec h
  by_cases hk : k < n
  · rw [hp k hk]
    have hx : noiseComp env call State6.default sigma (idx k) = fun _ => 0 := by
      funext i
      rw [noiseComp, default_meanVec, h0]; ring
    rw [hx]
    exact ⟨rfl, ofRPY_zero⟩
  · have : pickNoise ns k = State6.default := by
      unfold pickNoise
      simp [List.getD, List.getElem?_eq_none (show ns.length ≤ k by omega)]
    rw [this]
    exact ⟨rfl, rfl⟩

section
variable {P : Params} {J : State6 ℝ → Prop} (hc : Still J)
include hc

theorem Still.resampled {env : Env} (hv : env.Valid) {call : ℕ} {sigma : State6 ℝ} (h0 : ∀ i, sigmas sigma i = 0)
    {f f' : Filter} (h : resampleFilter env call sigma f = .ok f') (hf : ∀ p ∈ f.particles, J p.state) :
    ∀ p ∈ f'.particles, J p.state := by
  obtain ⟨ns, hns, h⟩ := Outcome.bind_eq_ok_iff.1 h
  obtain ⟨f2, h2, _, _, _, hp⟩ := PF.resample_spec f _
    (env.unit * (PF.total f.particles / (f.particles.length : ℝ))) (pickNoise ns)
    (hv.sort (PF.accumulate 0 f.particles))
  rw [h2] at h
  simp only [Outcome.ok.injEq] at h
  subst h
  intro p hpm
  obtain ⟨_, q, hq, e | ⟨k, e⟩⟩ := hp p hpm
  · rw [e]; exact hf q hq
  · rw [e]
    exact hc.normalize _ (hc.add _ _ (pick_zero h0 hns k).1 (pick_zero h0 hns k).2 (hf q hq))

theorem Still.noised {env : Env} {call : ℕ} {sigma : State6 ℝ} (h0 : ∀ i, sigmas sigma i = 0) {f f' : Filter}
    (h : addNoise env call sigma f = .ok f') (hf : ∀ p ∈ f.particles, J p.state) :
    ∀ p ∈ f'.particles, J p.state := by
  obtain ⟨ns, hns, h⟩ := Outcome.bind_eq_ok_iff.1 h
  simp only [Outcome.ok.injEq] at h
  subst h
  intro p hp
  simp only [PF.Filter.noise, List.mem_mapIdx] at hp
  obtain ⟨i, hi, rfl⟩ := hp
  exact hc.add _ _ (pick_zero h0 hns i).1 (pick_zero h0 hns i).2 (hf _ (List.getElem_mem hi))

omit hc in
theorem resized_states {env : Env} (hv : env.Valid) {f f' : Filter} {k : ℤ}
    (h : resizeFilter env f k = .ok f') (hf : ∀ p ∈ f.particles, J p.state) :
    ∀ p ∈ f'.particles, J p.state := by
  obtain ⟨_, _, _, hne, _⟩ := resizeFilter_spec hv h
  rw [resizeFilter] at h
  split_ifs at h with h0
  obtain ⟨f2, h2, _, _, hp⟩ := PF.resize_spec State6.default env.junk f k.toNat _ (hv.sort (PF.accumulate 0 f.particles))
    (hne.imp id fun h => by simp [h])
  rw [h2] at h
  simp only [Outcome.ok.injEq] at h
  subst h
  intro p hpm
  obtain ⟨_, q, hq, e⟩ := hp p hpm
  rw [e]; exact hf q hq

omit hc in
theorem measured_states (f : Filter) (l : State6 ℝ → ℝ) (hf : ∀ p ∈ f.particles, J p.state) :
    ∀ p ∈ (f.measure Real.log l).particles, J p.state := by
  intro p hp
  simp only [PF.Filter.measure] at hp
  split_ifs at hp
  · simp only [PF.weigh, List.mem_map] at hp
    obtain ⟨_, ⟨q, hq, rfl⟩, rfl⟩ := hp
    exact hf q hq
  · exact hf p hp

theorem Still.localized (hP : Noiseless P) {lib : Lib C} {env : Env} (hv : env.Valid) {m : MapSt} {odo : OdoSt}
    {warn : Vec3 ℝ} {loc loc' : LocSt C} {header : Header} {p : Prep} {outs : List Out}
    (h : localize P lib env m odo warn loc header p = .ok (loc', outs)) (hf : ∀ p ∈ loc.pf.particles, J p.state) :
    ∀ p ∈ loc'.pf.particles, J p.state := by
  obtain ⟨r, hw, _, _, _, _, _, h3, h5, h6, _, rfl, _⟩ := localize_ok h
  have hs1 : (r.pf1 P loc).particles.map PF.Particle.state = loc.pf.particles.map PF.Particle.state :=
    pf1_states (weighLoop_length hw)
  have w1 : ∀ p ∈ (r.pf1 P loc).particles, J p.state := by
    intro p hp
    have : p.state ∈ (r.pf1 P loc).particles.map PF.Particle.state := List.mem_map_of_mem hp
    rw [hs1] at this
    obtain ⟨q, hq, e⟩ := List.mem_map.1 this
    rw [← e]; exact hf q hq
  have w2 : ∀ p ∈ (r.pf2 P loc).particles, J p.state := by
    unfold LocRun.pf2
    split_ifs
    · intro p hp
      simp only [PF.Filter.predict, List.mem_map] at hp
      obtain ⟨q, hq, rfl⟩ := hp
      exact hc.reset _ (w1 q hq)
    · exact w1
  have w3 := hc.resampled hv hP.resample h3 w2
  have w4 : ∀ p ∈ (driftFilter P env r.pf3).particles, J p.state := by
    intro p hp
    simp only [driftFilter, List.mem_mapIdx, hP.odom.1, hP.odom.2.1, hP.odom.2.2.1, hP.odom.2.2.2, mul_zero] at hp
    obtain ⟨i, hi, rfl⟩ := hp
    exact hc.drift _ (w3 _ (List.getElem_mem hi))
  have w5 : ∀ p ∈ r.pf5.particles, J p.state := by
    rw [expandFilter] at h5
    split_ifs at h5
    · exact hc.noised hP.expansion h5 w4
    · simp only [Outcome.ok.injEq] at h5
      exact h5 ▸ w4
  rw [reduceFilter] at h6
  show ∀ p ∈ r.pf6.particles, J p.state
  split_ifs at h6
  · exact resized_states hv h6 w5
  · simp only [Outcome.ok.injEq] at h6
    exact h6 ▸ w5

/-- Every callback but that of odometry keeps the property, unless it places particles. -/
theorem Still.step (hP : Noiseless P) (hfo : P.fakeOdom = false) {lib : Lib C} {env : Env} (hv : env.Valid) {n n' : Node C}
    {ev : Event} {o : List Out} (hpl : placesNone ev = true) (hno : ∀ m, ev ≠ .odom m)
    (h : Node.step P lib env n ev = .ok (n', o)) (hf : ∀ p ∈ n.loc.pf.particles, J p.state) :
    ∀ p ∈ n'.loc.pf.particles, J p.state := by
  have hst : ∀ n1 : Node C, states n1 = states n → ∀ p ∈ n1.loc.pf.particles, J p.state := by
    intro n1 he p hp
    have : p.state ∈ states n1 := List.mem_map_of_mem hp
    rw [he] at this
    obtain ⟨q, hq, e⟩ := List.mem_map.1 this
    rw [← e]; exact hf q hq
  by_cases him : ∃ m, ev = .imu m
  · obtain ⟨m, rfl⟩ := him
    exact hst n' (step_imu_keeps hfo h).2.2
  push _root_.Not at him
  obtain ⟨_, _, hkeep⟩ := step_odo h hno him
  cases ev with
  | mapcloud stamp msg => exact hst n' (hkeep rfl)
  | mapcloudUpdate msg => exact hst n' (hkeep rfl)
  | loadPcd file => exact hst n' (hkeep rfl)
  | timer => exact hst n' (hkeep rfl)
  | reconfigure w => exact hst n' (hkeep rfl)
  | odom msg => exact absurd rfl (hno msg)
  | imu msg => exact absurd rfl (him msg)
  | initialpose msg => cases hpl
  | globalLocalization => cases hpl
  | landmark msg =>
    obtain ⟨pf, h2, rfl, _⟩ := cbLandmark_ok h
    exact hc.resampled hv hP.resample h2 (measured_states _ _ hf)
  | resize size =>
    obtain ⟨pf, h2, rfl, _⟩ := cbResize_ok h
    exact resized_states hv h2 hf
  | expansionReset =>
    obtain ⟨pf, h2, rfl, _⟩ := cbExpansionReset_ok h
    exact hc.noised hP.expansion h2 hf
  | cloud header msg =>
    obtain ⟨_, _, _, _, hcase⟩ := cbCloud_loc h
    rcases hcase with ⟨hl, _, _⟩ | ⟨_, acc, c, hcore⟩
    · rw [hl]; exact hf
    obtain ⟨_, _, ⟨_, _, hk', _⟩ | ⟨_, hme⟩⟩ := measureCore_ok hcore
    · rw [hk']; exact hf
    generalize n'.loc = loc2 at hme
    cases hme with
    | noHeader _ => exact hf
    | noTf _ _ _ => exact hf
    | noOrigin _ _ _ _ => exact hf
    | noPoints _ _ _ _ _ => exact hf
    | localized _ _ _ _ _ _ _ hl => exact hc.localized hP hv hl hf

end

/-- A proper pose without odometry error that one of `ps` has after the motion `d`. -/
def Carried (ps : List (State6 ℝ)) (d : Tf) (s' : State6 ℝ) : Prop :=
  Motion.UnitPose s' ∧ Motion.NoNoise s' ∧ ∃ s ∈ ps, MovedBy d s s'

theorem quat_one_mul (q : Quat ℝ) : (1 : Quat ℝ) * q = q := by
  have : (1 : Quat ℝ) = ⟨0, 0, 0, 1⟩ := rfl
  rw [this]
  ext <;> simp [Quat.mul_x, Quat.mul_y, Quat.mul_z, Quat.mul_w]

theorem quat_mul_one (q : Quat ℝ) : q * (1 : Quat ℝ) = q := by
  have : (1 : Quat ℝ) = ⟨0, 0, 0, 1⟩ := rfl
  rw [this]
  ext <;> simp [Quat.mul_x, Quat.mul_y, Quat.mul_z, Quat.mul_w]

theorem carried_still (ps : List (State6 ℝ)) (d : Tf) : Still (Carried ps d) where
  add := by
    rintro s' a ha hr ⟨h1, h2, s, hs, h3, h4⟩
    have e : (s'.add a).rot = s'.rot := by
      show a.rot * s'.rot = s'.rot
      rw [hr, quat_one_mul]
    refine ⟨?_, ⟨rfl, rfl, rfl, rfl⟩, s, hs, ?_, by rw [e, h4]⟩
    · unfold Motion.UnitPose at *; rw [e]; exact h1
    · show s'.pos + a.pos = _
      rw [ha, ← h3]
      ext <;> simp [Vec3.add_x, Vec3.add_y, Vec3.add_z]
  normalize := by
    rintro s' ⟨h1, h2, s, hs, h3, h4⟩
    have e : s'.normalize.rot = s'.rot := Quat.C31_normalized_unit _ h1
    refine ⟨?_, h2, s, hs, h3, by rw [e, h4]⟩
    unfold Motion.UnitPose at *; rw [e]; exact h1
  reset := fun s' h => h
  drift := fun s' ⟨h1, _, h3⟩ => ⟨h1, ⟨rfl, rfl, rfl, rfl⟩, h3⟩

theorem ofAxisAng_zero : Quat.ofAxisAng (⟨0, 0, 1⟩ : Vec3 ℝ) 0 = 1 := by
  have h : Quat.dot (⟨0, 0, 0, 1⟩ : Quat ℝ) ⟨0, 0, 0, 1⟩ = 1 := by norm_num [Quat.dot]
  have := Quat.C31_normalized_unit _ h
  show _ = (⟨0, 0, 0, 1⟩ : Quat ℝ)
  simpa [Quat.ofAxisAng] using this

/-- An odometry step moves by the odometry. -/
theorem carried_step {ps : List (State6 ℝ)} {d : Tf} {s' : State6 ℝ} {r m : OdomMsg} (M : Motion ℝ) (dt : ℝ)
    (hr : r.rot.dot r.rot = 1) (hm : m.rot.dot m.rot = 1) (h : Carried ps d s') :
    Carried ps (d.followed r m) (M.stepParticle r.pose m.pose dt s') := by
  obtain ⟨h1, ⟨n1, n2, n3, n4⟩, s, hs, h3, h4⟩ := h
  obtain ⟨u, e1, e2, e3, e4⟩ := Motion.C78_unit M r.pose m.pose s' dt hr hm h1
  refine ⟨u, ⟨by rw [e1, n1], by rw [e2, n2], by rw [e3, n3], by rw [e4, n4]⟩, s, hs, ?_, ?_⟩
  · show s'.pos + s'.rot.rotate ((r.rot.inv.rotate (m.pos - r.pos)).smul (1 + s'.noiseLL) +
      (⟨s'.noiseAL * _, 0, 0⟩ : Vec3 ℝ)) = s.pos + s.rot.rotate (d.trans + d.rot.rotate (r.rot.inv.rotate (m.pos - r.pos)))
    have hv : ∀ (v : Vec3 ℝ) (x : ℝ), v.smul (1 + s'.noiseLL) + (⟨s'.noiseAL * x, 0, 0⟩ : Vec3 ℝ) = v := by
      intro v x
      rw [n1, n3]
      ext <;> simp [Vec3.add_x, Vec3.add_y, Vec3.add_z, Vec3.smul_x, Vec3.smul_y, Vec3.smul_z]
    rw [hv, h3, h4, Quat.C29_mul_rotate]
    generalize d.rot.rotate _ = w
    ext <;> simp only [Vec3.add_x, Vec3.add_y, Vec3.add_z, Quat.rotate_x, Quat.rotate_y, Quat.rotate_z] <;> ring
  · rw [Motion.predict_rot M (p := r.pose) (c := m.pose) dt hr hm h1, n2, n4, zero_mul, zero_mul, add_zero, ofAxisAng_zero, quat_one_mul, h4]
    show s.rot * d.rot * (r.rot.inv * m.rot) = s.rot * (d.rot * (r.rot.inv * m.rot))
    rw [Quat.C29_mul_assoc]

theorem run_carried {P : Params} (hP : Noiseless P) (hfo : P.fakeOdom = false) {lib : Lib C} {h : History}
    (hv : HistValid h) (hpl : ∀ e ∈ h, placesNone e.1 = true) (hu : ∀ m ∈ odomMsgs h, m.rot.dot m.rot = 1)
    {n n' : Node C} {outs : List (List Out)} {r : Option OdomMsg} (hr : ∀ m, r = some m → m.rot.dot m.rot = 1)
    (hi : OdoInv P n.odo r) {ps : List (State6 ℝ)} {d : Tf} (hc : ∀ p ∈ n.loc.pf.particles, Carried ps d p.state)
    (hrun : run P lib n h = .ok (n', outs)) :
    ∀ p ∈ n'.loc.pf.particles, Carried ps ((odomMsgs h).foldl travelStep (d, r)).1 p.state := by
  induction h generalizing n outs r d with
  | nil =>
    simp only [run, Outcome.ok.injEq, Prod.mk.injEq] at hrun
    rw [← hrun.1]; exact hc
  | cons e h ih =>
    obtain ⟨ev, env⟩ := e
    obtain ⟨n1, o, os, h1, h2, _⟩ := run_cons_ok hrun
    have hv' : HistValid h := fun e he => hv e (by simp [he])
    have hpl' : ∀ e ∈ h, placesNone e.1 = true := fun e he => hpl e (by simp [he])
    by_cases ho : ∃ m, ev = .odom m
    · obtain ⟨m, rfl⟩ := ho
      rw [odomMsgs_cons_odom] at hu ⊢
      rw [List.foldl_cons]
      have hum := hu m (by simp)
      have hu' : ∀ m' ∈ odomMsgs h, m'.rot.dot m'.rot = 1 := fun m' hm' => hu m' (by simp [hm'])
      obtain ⟨g1, g2, _⟩ := odomCore_spec hi m ⟨rfl, rfl⟩ (M := ⟨P.integLinTc, P.integAngTc, 0, 1, 0, 0, 0⟩)
      obtain ⟨k1, k2, _⟩ := step_odom hfo h1
      have key : (travelStep (d, r) m).2 = odomRefStep r m ∧
          ∀ p ∈ n1.loc.pf.particles, Carried ps (travelStep (d, r) m).1 p.state := by
        have hst : states n1 = states n → ∀ p ∈ n1.loc.pf.particles, Carried ps d p.state := by
          intro he p hp
          have : p.state ∈ states n1 := List.mem_map_of_mem hp
          rw [he] at this
          obtain ⟨q, hq, e⟩ := List.mem_map.1 this
          rw [← e]; exact hc q hq
        cases r with
        | none => exact ⟨by simp [travelStep, odomRefStep, useOf], hst (k2.trans g2)⟩
        | some r =>
          simp only [moved] at g2
          simp only [travelStep, odomRefStep, Option.map_some]
          cases huse : useOf (some r.stamp) m.stamp with
          | reference =>
            rw [huse] at g2
            simp only [reduceCtorEq, if_false] at g2
            unfold useOf at huse
            simp only at huse
            split_ifs at huse
          | jump =>
            rw [huse] at g2
            simp only [reduceCtorEq, if_false] at g2
            exact ⟨rfl, hst (k2.trans g2)⟩
          | skip =>
            rw [huse] at g2
            simp only [reduceCtorEq, if_false] at g2
            exact ⟨rfl, hst (k2.trans g2)⟩
          | use =>
            rw [huse, if_pos rfl] at g2
            refine ⟨rfl, fun p hp => ?_⟩
            have : p.state ∈ states n1 := List.mem_map_of_mem hp
            rw [k2, g2] at this
            obtain ⟨q, hq, e⟩ := List.mem_map.1 this
            obtain ⟨q', hq', rfl⟩ := List.mem_map.1 hq
            rw [← e]
            exact carried_step _ _ (hr r rfl) hum (hc q' hq')
      have hr' : ∀ m', odomRefStep r m = some m' → m'.rot.dot m'.rot = 1 := by
        intro m' hm'
        unfold odomRefStep at hm'
        split at hm'
        · cases hm'; exact hum
        · cases hm'; exact hum
        · cases hm'
        · exact hr m' hm'
      have := ih hv' hpl' hu' hr' (by rw [k1]; exact g1) key.2 h2
      rwa [← key.1] at this
    · push _root_.Not at ho
      rw [odomMsgs_cons_other ho] at hu ⊢
      have hodo : n1.odo = n.odo := by
        by_cases him : ∃ m, ev = .imu m
        · obtain ⟨m, rfl⟩ := him
          exact (step_imu_keeps hfo h1).2.1
        · push _root_.Not at him
          exact (step_odo h1 ho him).1
      exact ih hv' hpl' hu hr (by rw [hodo]; exact hi)
        ((carried_still ps d).step hP hfo (hv (ev, env) (by simp)) (hpl (ev, env) (by simp)) ho h1 hc) h2

theorem odomMsgs_unit {h : History} (hu : UnitMessages h) : ∀ m ∈ odomMsgs h, m.rot.dot m.rot = 1 := by
  intro m hm
  unfold odomMsgs at hm
  obtain ⟨e, he, hm⟩ := List.mem_filterMap.1 hm
  refine (hu e he).1 m ?_
  split at hm
  · next m' e' =>
    simp only [Option.some.injEq] at hm
    rw [e', hm]
  · cases hm

/-- C165: without configured noise, whatever the node measures, every particle has the pose one of the particles had
before, moved by exactly the motion of the odometry. -/
theorem C165_carried {P : Params} (hP : Noiseless P) (hfo : P.fakeOdom = false) {lib : Lib C} {env0 : Env}
    {motion0 : Motion ℝ} {n0 n n' : Node C} {h0 h : History} {outs outs' : List (List Out)}
    (hv : HistValid (h0 ++ h)) (hu : UnitMessages (h0 ++ h)) (hpl : ∀ e ∈ h, placesNone e.1 = true)
    (hs : start P lib env0 motion0 = .ok n0) (hr0 : run P lib n0 h0 = .ok (n, outs))
    (hr : run P lib n h = .ok (n', outs')) : ∀ s' ∈ states n', ∃ s ∈ states n, MovedBy (travel h0 h) s s' := by
  have hv0 : HistValid h0 := fun e he => hv e (List.mem_append_left _ he)
  have hu0 : UnitMessages h0 := fun e he => hu e (List.mem_append_left _ he)
  have hu1 : UnitMessages h := fun e he => hu e (List.mem_append_right _ he)
  have hk := (unit_closed P).run hv0 hu0 hs hr0
  have hz := C122_zero hv0 hs hr0
  have hodo : OdoInv P n.odo (odomRef h0) := run_odo hfo (odoInv_start hs) hr0
  have := run_carried (ps := states n) (d := ⟨⟨0, 0, 0⟩, 1⟩) hP hfo (fun e he => hv e (List.mem_append_right _ he)) hpl
    (odomMsgs_unit hu1) (r := odomRef h0) (fun m hm => by
      rcases odomRef_mem _ _ hm with hm | hm
      · exact odomMsgs_unit hu0 m hm
      · cases hm) hodo (fun p hp => by
      obtain ⟨c1, c2, c3, c4⟩ := hz p hp
      refine ⟨hk.states p hp, ⟨c1 hP.odom.1, c2 hP.odom.2.1, c3 hP.odom.2.2.1, c4 hP.odom.2.2.2⟩, p.state,
        List.mem_map_of_mem hp, ?_, ?_⟩
      · ext <;> simp [Vec3.add_x, Vec3.add_y, Vec3.add_z, Quat.rotate_x, Quat.rotate_y, Quat.rotate_z]
      · exact (quat_mul_one _).symm) hr
  intro s' hs'
  obtain ⟨p, hp, rfl⟩ := List.mem_map.1 hs'
  exact (this p hp).2.2

theorem followed_followed (d : Tf) {r m m' : OdomMsg} (hm : m.rot.dot m.rot = 1) :
    (d.followed r m).followed m m' = d.followed r m' := by
  have h0 : m.rot.dot m.rot ≠ 0 := by rw [hm]; exact one_ne_zero
  have hrot : d.rot * (r.rot.inv * m.rot) * (m.rot.inv * m'.rot) = d.rot * (r.rot.inv * m'.rot) := by
    rw [Quat.C29_mul_assoc, Quat.C29_mul_assoc, ← Quat.C29_mul_assoc m.rot, (Quat.C30_inv_mul _ h0).2, quat_one_mul]
  have hadd : ∀ (q : Quat ℝ) (a b c : Vec3 ℝ), q.rotate (a - c) + q.rotate (b - a) = q.rotate (b - c) := by
    intro q a b c
    ext <;> simp only [Vec3.add_x, Vec3.add_y, Vec3.add_z, Vec3.sub_x, Vec3.sub_y, Vec3.sub_z, Quat.rotate_x, Quat.rotate_y,
      Quat.rotate_z] <;> ring
  have hassoc : ∀ a b c : Vec3 ℝ, a + b + c = a + (b + c) := by
    intro a b c
    ext <;> simp only [Vec3.add_x, Vec3.add_y, Vec3.add_z] <;> ring
  unfold Tf.followed
  rw [hrot]
  congr 1
  show d.trans + _ + (d.rot * (r.rot.inv * m.rot)).rotate _ = _
  rw [Quat.C29_mul_rotate, Quat.C29_mul_rotate, (Quat.C30_inv_rotate _ h0 _).2, hassoc, ← Quat.C29_mul_rotate,
    ← Quat.C29_mul_rotate, ← Quat.C29_mul_rotate, hadd]

theorem travel_fold {ms : List OdomMsg} {d0 d : Tf} {r0 r : OdomMsg} (hu : ∀ m ∈ ms, m.rot.dot m.rot = 1)
    (hd : d = d0.followed r0 r) (hru : r.rot.dot r.rot = 1) (hj : NoJump (some r) ms) :
    ∃ r', ms.foldl odomRefStep (some r) = some r' ∧ (ms.foldl travelStep (d, some r)).1 = d0.followed r0 r' := by
  induction ms generalizing d r with
  | nil => exact ⟨r, rfl, hd⟩
  | cons m ms ih =>
    obtain ⟨h1, h2⟩ := hj
    have hu' : ∀ m ∈ ms, m.rot.dot m.rot = 1 := fun x hx => hu x (by simp [hx])
    simp only [List.foldl_cons, travelStep]
    simp only [odomRefStep, Option.map_some] at h1 h2 ⊢
    cases huse : useOf (some r.stamp) m.stamp with
    | reference =>
      unfold useOf at huse
      simp only at huse
      split_ifs at huse
    | jump => exact absurd huse h1
    | use =>
      rw [huse] at h2
      simp only at h2 ⊢
      exact ih hu' (by rw [hd, followed_followed _ hru]) (hu m (by simp)) h2
    | skip =>
      rw [huse] at h2
      simp only at h2 ⊢
      exact ih hu' hd hru h2

/-- C165: without a time jump the motion is the one from the reference before to the reference after, however many
messages there were between. -/
theorem C165_between {h0 h : History} (hu : UnitMessages (h0 ++ h)) {r r' : OdomMsg} (h1 : odomRef h0 = some r)
    (h2 : odomRef (h0 ++ h) = some r') (hj : NoJump (some r) (odomMsgs h)) :
    travel h0 h = ⟨r.rot.inv.rotate (r'.pos - r.pos), r.rot.inv * r'.rot⟩ := by
  have hru : r.rot.dot r.rot = 1 := by
    rcases odomRef_mem _ _ h1 with hm | hm
    · exact odomMsgs_unit (fun e he => hu e (List.mem_append_left _ he)) r hm
    · cases hm
  have h0ne : r.rot.dot r.rot ≠ 0 := by rw [hru]; exact one_ne_zero
  have hd : (⟨⟨0, 0, 0⟩, 1⟩ : Tf) = Tf.followed ⟨⟨0, 0, 0⟩, 1⟩ r r := by
    unfold Tf.followed
    rw [(Quat.C30_inv_mul _ h0ne).1, quat_one_mul]
    congr 1
    ext <;> simp [Vec3.add_x, Vec3.add_y, Vec3.add_z, Vec3.sub_x, Vec3.sub_y, Vec3.sub_z, Quat.rotate_x, Quat.rotate_y,
      Quat.rotate_z]
  obtain ⟨r2, e1, e2⟩ := travel_fold (odomMsgs_unit fun e he => hu e (List.mem_append_right _ he)) hd hru hj
  have : r2 = r' := by
    have happ : odomMsgs (h0 ++ h) = odomMsgs h0 ++ odomMsgs h := by simp [odomMsgs]
    rw [odomRef, happ, List.foldl_append] at h2
    rw [odomRef] at h1
    rw [h1, e1] at h2
    exact Option.some.inj h2
  subst this
  rw [travel, h1, e2]
  unfold Tf.followed
  rw [quat_one_mul]
  congr 1
  generalize r.rot.inv.rotate _ = w
  ext <;> simp [Vec3.add_x, Vec3.add_y, Vec3.add_z, Quat.rotate_x, Quat.rotate_y, Quat.rotate_z]

theorem travel_unit {h0 h : History} (hu : UnitMessages (h0 ++ h)) : (travel h0 h).rot.dot (travel h0 h).rot = 1 := by
  have key : ∀ (ms : List OdomMsg) (d : Tf) (r : Option OdomMsg), (∀ m ∈ ms, m.rot.dot m.rot = 1) →
      (∀ m, r = some m → m.rot.dot m.rot = 1) → d.rot.dot d.rot = 1 →
      (ms.foldl travelStep (d, r)).1.rot.dot (ms.foldl travelStep (d, r)).1.rot = 1 := by
    intro ms
    induction ms with
    | nil => intro d r _ _ hd; exact hd
    | cons m ms ih =>
      intro d r hm hr hd
      have hm' : ∀ m ∈ ms, m.rot.dot m.rot = 1 := fun x hx => hm x (by simp [hx])
      have hmm := hm m (by simp)
      rw [List.foldl_cons]
      cases r with
      | none => exact ih _ _ hm' (fun x hx => by cases hx; exact hmm) hd
      | some r =>
        simp only [travelStep]
        cases useOf (some r.stamp) m.stamp with
        | use =>
          refine ih _ _ hm' (fun x hx => by cases hx; exact hmm) ?_
          show (d.rot * (r.rot.inv * m.rot)).dot (d.rot * (r.rot.inv * m.rot)) = 1
          rw [Quat.C29_dot_mul, Quat.C29_dot_mul, Quat.C30_inv_unit _ (hr r rfl), Quat.conj_dot, hr r rfl, hmm, hd]
          norm_num
        | jump => exact ih _ _ hm' (fun x hx => by cases hx) hd
        | skip => exact ih _ _ hm' hr hd
        | reference => exact ih _ _ hm' hr hd
  refine key _ _ _ (odomMsgs_unit fun e he => hu e (List.mem_append_right _ he)) (fun m hm => ?_) ?_
  · rcases odomRef_mem _ _ hm with hm | hm
    · exact odomMsgs_unit (fun e he => hu e (List.mem_append_left _ he)) m hm
    · cases hm
  · have : (1 : Quat ℝ) = ⟨0, 0, 0, 1⟩ := rfl
    rw [this]; norm_num [Quat.dot]

/-- C165: if moreover all particles agree on a pose, every later estimate is that pose moved by the odometry (its
orientation unless that is a half turn about an axis with components of mixed signs), whatever the scans, landmarks
and IMU messages say. -/
theorem C165_estimate {P : Params} (hP : Noiseless P) (hfo : P.fakeOdom = false) (hd : 0 < P.divYaw)
    (hb : 0 ≤ P.beam.likelihoodMin) (hw : 0 ≤ P.like.matchWeight) (hv1 : P.biasVarDist ≠ 0) (hv2 : P.biasVarAng ≠ 0)
    {lib : Lib C} {env0 env : Env} (hv0 : env0.Valid)
    {motion0 : Motion ℝ} {n0 n n' n'' : Node C} {h0 h : History} {outs outs' : List (List Out)} {ev : Event} {o : List Out}
    (hv : HistValid (h0 ++ h)) (hu : UnitMessages (h0 ++ h)) (hpl : ∀ e ∈ h, placesNone e.1 = true)
    (hs : start P lib env0 motion0 = .ok n0) (hr0 : run P lib n0 h0 = .ok (n, outs))
    (hr : run P lib n h = .ok (n', outs')) (hst : step P lib env n' ev = .ok (n'', o))
    {stamp : ℝ} {frame : String} {pos : Vec3 ℝ} {rot : Quat ℝ} {cov : ℕ → ℕ → ℝ} (hp : .pose stamp frame pos rot cov ∈ o)
    (x : Vec3 ℝ) (q : Quat ℝ) (hq : q.dot q = 1)
    (hx : ∀ s ∈ states n, s.pos = x ∧ Quat.SameRotation s.rot q) :
    n''.loc.statePrev.pos = x + q.rotate (travel h0 h).trans ∧
      (Quat.SameRotation n''.loc.statePrev.rot (q * (travel h0 h).rot) ↔ ¬ Quat.MixedHalfTurn (q * (travel h0 h).rot)) := by
  have hrun : run P lib n0 (h0 ++ h) = .ok (n', outs ++ outs') := by
    rw [run_append, hr0, Outcome.bind_ok, hr]; rfl
  have hc := C165_carried hP hfo hv hu hpl hs hr0 hr
  have hsame : ∀ s ∈ states n, ∀ s', MovedBy (travel h0 h) s s' →
      s'.pos = x + q.rotate (travel h0 h).trans ∧ Quat.SameRotation s'.rot (q * (travel h0 h).rot) := by
    intro s hs s' hm
    obtain ⟨e1, e2⟩ := hx s hs
    rcases e2 with e2 | e2
    · rw [hm.1, hm.2, e1, e2]; exact ⟨rfl, .inl rfl⟩
    · rw [hm.1, hm.2, e1, e2]
      refine ⟨?_, .inr ?_⟩
      · congr 1
        ext <;> simp [Quat.rotate_x, Quat.rotate_y, Quat.rotate_z]
      · ext <;> simp [Quat.mul_x, Quat.mul_y, Quat.mul_z, Quat.mul_w] <;> ring
  have hut : (travel h0 h).rot.dot (travel h0 h).rot = 1 := travel_unit hu
  refine C114_node hd hb hw hv1 hv2 hv0 hv hs hrun hst hp _ _ ?_ fun p hp' => ?_
  · rw [Quat.C29_dot_mul, hq, hut]; norm_num
  · obtain ⟨s, hs1, hs2⟩ := hc p.state (List.mem_map_of_mem hp')
    exact hsame s hs1 p.state hs2

end Node
end Mcl3dl
