import Verif.Proofs.NodeStates
import Verif.Props.Motion
import Verif.Props.QuatWeighted
import Verif.Props.NodeExpand
import Verif.Props.NodeDemoPose

/-! # C122 (no odometry error without its parameter), C126 (published particles) -/

set_option linter.unusedSectionVars false

namespace Mcl3dl
namespace Node

variable {C : Type}

/-- A unit quaternion. -/
def UnitQ (q : Quat ℝ) : Prop := q.dot q = 1

/-- All orientations in the odometry and IMU messages and all rotations of frames are unit quaternions. -/
def UnitMessages (h : History) : Prop := ∀ e ∈ h, GoodMsgs UnitQ UnitQ e

theorem axis_ne {v : Vec3 ℝ} (h : v.dot v = 1) : v ≠ ⟨0, 0, 0⟩ := by
  rintro rfl
  norm_num [Vec3.dot] at h

/-- Orientations stay unit quaternions. -/
theorem unit_closed (P : Params) : Closed P UnitQ UnitQ fun s => UnitQ s.rot where
  one := by
    show (1 : Quat ℝ).dot 1 = 1
    have : (1 : Quat ℝ) = ⟨0, 0, 0, 1⟩ := rfl
    rw [this]; norm_num [Quat.dot]
  turn := by
    intro t q ht hq
    exact Quat.C35_unit _ (axis_ne (Quat.rotate_dot_self_one _ ht _ (Quat.getAxisAng_axis q hq))) _
  default := by
    show (1 : Quat ℝ).dot 1 = 1
    have : (1 : Quat ℝ) = ⟨0, 0, 0, 1⟩ := rfl
    rw [this]; norm_num [Quat.dot]
  made := fun pos rpy lin ang => Quat.C32_unit rpy
  add := by
    intro s a hs ha
    show (a.rot * s.rot).dot (a.rot * s.rot) = 1
    rw [Quat.C29_dot_mul, ha, hs]; norm_num
  normalize := by
    intro s hs
    show s.rot.normalized.dot s.rot.normalized = 1
    rw [Quat.C31_normalized_unit _ hs]; exact hs
  predict := fun m prev cur dt s hp hc hs => (Motion.C78_unit m prev cur s dt hp hc hs).1
  reset := fun s hs => hs
  drift := fun a b c d s hs => hs
  stand := by
    intro pos yaw q hq
    have : (Quat.ofRPY ⟨0, 0, yaw⟩ * q).dot (Quat.ofRPY ⟨0, 0, yaw⟩ * q) = 1 := by
      rw [Quat.C29_dot_mul, Quat.C32_unit, hq]; norm_num
    show Quat.dot (Quat.normalized _) (Quat.normalized _) = 1
    rw [Quat.C31_normalized_unit _ this]
    exact this

/-- A coefficient of the odometry error is zero if its parameter is. -/
def Covered (P : Params) (s : State6 ℝ) : Prop :=
  (P.errLinLin = 0 → s.noiseLL = 0) ∧ (P.errLinAng = 0 → s.noiseLA = 0) ∧
  (P.errAngLin = 0 → s.noiseAL = 0) ∧ (P.errAngAng = 0 → s.noiseAA = 0)

theorem covered_closed (P : Params) : Closed P (fun _ => True) (fun _ => True) (Covered P) where
  one := trivial
  turn := fun _ _ _ _ => trivial
  default := ⟨fun _ => rfl, fun _ => rfl, fun _ => rfl, fun _ => rfl⟩
  made := fun _ _ _ _ => ⟨fun _ => rfl, fun _ => rfl, fun _ => rfl, fun _ => rfl⟩
  add := fun _ _ _ _ => ⟨fun _ => rfl, fun _ => rfl, fun _ => rfl, fun _ => rfl⟩
  normalize := fun _ hs => hs
  predict := fun m prev cur dt s _ _ hs => hs
  reset := fun _ hs => hs
  drift := fun a b c d s _ => ⟨fun h => by simp [h], fun h => by simp [h], fun h => by simp [h], fun h => by simp [h]⟩
  stand := fun _ _ _ _ => ⟨fun _ => rfl, fun _ => rfl, fun _ => rfl, fun _ => rfl⟩

/-- C122: after any history, a coefficient of the odometry error of a particle is zero if its parameter is. -/
theorem C122_zero {P : Params} {lib : Lib C} {env0 : Env} {motion0 : Motion ℝ} {h : History} (hv : HistValid h)
    {n0 n : Node C} {outs : List (List Out)} (hs : start P lib env0 motion0 = .ok n0)
    (hr : run P lib n0 h = .ok (n, outs)) : ∀ p ∈ n.loc.pf.particles, Covered P p.state :=
  ((covered_closed P).run hv (fun _ _ => ⟨fun _ _ => trivial, fun _ _ => trivial, fun _ _ _ _ _ => trivial⟩) hs hr).states

/-- C122, the exception: after a request for expansion resetting no particle has any
odometry error, whatever the parameters, until the next measurement. -/
theorem C122_expansion (P : Params) (lib : Lib C) (env : Env) (n : Node C) :
    ∃ n' o, step P lib env n .expansionReset = .ok (n', o) ∧
      n'.loc.pf.particles.length = n.loc.pf.particles.length ∧
      ∀ p ∈ n'.loc.pf.particles, drift p.state = (0, 0, 0, 0) := by
  obtain ⟨n', idx, _, h, _, hd⟩ := C123_service P lib env n
  have hl := hd.length_eq
  rw [List.length_zipIdx] at hl
  refine ⟨n', _, h, hl.symm, fun p hp => ?_⟩
  obtain ⟨i, hi, rfl⟩ := List.getElem_of_mem hp
  have := (List.forall₂_iff_get.1 hd).2 i (by rw [List.length_zipIdx]; omega) hi
  exact this.2.2.2.2.2

/-- C126: after any history with unit quaternions in messages and frames all orientations of particles are unit
quaternions. -/
theorem C126_unit {P : Params} {lib : Lib C} {env0 : Env} {motion0 : Motion ℝ} {h : History} (hv : HistValid h)
    (hu : UnitMessages h) {n0 n : Node C} {outs : List (List Out)} (hs : start P lib env0 motion0 = .ok n0)
    (hr : run P lib n0 h = .ok (n, outs)) : ∀ p ∈ n.loc.pf.particles, p.state.rot.dot p.state.rot = 1 :=
  ((unit_closed P).run hv hu hs hr).states

theorem sensor_outs {P : Params} {env : Env} (fuel : ℕ) {n n' : Node C} {msg : OdomMsg ⊕ ImuMsg} {outs : List Out}
    (h : sensor P env fuel n msg = .ok (n', outs)) : ∀ x ∈ outs, x = .synthImu ∨ x = .synthOdom := by
  induction fuel generalizing n n' msg outs with
  | zero => simp [sensor] at h
  | succ fuel ih =>
    cases msg with
    | inl msg =>
      rw [sensor] at h
      rcases hc : odomCore P n msg with ⟨n1, _ | im⟩
      · rw [hc] at h
        simp only [Outcome.ok.injEq, Prod.mk.injEq] at h
        rw [← h.2]; simp
      · rw [hc] at h
        obtain ⟨⟨n2, o2⟩, h2, h⟩ := Outcome.bind_eq_ok_iff.1 h
        simp only [Outcome.ok.injEq, Prod.mk.injEq] at h
        rw [← h.2]
        intro x hx
        rcases List.mem_cons.1 hx with rfl | hx
        · exact .inl rfl
        · exact ih h2 x hx
    | inr msg =>
      rw [sensor] at h
      rcases hc : imuCore P env n msg with ⟨n1, _ | im⟩
      · rw [hc] at h
        simp only [Outcome.ok.injEq, Prod.mk.injEq] at h
        rw [← h.2]; simp
      · rw [hc] at h
        obtain ⟨⟨n2, o2⟩, h2, h⟩ := Outcome.bind_eq_ok_iff.1 h
        simp only [Outcome.ok.injEq, Prod.mk.injEq] at h
        rw [← h.2]
        intro x hx
        rcases List.mem_cons.1 hx with rfl | hx
        · exact .inr rfl
        · exact ih h2 x hx

theorem mapTimer_outs {P : Params} {env : Env} {m m' : MapSt} {o : List Out}
    (h : mapTimer P env m = .ok (m', o)) : ∀ x ∈ o, ∃ l, x = Out.updatedMap l := by
  rw [mapTimer] at h
  cases hm : m.hasMap with
  | false =>
    simp only [hm, Bool.false_eq_true, if_false, Outcome.ok.injEq, Prod.mk.injEq] at h
    simp [← h.2]
  | true =>
    simp only [hm, if_true] at h
    cases hu : m.update with
    | some u =>
      rw [hu] at h
      simp only at h
      split at h
      · simp at h
      · simp only [Outcome.ok.injEq, Prod.mk.injEq] at h
        simp [← h.2]
    | none =>
      rw [hu] at h
      simp only at h
      cases hme : m.merged with
      | some r =>
        rw [hme] at h
        simp only [Outcome.ok.injEq, Prod.mk.injEq] at h
        simp [← h.2]
      | none =>
        rw [hme] at h
        simp only at h
        cases hb : m.base with
        | none => rw [hb] at h; simp at h
        | some b =>
          rw [hb] at h
          simp only at h
          cases hc : m.heap[b]? with
          | none => rw [hc] at h; simp at h
          | some c =>
            rw [hc] at h
            simp only [Outcome.ok.injEq, Prod.mk.injEq] at h
            simp [← h.2]

theorem load_outs {P : Params} {env : Env} {n n' : Node C} {stamp : ℕ} {pts : List Point} {o : List Out}
    (h : loadMapCloud P env n stamp pts = .ok (n', o)) : ∀ x ∈ o, ∃ l, x = Out.updatedMap l := by
  obtain ⟨m, hm, _⟩ := loadMapCloud_ok h
  exact mapTimer_outs hm

/-- C126: the particles published with a pose are the particles before the callback, the ones published by any
other callback are the ones after it; order, positions and orientations are kept. -/
theorem C126_published {P : Params} {lib : Lib C} {env0 env : Env} {motion0 : Motion ℝ} {h : History}
    {ev : Event} (hv : HistValid (h ++ [(ev, env)])) (hu : UnitMessages (h ++ [(ev, env)])) {n0 n n' : Node C}
    {outs : List (List Out)} {o : List Out}
    (hs : start P lib env0 motion0 = .ok n0) (hr : run P lib n0 h = .ok (n, outs))
    (hst : step P lib env n ev = .ok (n', o)) {stamp : ℝ} {poses : List (Vec3 ℝ × Quat ℝ)}
    (hp : .particles stamp poses ∈ o) :
    ((∃ header msg, ev = .cloud header msg) →
      poses = n.loc.pf.particles.map fun p => (p.state.pos, p.state.rot)) ∧
    ((∀ header msg, ev ≠ .cloud header msg) →
      poses = n'.loc.pf.particles.map fun p => (p.state.pos, p.state.rot)) := by
  have hvh : HistValid h := fun e he => hv e (List.mem_append_left _ he)
  have hk := (unit_closed P).run hvh (fun e he => hu e (List.mem_append_left _ he)) hs hr
  have hk' := (unit_closed P).step (hv (ev, env) (by simp)) (hu (ev, env) (by simp)) hst hk
  have hnorm : ∀ ps : List Particle, (∀ p ∈ ps, UnitQ p.state.rot) →
      (ps.map fun p => (p.state.pos, p.state.rot.normalized)) = ps.map fun p => (p.state.pos, p.state.rot) := by
    intro ps hps
    refine List.map_congr_left fun p hp => ?_
    rw [Quat.C31_normalized_unit _ (hps p hp)]
  constructor
  · rintro ⟨header, msg, rfl⟩
    rcases step_cases hst with ⟨_, h4 | ⟨b, rfl | ⟨rfl, _⟩⟩⟩ | ⟨_, _, hd, p, acc, outs', _, _, _, _, hl, rfl⟩
    · obtain ⟨_, _, _, _, hcase⟩ := cbCloud_loc hst
      rcases hcase with ⟨_, _, rfl⟩ | ⟨_, acc, c, hcore⟩
      · simp at hp
      obtain ⟨_, _, ⟨_, _, _, ho⟩ | ⟨_, hme⟩⟩ := measureCore_ok hcore
      · rw [ho] at hp; simp at hp
      generalize n'.loc = loc2 at hme
      cases hme <;> exact absurd (h4 (.batch true) (by simp)) id
    · simp at hp
    · simp [publishStatus] at hp
    obtain ⟨r, hw, _, _, _, _, hmo, _, _, _, _, _, rfl⟩ := localize_ok hl
    have hmm := matchOutput_only hmo
    have hpart : Out.particles stamp poses = publishParticles P n.odo (freshen env n).loc.tolBase (env.now 2)
        (r.pf2 P (freshen env n).loc) := by
      simp only [List.mem_cons, List.mem_append, publishStatus] at hp
      rcases hp with hp | (((hp | hp) | hp) | hp) | hp | hp
      · cases hp
      · simp at hp
      · split_ifs at hp
        · simp at hp
        · simp at hp
      · simp at hp
      · obtain ⟨s, l, e | e⟩ := hmm _ hp <;> cases e
      · exact hp
      · simp at hp
    have hs1 : (r.pf1 P (freshen env n).loc).particles.map PF.Particle.state =
        n.loc.pf.particles.map PF.Particle.state := pf1_states (weighLoop_length hw)
    simp only [publishParticles, Out.particles.injEq] at hpart
    rw [hpart.2]
    have hs2 : ∀ g : State6 ℝ → Vec3 ℝ × Quat ℝ, (∀ s, g (resetInteg s) = g s) →
        ((r.pf2 P (freshen env n).loc).particles.map fun p => g p.state) = n.loc.pf.particles.map fun p => g p.state := by
      intro g hg
      have e := congrArg (List.map g) hs1
      simp only [List.map_map] at e
      unfold LocRun.pf2
      split_ifs
      · simp only [PF.Filter.predict, List.map_map]
        simp only [Function.comp_def, hg] at e ⊢
        exact e
      · exact e
    rw [hs2 (fun s => (s.pos, s.rot.normalized)) (fun s => rfl)]
    exact hnorm _ hk.states
  · intro hev
    cases ev with
    | mapcloud stamp msg =>
      rcases cbMapcloud_ok hst with ⟨_, rfl, rfl⟩ | ⟨_, hl⟩
      · simp at hp
      · obtain ⟨l, e⟩ := load_outs hl _ hp; cases e
    | mapcloudUpdate msg =>
      simp only [step, Outcome.ok.injEq, Prod.mk.injEq] at hst
      rw [← hst.2] at hp; simp at hp
    | loadPcd file =>
      rcases cbLoadPcd_ok hst with ⟨_, rfl, rfl⟩ | ⟨_, _, _, hl, rfl⟩
      · simp at hp
      · rcases List.mem_append.1 hp with hp | hp
        · obtain ⟨l, e⟩ := load_outs hl _ hp; cases e
        · simp at hp
    | timer =>
      obtain ⟨r, h1, hst⟩ := Outcome.bind_eq_ok_iff.1 hst
      simp only [Outcome.ok.injEq, Prod.mk.injEq] at hst
      rw [← hst.2] at hp
      obtain ⟨l, e⟩ := mapTimer_outs h1 _ hp; cases e
    | cloud header msg => exact absurd rfl (hev header msg)
    | odom msg => rcases sensor_outs _ hst _ hp with e | e <;> cases e
    | imu msg => rcases sensor_outs _ hst _ hp with e | e <;> cases e
    | initialpose msg =>
      rcases cbPosition_ok hst with ⟨rfl, rfl, _⟩ | ⟨_, t, st, _, e, rfl⟩
      · simp at hp
      · simp only [List.mem_singleton, publishParticles, Out.particles.injEq] at hp
        rw [hp.2]; exact hnorm _ hk'.states
    | landmark msg =>
      obtain ⟨pf, h2, rfl, rfl⟩ := cbLandmark_ok hst
      simp only [List.mem_singleton, publishParticles, Out.particles.injEq] at hp
      rw [hp.2]; exact hnorm _ hk'.states
    | resize size =>
      obtain ⟨pf, h2, rfl, rfl⟩ := cbResize_ok hst
      simp only [List.mem_cons, publishParticles, Out.particles.injEq] at hp
      simp only [reduceCtorEq, List.not_mem_nil, or_false] at hp
      rw [hp.2]; exact hnorm _ hk'.states
    | expansionReset =>
      obtain ⟨pf, h2, rfl, rfl⟩ := cbExpansionReset_ok hst
      simp only [List.mem_cons, publishParticles, Out.particles.injEq] at hp
      simp only [reduceCtorEq, List.not_mem_nil, or_false] at hp
      rw [hp.2]; exact hnorm _ hk'.states
    | globalLocalization =>
      rcases cbGlobalLocalization_ok hst with ⟨_, rfl, rfl⟩ | ⟨_, c, pf, ps, _, h1, h2, rfl, rfl⟩ <;> simp at hp
    | reconfigure w =>
      simp only [step, Outcome.ok.injEq, Prod.mk.injEq] at hst
      rw [← hst.2] at hp; simp at hp

theorem odomRef_mem (ms : List OdomMsg) (r : Option OdomMsg) {m : OdomMsg} (h : ms.foldl odomRefStep r = some m) :
    m ∈ ms ∨ r = some m := by
  induction ms generalizing r with
  | nil => exact .inr h
  | cons a ms ih =>
    rcases ih _ h with h | h
    · exact .inl (List.mem_cons_of_mem _ h)
    · unfold odomRefStep at h
      split at h
      · simp only [Option.some.injEq] at h; exact .inl (by simp [h])
      · simp only [Option.some.injEq] at h; exact .inl (by simp [h])
      · cases h
      · exact .inr h

/-- C86 with the parameters of the node: without odometry errors configured, every particle moves exactly as the
odometry between two used messages, as long as no event that moves particles otherwise and no time jump comes
between. -/
theorem C86_exact {P : Params} (hf : P.fakeOdom = false)
    (he : P.errLinLin = 0 ∧ P.errLinAng = 0 ∧ P.errAngLin = 0 ∧ P.errAngAng = 0) {lib : Lib C} {env0 : Env}
    {motion0 : Motion ℝ} {n0 n n' : Node C} {h0 h : History} {outs outs' : List (List Out)} {r r' : OdomMsg}
    (hv : HistValid h0) (hum : UnitMessages (h0 ++ h))
    (hs : start P lib env0 motion0 = .ok n0) (hr0 : run P lib n0 h0 = .ok (n, outs))
    (hr : run P lib n h = .ok (n', outs')) (hk : ∀ e ∈ h, keepsStates e.1 = true)
    (hj : NoJump (odomRef h0) (odomMsgs h))
    (h1 : odomRef h0 = some r) (h2 : odomRef (h0 ++ h) = some r')
    (i : ℕ) (s s' : State6 ℝ) (hs1 : (states n)[i]? = some s) (hs2 : (states n')[i]? = some s')
    (u v : Vec3 ℝ) (huv : Motion.act r.pose u = Motion.act r'.pose v) : Motion.act s' v = Motion.act s u := by
  have hmem : ∃ p ∈ n.loc.pf.particles, p.state = s := by
    have := List.mem_of_getElem? hs1
    unfold states at this
    obtain ⟨p, hp, e⟩ := List.mem_map.1 this
    exact ⟨p, hp, e⟩
  obtain ⟨p, hp, rfl⟩ := hmem
  have hk1 := (unit_closed P).run hv (fun e he => hum e (List.mem_append_left _ he)) hs hr0
  obtain ⟨c1, c2, c3, c4⟩ := C122_zero hv hs hr0 p hp
  have hodo : ∀ hh : History, (∀ e ∈ hh, GoodMsgs UnitQ UnitQ e) → ∀ m ∈ odomMsgs hh, m.rot.dot m.rot = 1 := by
    intro hh hg m hm
    unfold odomMsgs at hm
    obtain ⟨e, he, hm⟩ := List.mem_filterMap.1 hm
    refine (hg e he).1 m ?_
    split at hm
    · next m' e' =>
      simp only [Option.some.injEq] at hm
      rw [e', hm]
    · cases hm
  have hru : r.rot.dot r.rot = 1 := by
    rcases odomRef_mem _ _ h1 with hm | hm
    · exact hodo h0 (fun e he => hum e (List.mem_append_left _ he)) r hm
    · cases hm
  exact C86_telescopes hf hs hr0 hr hk hj (hodo h fun e he => hum e (List.mem_append_right _ he)) hru h1 h2 i p.state s'
    hs1 hs2 (hk1.states p hp) ⟨c1 he.1, c2 he.2.1, c3 he.2.2.1, c4 he.2.2.2⟩ u v huv

theorem Demo.unit_tf0 : UnitQ Demo.tf0.rot := (unit_closed Demo.P0).one

theorem Demo.good_env (ev : Event) (t : ℝ) (h1 : ∀ msg, ev = .odom msg → UnitQ msg.rot)
    (h2 : ∀ msg, ev = .imu msg → UnitQ msg.rot) : GoodMsgs UnitQ UnitQ (ev, Demo.env t) := by
  refine ⟨h1, h2, fun a b s t' h => ?_⟩
  have : some Demo.tf0 = some t' := h
  simp only [Option.some.injEq] at this
  rw [← this]; exact Demo.unit_tf0

/-- The history of the demonstration has unit quaternions. -/
theorem Demo.poseHistory_unit (m x y : ℝ) (ev : Event) (t : ℝ) (h1 : ∀ msg, ev ≠ .odom msg) (h2 : ∀ msg, ev ≠ .imu msg) :
    UnitMessages (Demo.poseHistory m x y ++ [(ev, Demo.env t)]) := by
  intro e he
  simp only [Demo.poseHistory, List.mem_append, List.mem_cons, List.not_mem_nil, or_false] at he
  rcases he with (rfl | rfl | rfl) | rfl
  · exact Demo.good_env _ _ (by simp) (by simp)
  · exact Demo.good_env _ _ (by simp) (by simp)
  · exact Demo.good_env _ _ (by simp) (by simp)
  · exact Demo.good_env _ _ (fun msg e => absurd e (h1 msg)) (fun msg e => absurd e (h2 msg))

/-- The hypotheses of C122, C123 and C126 are met by a run with 65 particles, followed by a request for expansion
resetting, which publishes 65 poses. -/
example : ∃ n0 n n' outs o stamp poses, start Demo.P0 Demo.exactLib (Demo.env 0) Demo.motion0 = .ok n0 ∧
    run Demo.P0 Demo.exactLib n0 (Demo.poseHistory 10 10 10) = .ok (n, outs) ∧
    UnitMessages (Demo.poseHistory 10 10 10 ++ [(.expansionReset, Demo.env 4)]) ∧
    HistValid (Demo.poseHistory 10 10 10 ++ [(.expansionReset, Demo.env 4)]) ∧
    step Demo.P0 Demo.exactLib (Demo.env 4) n .expansionReset = .ok (n', o) ∧
    .particles stamp poses ∈ o ∧ poses.length = 65 ∧ Demo.P0.errLinLin ≠ 0 := by
  obtain ⟨n0, n1, n, outs, o, hs, hr, hr', hst, rot, cov, hp, hrot⟩ :=
    Demo.pose_runs 10 10 10 (by norm_num) (by norm_num)
  obtain ⟨h1, h2, _⟩ := Demo.poseHistory_run hs hr
  obtain ⟨n', idx, _, h, _, hd⟩ := C123_service Demo.P0 Demo.exactLib (Demo.env 4) n1
  have hl := hd.length_eq
  rw [List.length_zipIdx, h1] at hl
  have hv : HistValid (Demo.poseHistory 10 10 10 ++ [(.expansionReset, Demo.env 4)]) := by
    intro e he
    rcases List.mem_append.1 he with he | he
    · exact Demo.poseHistory_valid _ _ _ e he
    · rw [List.mem_singleton.1 he]; exact Demo.env_valid 4
  refine ⟨n0, n1, n', outs, _, _, _, hs, hr, Demo.poseHistory_unit _ _ _ _ _ (by simp) (by simp), hv, h,
    List.mem_cons_self, by rw [List.length_map, ← hl], ?_⟩
  norm_num [Demo.P0, Params.loadFrom, Server.dblD, Server.getDouble]

/-- The hypotheses of C86 with the parameters of the node: two odometry messages one second apart, no errors
configured. -/
example : ∃ (P : Params) (n0 n n' : Node Unit) (outs outs' : List (List Out)),
    (P.errLinLin = 0 ∧ P.errLinAng = 0 ∧ P.errAngLin = 0 ∧ P.errAngAng = 0) ∧ P.fakeOdom = false ∧
    start P Demo.lib (Demo.env 0) Demo.motion0 = .ok n0 ∧
    run P Demo.lib n0 [(.odom ⟨0, "odom", 0, 1⟩, Demo.env 0)] = .ok (n, outs) ∧
    run P Demo.lib n [(.odom ⟨1, "odom", ⟨1, 0, 0⟩, 1⟩, Demo.env 1)] = .ok (n', outs') ∧
    UnitMessages [(.odom ⟨0, "odom", 0, 1⟩, Demo.env 0), (.odom ⟨1, "odom", ⟨1, 0, 0⟩, 1⟩, Demo.env 1)] ∧
    NoJump (odomRef [(.odom ⟨0, "odom", 0, 1⟩, Demo.env 0)])
      (odomMsgs [(.odom ⟨1, "odom", ⟨1, 0, 0⟩, 1⟩, Demo.env 1)]) ∧
    odomRef [(.odom ⟨0, "odom", 0, 1⟩, Demo.env 0), (.odom ⟨1, "odom", ⟨1, 0, 0⟩, 1⟩, Demo.env 1)] =
      some ⟨1, "odom", ⟨1, 0, 0⟩, 1⟩ := by
  let P : Params := { Demo.P0 with errLinLin := 0, errLinAng := 0, errAngLin := 0, errAngAng := 0 }
  obtain ⟨n0, hs⟩ := start_total P Demo.lib (Demo.env 0) Demo.motion0 (by show 0 ≤ Demo.P0.numParticles; simp)
  obtain ⟨n, outs, hr⟩ := run_sensors P Demo.lib n0 [(.odom ⟨0, "odom", 0, 1⟩, Demo.env 0)] (by simp)
  obtain ⟨n', outs', hr'⟩ := run_sensors P Demo.lib n [(.odom ⟨1, "odom", ⟨1, 0, 0⟩, 1⟩, Demo.env 1)] (by simp)
  have u2 : useOf (some 0) 1 = .use := by rw [useOf_use]; norm_num
  refine ⟨P, n0, n, n', outs, outs', ⟨rfl, rfl, rfl, rfl⟩, rfl, hs, hr, hr', ?_, ⟨?_, trivial⟩, ?_⟩
  · have h1 : UnitQ (1 : Quat ℝ) := (unit_closed P).one
    intro e he
    simp only [List.mem_cons, List.not_mem_nil, or_false] at he
    rcases he with rfl | rfl
    · exact Demo.good_env _ _ (by rintro msg ⟨⟩; exact h1) (by simp)
    · exact Demo.good_env _ _ (by rintro msg ⟨⟩; exact h1) (by simp)
  · show useOf (some 0) 1 ≠ .jump
    rw [u2]; simp
  · show odomRefStep (some ⟨0, "odom", 0, 1⟩) ⟨1, "odom", ⟨1, 0, 0⟩, 1⟩ = _
    simp only [odomRefStep, Option.map_some]
    rw [u2]

end Node
end Mcl3dl
