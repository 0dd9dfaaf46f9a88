import Verif.Props.Anchor
import Verif.Props.DeadReckoningDemo

/-!
# C171: runs with a known pose
-/

set_option linter.unusedSectionVars false

namespace Mcl3dl
namespace Node
namespace Demo

/-- Odometry, a map or a cloud of the demo. -/
def Plain (e : Event × Env) : Prop :=
  ∃ t, e.2 = env t ∧ ((∃ s, e.1 = .odom (exOdom s)) ∨ (∃ s, e.1 = .mapcloud s (msg 10)) ∨
    ∃ s, e.1 = .cloud ⟨"laser", s⟩ (msg 10))

theorem plain_odom (s t : ℝ) : Plain (.odom (exOdom s), env t) := ⟨t, rfl, .inl ⟨s, rfl⟩⟩
theorem plain_map (s t : ℝ) : Plain (.mapcloud s (msg 10), env t) := ⟨t, rfl, .inr (.inl ⟨s, rfl⟩)⟩
theorem plain_cloud (s t : ℝ) : Plain (.cloud ⟨"laser", s⟩ (msg 10), env t) := ⟨t, rfl, .inr (.inr ⟨s, rfl⟩)⟩

theorem Plain.facts {e : Event × Env} (h : Plain e) : (e.2.Valid ∧ KeepsPoints e.2 ∧ SafeEvent e.1) ∧
    GoodMsgs UnitQ UnitQ e ∧ placesNone e.1 = true ∧ ∀ header m, e.1 = .cloud header m → Regular m := by
  have hx : ∀ x, HasXYZ (msg x) := by simp [HasXYZ, msg]
  obtain ⟨ev, en⟩ := e
  obtain ⟨t, rfl, ⟨s, rfl⟩ | ⟨s, rfl⟩ | ⟨s, rfl⟩⟩ := h
  · exact ⟨⟨env_valid t, keeps t, by simp [SafeEvent]⟩,
      odom_env _ _ (fun m hm => by cases hm; exact ⟨_, rfl⟩) (fun m hm => by cases hm), rfl, fun _ _ hm => by cases hm⟩
  · exact ⟨⟨env_valid t, keeps t, by simp [SafeEvent]⟩,
      odom_env _ _ (fun m hm => by cases hm) (fun m hm => by cases hm), rfl, fun _ _ hm => by cases hm⟩
  · exact ⟨⟨env_valid t, keeps t, by simp [SafeEvent, hx]⟩,
      odom_env _ _ (fun m hm => by cases hm) (fun m hm => by cases hm), rfl,
      fun _ _ hm => by cases hm; exact regular_msg _⟩

/-- A cloud that completes a batch is measured and gives a pose. -/
theorem PQ_pose {h : History} {s t s' : ℝ} (hpl : ∀ e ∈ h, Plain e) {n0 n1 n : Node Unit} {outs : List (List Out)}
    {o : List Out} (hs : start PQ exactLib (env 0) motion0 = .ok n0) (g1 : run PQ exactLib n0 h = .ok (n1, outs))
    (g2 : step PQ exactLib (env t) n1 (.cloud ⟨"laser", s⟩ (msg 10)) = .ok (n, o))
    (hb : (batchStep P0 (batchView P0 h).1 (batchView P0 h).2 (.cloud ⟨"laser", s⟩ (msg 10), env t)).1 =
      some [⟨⟨"laser", s'⟩, [⟨10, 0, 0⟩]⟩]) : ∃ pos rot cov, .pose s' PQ.mapFrame pos rot cov ∈ o := by
  set e : Event × Env := (.cloud ⟨"laser", s⟩ (msg 10), env t) with he
  have hall : ∀ e' ∈ h ++ [e], Plain e' := by
    intro e' he'
    rcases List.mem_append.1 he' with h1 | h1
    · exact hpl _ h1
    · rw [List.mem_singleton.1 h1]; exact plain_cloud s t
  have hv : HistValid (h ++ [e]) := fun e he => (hall e he).facts.1.1
  have hrg : RegularClouds (h ++ [e]) := fun e he => (hall e he).facts.2.2.2
  have hr : run PQ exactLib n0 (h ++ [e]) = .ok (n, outs ++ [o]) := by
    rw [run_append, g1, Outcome.bind_ok, run, show step PQ exactLib e.2 n1 e.1 = _ from g2, Outcome.bind_ok]
    rfl
  have hstep : (batchStep PQ (batchView PQ h).1 (batchView PQ h).2 e).1 = some ([] ++ [⟨⟨"laser", s'⟩, [⟨10, 0, 0⟩]⟩]) := by
    rw [batchView_PQ, batchStep_PQ]; exact hb
  have hm : batches [o] = [true] := by
    rcases C111_batches hrg hs hr with ⟨h3, _⟩ | ⟨_, _, _, h3 | h3⟩
    · rw [hstep] at h3; cases h3
    · exact h3
    · exfalso
      rcases (step_view (show 0 ≤ PQ.numParticles from by simp [PQ]) (env_valid t) g2).batch with
        ⟨hbn, _⟩ | ⟨_, _, ⟨hne, _⟩ | ⟨_, hbt⟩⟩
      · rw [h3] at hbn; cases hbn
      · exact hne (by simp [PQ, Params.toSize, Nat.mod_one])
      · rw [h3] at hbt; cases hbt
  have hC := (C112_measured (P := PQ) (by
    simp [PQ, P0, Params.loadFrom, Params.loadLike, Server.intD, Server.getInt, Params.toSize])
    (env_valid 0) hv hrg hs hr hstep hm).2
  obtain ⟨⟨pos, rot, cov, hp⟩, _⟩ := (hC ⟨by simp [he, env], fun _ _ => by simp [he, env]⟩ tf0 rfl).2
    (usable_msg t s' 10 (by norm_num) (by norm_num))
  refine ⟨pos, rot, cov, ?_⟩
  have : Out.pose s' PQ.mapFrame pos rot cov ∈ o.filter (fun x => (Out.poseCov x).isSome) := by rw [hp]; simp
  exact (List.mem_filter.1 this).1

/-- Odometry, a map, a cloud, and odometry that reports the place `s`. -/
noncomputable def knownHistory (s : ℝ) : History :=
  [(.odom (exOdom 1), env 1), (.mapcloud 1 (msg 10), env 1), (.cloud ⟨"laser", 2⟩ (msg 10), env 2),
    (.odom (exOdom s), env s)]

theorem known_plain (z : ℝ) : ∀ e ∈ knownHistory z, Plain e := by
  intro e he
  simp only [knownHistory, List.mem_cons, List.not_mem_nil, or_false] at he
  rcases he with rfl | rfl | rfl | rfl
  · exact plain_odom _ _
  · exact plain_map _ _
  · exact plain_cloud _ _
  · exact plain_odom _ _

theorem known_travel {z : ℝ} (h1 : 1 + 1 / 20 < z) (h2 : z ≤ 6) : (travel [] (knownHistory z)).trans = ⟨z - 1, 0, 0⟩ ∧ (travel [] (knownHistory z)).rot = 1 := by
  have hu : useOf (some (exOdom 1).stamp) (exOdom z).stamp = .use :=
    (useOf_use _ _).2 ⟨h1, by simp only [exOdom]; linarith⟩
  have hm : odomMsgs (knownHistory z) = [exOdom 1, exOdom z] := rfl
  have : travel [] (knownHistory z) = Tf.followed ⟨⟨0, 0, 0⟩, 1⟩ (exOdom 1) (exOdom z) := by
    rw [travel, hm]
    have h0 : odomRef [] = none := rfl
    have h1 : travelStep (⟨⟨0, 0, 0⟩, 1⟩, none) (exOdom 1) = (⟨⟨0, 0, 0⟩, 1⟩, some (exOdom 1)) := rfl
    rw [List.foldl_cons, List.foldl_cons, List.foldl_nil, h0, h1]
    simp [travelStep, hu]
  rw [this]
  have h0 : (1 : Quat ℝ) = ⟨0, 0, 0, 1⟩ := rfl
  constructor
  · simp only [Tf.followed, exOdom, h0]
    ext <;> simp [Vec3.add_x, Vec3.add_y, Vec3.add_z, Vec3.sub_x, Vec3.sub_y, Vec3.sub_z, Quat.rotate_x, Quat.rotate_y,
      Quat.rotate_z, Quat.inv, Quat.dot, Quat.conj, Quat.sdiv]
  · simp only [Tf.followed, exOdom, h0]
    ext <;> simp [Quat.mul_x, Quat.mul_y, Quat.mul_z, Quat.mul_w, Quat.inv, Quat.dot, Quat.conj, Quat.sdiv]

theorem known_ref {z : ℝ} (h1 : 1 + 1 / 20 < z) (h2 : z ≤ 6) : odomRef (knownHistory z) = some (exOdom z) := by
  have hu : useOf (some (exOdom 1).stamp) (exOdom z).stamp = .use :=
    (useOf_use _ _).2 ⟨h1, by simp only [exOdom]; linarith⟩
  show odomRefStep (some (exOdom 1)) (exOdom z) = some (exOdom z)
  rw [odomRefStep, show useOf ((some (exOdom 1)).map OdomMsg.stamp) (exOdom z).stamp = .use from hu]

/-- After it all particles are as far ahead of the origin as the odometry moved. -/
theorem known_agree {z : ℝ} (hz : 1 + 1 / 20 < z) (hz' : z ≤ 6) {n0 n : Node Unit} {outs : List (List Out)} (hs : start PQ exactLib (env 0) motion0 = .ok n0)
    (hr : run PQ exactLib n0 (knownHistory z) = .ok (n, outs)) :
    ∀ s ∈ states n, s.pos = ⟨z - 1, 0, 0⟩ ∧ Quat.SameRotation s.rot 1 := by
  intro s hsm
  obtain ⟨s0, hs0, h1, h2⟩ := C165_carried noiseless_PQ
    (by simp [PQ, P0, Params.loadFrom, Server.boolD, Server.getBool]) (h0 := []) (h := knownHistory z)
    (fun e he => (known_plain z e he).facts.1.1) (fun e he => (known_plain z e he).facts.2.1)
    (fun e he => (known_plain z e he).facts.2.2.1) hs rfl hr s hsm
  obtain ⟨p, hp, rfl⟩ := List.mem_map.1 hs0
  obtain ⟨h3, h4⟩ := start_PQ hs p hp
  rw [(known_travel hz hz').1, sameRotation_rotate h4, h3] at h1
  rw [(known_travel hz hz').2, quat_mul_one] at h2
  refine ⟨?_, by rw [h2]; exact h4⟩
  rw [h1, (Quat.C29_one 1 _).2.2]
  show (⟨0 + (z - 1), 0 + 0, 0 + 0⟩ : Vec3 ℝ) = _
  norm_num

theorem known_pose {z : ℝ} (hz : 1 + 1 / 20 < z) (hz' : z ≤ 6) {n0 n : Node Unit} {outs : List (List Out)} (hs : start PQ exactLib (env 0) motion0 = .ok n0)
    (hr : run PQ exactLib n0 (knownHistory z) = .ok (n, outs)) {h : History} (hpl : ∀ e ∈ h, Plain e)
    (hj : NoJump (some (exOdom z)) (odomMsgs h)) : KnownPose PQ (knownHistory z) h n ⟨z - 1, 0, 0⟩ 1 (exOdom z) where
  quiet := noiseless_PQ
  noFake := by simp [PQ, P0, Params.loadFrom, Server.boolD, Server.getBool]
  divYaw := show 0 < P0.divYaw by simp [P0_divYaw]
  likelihoodMin := by norm_num [PQ, P0, Params.loadFrom, Params.loadBeam, Server.dblD, Server.getDouble]
  matchWeight := by norm_num [PQ, P0, Params.loadFrom, Params.loadLike, Server.dblD, Server.getDouble]
  biasVar := by
    constructor <;> norm_num [PQ, P0, Params.loadFrom, Server.dblD, Server.getDouble]
  valid := fun e he => by
    rcases List.mem_append.1 he with h1 | h1
    · exact (known_plain z e h1).facts.1.1
    · exact (hpl e h1).facts.1.1
  unit := fun e he => by
    rcases List.mem_append.1 he with h1 | h1
    · exact (known_plain z e h1).facts.2.1
    · exact (hpl e h1).facts.2.1
  places := fun e he => (hpl e he).facts.2.2.1
  orientation := by
    have h1 : (1 : Quat ℝ) = ⟨0, 0, 0, 1⟩ := rfl
    rw [h1]; norm_num [Quat.dot]
  agree := known_agree hz hz' hs hr
  reference := known_ref hz hz'
  noJump := hj

/-- The odometry frame of the demo is one metre behind the origin. -/
theorem known_anchor (z : ℝ) : anchor ⟨z - 1, 0, 0⟩ 1 (exOdom z) = ⟨⟨-1, 0, 0⟩, 1⟩ := by
  have h1 : (1 : Quat ℝ) = ⟨0, 0, 0, 1⟩ := rfl
  have hr : (1 : Quat ℝ) * (exOdom z).rot.inv = 1 := by
    rw [quat_one_mul]
    show (1 : Quat ℝ).inv = 1
    rw [h1]
    ext <;> simp [Quat.inv, Quat.dot, Quat.conj, Quat.sdiv]
  unfold anchor
  rw [hr, (Quat.C29_one 1 _).2.2]
  congr 1
  show (⟨z - 1 - z, 0 - 0, 0 - 0⟩ : Vec3 ℝ) = _
  norm_num

theorem one_not_mixed : ¬ Quat.MixedHalfTurn (1 : Quat ℝ) := by
  have h1 : (1 : Quat ℝ) = ⟨0, 0, 0, 1⟩ := rfl
  rw [h1]; simp [Quat.MixedHalfTurn]

/-- The demo runs on plain events. -/
theorem PQ_runs {h : History} (hpl : ∀ e ∈ h, Plain e) : ∃ n0, start PQ exactLib (env 0) motion0 = .ok n0 ∧
    ∃ n outs, run PQ exactLib n0 h = .ok (n, outs) := by
  obtain ⟨n0, hs, n, outs, hr, _⟩ := C110_no_crash sane_PQ works_PQ (env 0) motion0 h fun e he => (hpl e he).facts.1
  exact ⟨n0, hs, n, outs, hr⟩

theorem batch_first (z : ℝ) (l : History) (hl : ∀ e ∈ l, ∃ s t, e = (.odom (exOdom s), env t)) :
    batchView P0 (knownHistory z ++ l) = (true, [⟨⟨"laser", 2⟩, [⟨10, 0, 0⟩]⟩]) := by
  have h0 : batchView P0 (knownHistory z) = (true, [⟨⟨"laser", 2⟩, [⟨10, 0, 0⟩]⟩]) := by
    simp [batchView, knownHistory, batchStep, mapAvailable, validCloud_msg, not_completes_nil, scanOf_msg]
  rw [batchView] at h0 ⊢
  rw [List.foldl_append, h0]
  clear h0
  induction l with
  | nil => rfl
  | cons e l ih =>
    obtain ⟨s, t, rfl⟩ := hl e (by simp)
    exact ih fun e he => hl e (by simp [he])

theorem batch_next (z t : ℝ) (l l' : History) (hl : ∀ e ∈ l, ∃ s t, e = (.odom (exOdom s), env t))
    (hl' : ∀ e ∈ l', ∃ s t, e = (.odom (exOdom s), env t)) :
    batchView P0 (knownHistory z ++ l ++ (.cloud ⟨"laser", t⟩ (msg 10), env t) :: l') =
      (true, [⟨⟨"laser", t⟩, [⟨10, 0, 0⟩]⟩]) := by
  have h0 := batch_first z l hl
  rw [batchView] at h0 ⊢
  rw [List.foldl_append, h0]
  clear h0 hl
  rw [List.foldl_cons]
  simp only [mapAvailable, batchStep, completes_one, scanOf_msg]
  induction l' with
  | nil => simp
  | cons e l ih =>
    obtain ⟨s, t, rfl⟩ := hl' e (by simp)
    simpa [batchStep, mapAvailable] using ih fun e he => hl' e (by simp [he])

theorem batch_completes (t s' : ℝ) :
    (batchStep P0 true [⟨⟨"laser", s'⟩, [⟨10, 0, 0⟩]⟩] (.cloud ⟨"laser", t⟩ (msg 10), env t)).1 =
      some [⟨⟨"laser", s'⟩, [⟨10, 0, 0⟩]⟩] := by
  simp [batchStep, completes_one, scanOf_msg]

/-- Nothing is estimated in it. -/
theorem quiet_prev {z : ℝ} {n0 n : Node Unit} {outs : List (List Out)} (hs : start PQ exactLib (env 0) motion0 = .ok n0)
    (hr : run PQ exactLib n0 (knownHistory z) = .ok (n, outs)) : n.loc.statePrev = n0.loc.statePrev := by
  have other : ∀ {env : Env} {n n' : Node Unit} {ev : Event} {o : List Out}, step PQ exactLib env n ev = .ok (n', o) →
      (∀ hd m, ev ≠ .cloud hd m) → n'.loc.statePrev = n.loc.statePrev := by
    intro env n n' ev o h hne
    rcases step_cases h with ⟨⟨_, _, _, _, h5, _⟩, _⟩ | ⟨hd, m, _, _, _, _, he, _⟩
    · exact h5
    · exact absurd he (hne hd m)
  obtain ⟨n1, o1, os, h1, hr1, e1⟩ := run_cons_ok hr
  obtain ⟨n2, o2, os2, h2, hr2, e2⟩ := run_cons_ok hr1
  obtain ⟨n3, o3, os3, h3, hr3, e3⟩ := run_cons_ok hr2
  obtain ⟨n4, o4, os4, h4, hr4, e4⟩ := run_cons_ok hr3
  simp only [run, Outcome.ok.injEq, Prod.mk.injEq] at hr4
  obtain ⟨rfl, _⟩ := hr4
  rw [other h4 (fun _ _ h => by cases h)]
  have hh3 : run PQ exactLib n0 ([(.odom (exOdom 1), env 1), (.mapcloud 1 (msg 10), env 1)] ++
      [(.cloud ⟨"laser", 2⟩ (msg 10), env 2)]) = .ok (n3, [o1, o2] ++ [o3]) := by
    simp only [List.cons_append, List.nil_append, run, h1, h2, h3, Outcome.bind_ok]
  have hrg : RegularClouds ([(.odom (exOdom 1), env 1), (.mapcloud 1 (msg 10), env 1)] ++
      [(.cloud ⟨"laser", 2⟩ (msg 10), env 2)]) := by
    intro e he
    exact (known_plain 3 e (by
      simp only [List.cons_append, List.nil_append, List.mem_cons, List.not_mem_nil, or_false] at he
      simp only [knownHistory, List.mem_cons]
      tauto)).facts.2.2.2
  have hb : ∀ x ∈ o3, x.batchOf = none := by
    rcases C111_batches hrg hs hh3 with ⟨_, h⟩ | ⟨b, _, h, _⟩
    · exact fun x hx => (h x hx).1
    · exfalso
      rw [batchView_PQ, batchStep_PQ] at h
      simp [batchView, batchStep, mapAvailable, validCloud_msg, not_completes_nil, scanOf_msg] at h
  have hp3 : n3.loc.statePrev = n2.loc.statePrev := by
    rcases step_cases h3 with ⟨⟨_, _, _, _, h5, _⟩, _⟩ | ⟨_, _, _, _, _, _, _, _, _, _, _, ho⟩
    · exact h5
    · have := hb (.batch true) (by rw [ho]; exact List.mem_cons_self)
      cases this
  rw [hp3, other h2 (fun _ _ h => by cases h), other h1 (fun _ _ h => by cases h)]

end Demo
/-- C171, the lag: the odometry is at 3 when it is used and at 3.04 when a cloud is measured. The correction takes the
newest odometry to where the robot was before: it is 0.04 off, and is not the true place of the odometry frame. -/
example : ∃ n0 n n1 n2 outs outs' o pos rot cov, start Demo.PQ Demo.exactLib (Demo.env 0) Demo.motion0 = .ok n0 ∧
    run Demo.PQ Demo.exactLib n0 (Demo.knownHistory 3) = .ok (n, outs) ∧
    run Demo.PQ Demo.exactLib n [(.odom (exOdom (3 + 1 / 25)), Demo.env 4)] = .ok (n1, outs') ∧
    step Demo.PQ Demo.exactLib (Demo.env 4) n1 (.cloud ⟨"laser", 4⟩ (Demo.msg 10)) = .ok (n2, o) ∧
    .pose 2 Demo.PQ.mapFrame pos rot cov ∈ o ∧
    KnownPose Demo.PQ (Demo.knownHistory 3) [(.odom (exOdom (3 + 1 / 25)), Demo.env 4)] n ⟨3 - 1, 0, 0⟩ 1 (exOdom 3) ∧
    (let c := correction (exOdom (3 + 1 / 25)).pose n2.loc.statePrev
     (c.point (exOdom (3 + 1 / 25)).pos - (anchor ⟨3 - 1, 0, 0⟩ 1 (exOdom 3)).point (exOdom (3 + 1 / 25)).pos).norm = 1 / 25 ∧
     ¬ c.Same (anchor ⟨3 - 1, 0, 0⟩ 1 (exOdom 3))) := by
  set l : History := [(.odom (exOdom (3 + 1 / 25)), Demo.env 4)] with hl
  set e : Event × Env := (.cloud ⟨"laser", 4⟩ (Demo.msg 10), Demo.env 4) with he
  have hodom : ∀ e ∈ l, ∃ s t, e = (.odom (exOdom s), Demo.env t) := by
    intro e he; rw [hl, List.mem_singleton] at he; exact ⟨_, _, he⟩
  have hlp : ∀ e ∈ l, Demo.Plain e := fun e he => by
    obtain ⟨s, t, rfl⟩ := hodom e he; exact Demo.plain_odom _ _
  have hall : ∀ e' ∈ Demo.knownHistory 3 ++ l, Demo.Plain e' := by
    intro e' he'
    rcases List.mem_append.1 he' with h1 | h1
    · exact Demo.known_plain 3 _ h1
    · exact hlp _ h1
  obtain ⟨n0, hs, n2, os, hr⟩ := Demo.PQ_runs (h := Demo.knownHistory 3 ++ l ++ [e]) (fun e' he' => by
    rcases List.mem_append.1 he' with h1 | h1
    · exact hall _ h1
    · rw [List.mem_singleton.1 h1]; exact Demo.plain_cloud _ _)
  obtain ⟨n1, os1, o, g1, g2, rfl⟩ := run_snoc_ok hr
  obtain ⟨pos, rot, cov, hp⟩ := Demo.PQ_pose hall hs g1 g2 (s' := 2) (by
    rw [Demo.batch_first 3 l hodom]; exact Demo.batch_completes 4 2)
  have g1' := g1
  rw [run_append] at g1'
  obtain ⟨⟨n, outs⟩, hr0, hr0'⟩ := Outcome.bind_eq_ok_iff.1 g1'
  obtain ⟨⟨n1', outs'⟩, hr1, hr2⟩ := Outcome.bind_eq_ok_iff.1 hr0'
  simp only [Outcome.ok.injEq, Prod.mk.injEq] at hr2
  obtain ⟨rfl, _⟩ := hr2
  have hskip : useOf (some (exOdom 3).stamp) (exOdom (3 + 1 / 25)).stamp = .skip := by
    simp only [useOf]
    rw [if_neg (by norm_num [exOdom]), if_neg (by norm_num [exOdom])]
  have hK := Demo.known_pose (z := 3) (by norm_num) (by norm_num) hs hr0 hlp
    (show NoJump (some (exOdom 3)) [exOdom (3 + 1 / 25)] from
      ⟨by rw [Option.map_some, hskip]; decide, trivial⟩)
  have href : odomRef (Demo.knownHistory 3 ++ l) = some (exOdom 3) := by
    have := Demo.known_ref (z := 3) (by norm_num) (by norm_num)
    rw [odomRef] at this ⊢
    rw [odomMsgs_append, List.foldl_append, this]
    show odomRefStep (some (exOdom 3)) (exOdom (3 + 1 / 25)) = some (exOdom 3)
    rw [odomRefStep, Option.map_some, hskip]
  have hmix : ¬ Quat.MixedHalfTurn ((anchor ⟨3 - 1, 0, 0⟩ 1 (exOdom 3)).rot * (exOdom 3).rot) := by
    rw [Demo.known_anchor]
    show ¬ Quat.MixedHalfTurn ((1 : Quat ℝ) * 1)
    rw [quat_one_mul]; exact Demo.one_not_mixed
  obtain ⟨_, _, _, hlag, hsame⟩ := C171_lag hK (Demo.env_valid 0) hs hr0 hr1 g2 hp href
    (m := exOdom (3 + 1 / 25)) rfl hmix
  refine ⟨n0, n, n1', n2, outs, outs', o, pos, rot, cov, hs, hr0, hr1, g2, hp, hK, ?_, ?_⟩
  · rw [hlag]
    show Real.sqrt ((3 - (3 + 1 / 25)) * (3 - (3 + 1 / 25)) + (0 - 0) * (0 - 0) + (0 - 0) * (0 - 0)) = 1 / 25
    rw [show ((3:ℝ) - (3 + 1 / 25)) * (3 - (3 + 1 / 25)) + (0 - 0) * (0 - 0) + (0 - 0) * (0 - 0) = (1 / 25) ^ 2 by norm_num]
    exact Real.sqrt_sq (by norm_num)
  · intro hc
    have := congrArg Vec3.x (hsame.1 hc).1
    simp only [exOdom] at this
    norm_num at this

/-- C171, exact: a first estimate two metres away is a jump; then and after the next used odometry the published transform
is the true place of the odometry frame, one metre behind the origin. -/
example : ∃ n0 n1 n2 outs o tfs t f, start Demo.PQ Demo.exactLib (Demo.env 0) Demo.motion0 = .ok n0 ∧
    run Demo.PQ Demo.exactLib n0 (Demo.knownHistory 3 ++ [(.cloud ⟨"laser", 4⟩ (Demo.msg 10), Demo.env 4),
      (.odom (exOdom 4), Demo.env 4)]) = .ok (n1, outs) ∧
    step Demo.PQ Demo.exactLib (Demo.env 5) n1 (.cloud ⟨"laser", 5⟩ (Demo.msg 10)) = .ok (n2, o) ∧
    .transforms tfs ∈ o ∧ tfs = [t, f] ∧ t.tf.trans = ⟨-1, 0, 0⟩ ∧ Quat.SameRotation t.tf.rot 1 := by
  set e1 : Event × Env := (.cloud ⟨"laser", 4⟩ (Demo.msg 10), Demo.env 4) with he1
  set e2 : Event × Env := (.odom (exOdom 4), Demo.env 4) with he2
  set e3 : Event × Env := (.cloud ⟨"laser", 5⟩ (Demo.msg 10), Demo.env 5) with he3
  have hpe1 : Demo.Plain e1 := Demo.plain_cloud _ _
  have hpe2 : Demo.Plain e2 := Demo.plain_odom _ _
  have hpe3 : Demo.Plain e3 := Demo.plain_cloud _ _
  have hall : ∀ e' ∈ Demo.knownHistory 3 ++ [e1, e2], Demo.Plain e' := by
    intro e' he'
    rcases List.mem_append.1 he' with h1 | h1
    · exact Demo.known_plain 3 _ h1
    · simp only [List.mem_cons, List.not_mem_nil, or_false] at h1
      rcases h1 with rfl | rfl
      · exact hpe1
      · exact hpe2
  obtain ⟨n0, hs, n2, os, hr⟩ := Demo.PQ_runs (h := Demo.knownHistory 3 ++ [e1, e2] ++ [e3]) (fun e' he' => by
    rcases List.mem_append.1 he' with h1 | h1
    · exact hall _ h1
    · rw [List.mem_singleton.1 h1]; exact hpe3)
  obtain ⟨n1, os1, o, g1, g2, rfl⟩ := run_snoc_ok hr
  obtain ⟨pos, rot, cov, hp⟩ := Demo.PQ_pose hall hs g1 g2 (s' := 4) (by
    have := Demo.batch_next 3 4 [] [e2] (by simp) (by simp [he2])
    rw [List.append_nil] at this
    rw [this]; exact Demo.batch_completes 5 4)
  have g1' := g1
  rw [run_append] at g1'
  obtain ⟨⟨n, outs⟩, hr0, hr0'⟩ := Outcome.bind_eq_ok_iff.1 g1'
  obtain ⟨⟨n1', outs'⟩, hr1, hr2⟩ := Outcome.bind_eq_ok_iff.1 hr0'
  simp only [Outcome.ok.injEq, Prod.mk.injEq] at hr2
  obtain ⟨rfl, _⟩ := hr2
  obtain ⟨na, oa, osa, k1, k2, _⟩ := run_cons_ok hr1
  have k1' : step Demo.PQ Demo.exactLib e1.2 n e1.1 = .ok (na, oa) := k1
  obtain ⟨pos1, rot1, cov1, hp1⟩ := Demo.PQ_pose (Demo.known_plain 3) hs hr0 k1' (s' := 2) (by
    have := Demo.batch_first 3 [] (by simp)
    rw [List.append_nil] at this
    rw [this]; exact Demo.batch_completes 4 2)
  have hrl : run Demo.PQ Demo.exactLib na [e2, e3] = .ok (n2, osa ++ [o]) := by
    show run Demo.PQ Demo.exactLib na ([e2] ++ [e3]) = _
    rw [run_append, k2, Outcome.bind_ok, run, show step Demo.PQ Demo.exactLib e3.2 n1' e3.1 = _ from g2, Outcome.bind_ok]
    rfl
  have hosa : osa.length = 1 := run_length k2
  have hu : AllUsed (exOdom 3) [exOdom 4] := by norm_num [AllUsed, exOdom]
  have hodo : odomMsgs [e1, e2, e3] = [exOdom 4] := rfl
  have hpl3 : ∀ e ∈ [e1, e2, e3], Demo.Plain e := by
    intro e he
    simp only [List.mem_cons, List.not_mem_nil, or_false] at he
    rcases he with rfl | rfl | rfl
    · exact hpe1
    · exact hpe2
    · exact hpe3
  have hK := Demo.known_pose (z := 3) (by norm_num) (by norm_num) hs hr0 hpl3 (by rw [hodo]; exact (allUsed_ref hu).1)
  have hest : na.loc.statePrev.pos = ⟨2, 0, 0⟩ := by
    have hx := (C114_node (P := Demo.PQ) hK.divYaw hK.likelihoodMin hK.matchWeight hK.biasVar.1 hK.biasVar.2
      (Demo.env_valid 0) (fun e he => hK.valid e (List.mem_append_left _ he)) hs hr0 k1' hp1 ⟨3 - 1, 0, 0⟩ 1
      hK.orientation (fun p hp => hK.agree _ (List.mem_map_of_mem hp))).1
    rw [hx]; norm_num
  have hprev : n.loc.statePrev = State6.default := by
    have h0 : n0.loc.statePrev = State6.default := by
      obtain ⟨_, ns, _, rfl⟩ := start_ok hs; rfl
    rw [← h0]
    exact Demo.quiet_prev hs hr0
  have hjump : EstimateJumped Demo.PQ n.loc.pf.particles.length n.loc.statePrev na.loc.statePrev := by
    right; left
    rw [hest, hprev]
    show Demo.PQ.jumpDist < Real.sqrt ((2 - 0) * (2 - 0) + (0 - 0) * (0 - 0) + (0 - 0) * (0 - 0))
    rw [show ((2:ℝ) - 0) * (2 - 0) + (0 - 0) * (0 - 0) + (0 - 0) * (0 - 0) = 2 ^ 2 by norm_num, Real.sqrt_sq (by norm_num)]
    norm_num [Demo.PQ, Demo.P0, Params.loadFrom, Server.dblD, Server.getDouble]
  obtain ⟨tfs, htf⟩ := (C99_published g2).2
    ⟨by simp [Demo.PQ, Demo.P0, Params.loadFrom, Server.boolD, Server.getBool], _, _, _, _, _, hp⟩
  have h1 : (1 : Quat ℝ) = ⟨0, 0, 0, 1⟩ := rfl
  obtain ⟨t, f, rfl, _, _, ⟨ht1, ht2⟩, _⟩ := C171_constant (P := Demo.PQ)
    (show 0 ≤ Demo.P0.lpfStep by rw [Demo.P0_lpfStep]; norm_num) hK (Demo.env_valid 0) hs hr0 k1' hrl hp1 hjump rfl
    (by rw [hodo]; exact hu)
    (by
      intro m hm
      rw [Demo.known_anchor, quat_one_mul]
      have : m.rot = 1 := by
        rw [hodo] at hm
        simp only [List.mem_cons, List.not_mem_nil, or_false] at hm
        rcases hm with rfl | rfl <;> rfl
      rw [this]; exact Demo.one_not_mixed)
    (by
      rw [Demo.known_anchor]
      show |((1 : Quat ℝ).rotate ⟨1, 0, 0⟩).z| < 1
      rw [(Quat.C29_one 1 _).2.2]
      norm_num) 2 o tfs (by
        rw [List.getElem?_cons_succ, List.getElem?_append_right (by omega), hosa]; rfl) htf
  rw [Demo.known_anchor] at ht1 ht2
  exact ⟨n0, n1', n2, _, o, _, t, f, hs, g1, g2, htf, rfl, ht1, ht2⟩

/-- C171, convergence: with a first estimate half a metre away, which is no jump, the hypotheses are met by two
measurements; the second shrinks the error to at most 31/33 of that of the first. -/
example : ∃ n0 n n1 n2 outs os1 os2 o1 o2 t1 f1 t2 f2, start Demo.PQ Demo.exactLib (Demo.env 0) Demo.motion0 = .ok n0 ∧
    run Demo.PQ Demo.exactLib n0 (Demo.knownHistory (3 / 2)) = .ok (n, outs) ∧
    run Demo.PQ Demo.exactLib n ([] ++ [(.cloud ⟨"laser", 4⟩ (Demo.msg 10), Demo.env 4)]) = .ok (n1, os1 ++ [o1]) ∧
    run Demo.PQ Demo.exactLib n1 ([(.odom (exOdom 4), Demo.env 4)] ++ [(.cloud ⟨"laser", 5⟩ (Demo.msg 10), Demo.env 5)]) =
      .ok (n2, os2 ++ [o2]) ∧
    .transforms [t1, f1] ∈ o1 ∧ .transforms [t2, f2] ∈ o2 ∧
    |t2.tf.trans.x - (-1)| ≤ 31 / 33 * |t1.tf.trans.x - (-1)| := by
  set e1 : Event × Env := (.cloud ⟨"laser", 4⟩ (Demo.msg 10), Demo.env 4) with he1
  set e2 : Event × Env := (.odom (exOdom 4), Demo.env 4) with he2
  set e3 : Event × Env := (.cloud ⟨"laser", 5⟩ (Demo.msg 10), Demo.env 5) with he3
  have hpe1 : Demo.Plain e1 := Demo.plain_cloud _ _
  have hpe2 : Demo.Plain e2 := Demo.plain_odom _ _
  have hpe3 : Demo.Plain e3 := Demo.plain_cloud _ _
  have hall : ∀ e' ∈ Demo.knownHistory (3 / 2) ++ [e1, e2], Demo.Plain e' := by
    intro e' he'
    rcases List.mem_append.1 he' with h1 | h1
    · exact Demo.known_plain (3 / 2) _ h1
    · simp only [List.mem_cons, List.not_mem_nil, or_false] at h1
      rcases h1 with rfl | rfl
      · exact hpe1
      · exact hpe2
  obtain ⟨n0, hs, n2, os, hr⟩ := Demo.PQ_runs (h := Demo.knownHistory (3 / 2) ++ [e1, e2] ++ [e3]) (fun e' he' => by
    rcases List.mem_append.1 he' with h1 | h1
    · exact hall _ h1
    · rw [List.mem_singleton.1 h1]; exact hpe3)
  obtain ⟨n1, os1, o, g1, g2, rfl⟩ := run_snoc_ok hr
  obtain ⟨pos, rot, cov, hp⟩ := Demo.PQ_pose hall hs g1 g2 (s' := 4) (by
    have := Demo.batch_next (3 / 2) 4 [] [e2] (by simp) (by simp [he2])
    rw [List.append_nil] at this
    rw [this]; exact Demo.batch_completes 5 4)
  have g1' := g1
  rw [run_append] at g1'
  obtain ⟨⟨n, outs⟩, hr0, hr0'⟩ := Outcome.bind_eq_ok_iff.1 g1'
  obtain ⟨⟨n1', outs'⟩, hr1, hr2⟩ := Outcome.bind_eq_ok_iff.1 hr0'
  simp only [Outcome.ok.injEq, Prod.mk.injEq] at hr2
  obtain ⟨rfl, _⟩ := hr2
  obtain ⟨na, oa, osa, k1, k2, _⟩ := run_cons_ok hr1
  have k1' : step Demo.PQ Demo.exactLib e1.2 n e1.1 = .ok (na, oa) := k1
  obtain ⟨pos1, rot1, cov1, hp1⟩ := Demo.PQ_pose (Demo.known_plain (3 / 2)) hs hr0 k1' (s' := 2) (by
    have := Demo.batch_first (3 / 2) [] (by simp)
    rw [List.append_nil] at this
    rw [this]; exact Demo.batch_completes 4 2)
  have hra : run Demo.PQ Demo.exactLib n ([] ++ [e1]) = .ok (na, [] ++ [oa]) := by
    rw [List.nil_append, run, k1', Outcome.bind_ok]; rfl
  have hrl : run Demo.PQ Demo.exactLib na ([e2] ++ [e3]) = .ok (n2, osa ++ [o]) := by
    rw [run_append, k2, Outcome.bind_ok, run, show step Demo.PQ Demo.exactLib e3.2 n1' e3.1 = _ from g2, Outcome.bind_ok]
    rfl
  have hu : AllUsed (exOdom (3 / 2)) [exOdom 4] := by norm_num [AllUsed, exOdom]
  have hodo : odomMsgs (([] ++ [e1]) ++ ([e2] ++ [e3])) = [exOdom 4] := rfl
  have hpl3 : ∀ e ∈ ([] ++ [e1]) ++ ([e2] ++ [e3]), Demo.Plain e := by
    intro e he
    simp only [List.nil_append, List.cons_append, List.mem_cons, List.not_mem_nil, or_false] at he
    rcases he with rfl | rfl | rfl
    · exact hpe1
    · exact hpe2
    · exact hpe3
  have hK := Demo.known_pose (z := 3 / 2) (by norm_num) (by norm_num) hs hr0 hpl3 (by rw [hodo]; exact (allUsed_ref hu).1)
  have hpub : Demo.PQ.publishTf = true := by simp [Demo.PQ, Demo.P0, Params.loadFrom, Server.boolD, Server.getBool]
  obtain ⟨tfs1, ht1⟩ := (C99_published k1').2 ⟨hpub, _, _, _, _, _, hp1⟩
  obtain ⟨tfs2, ht2⟩ := (C99_published g2).2 ⟨hpub, _, _, _, _, _, hp⟩
  have hT : 0 ≤ Demo.PQ.lpfStep := show 0 ≤ Demo.P0.lpfStep by rw [Demo.P0_lpfStep]; norm_num
  have two : ∀ {hh : History} {ee : Event × Env} {nn : Node Unit} {oo : List (List Out)} {o' : List Out} {tfs : List TfMsg},
      run Demo.PQ Demo.exactLib n0 (hh ++ [ee]) = .ok (nn, oo ++ [o']) → .transforms tfs ∈ o' → ∃ t f, tfs = [t, f] := by
    intro hh ee nn oo o' tfs hr ht
    obtain ⟨t, f, _, _, _, _, _, _, h, _⟩ := C134_smoothing hT hs hr ht
    exact ⟨t, f, h⟩
  obtain ⟨t1, f1, rfl⟩ := two (hh := Demo.knownHistory (3 / 2)) (ee := e1) (nn := na) (oo := outs) (o' := oa) (by
    have := hra
    rw [List.nil_append] at this
    rw [run_append, hr0, Outcome.bind_ok, this]; rfl) ht1
  obtain ⟨t2, f2, rfl⟩ := two hr ht2
  have hosa : posesIn osa = 0 := by
    obtain ⟨nb, ob, osb, m1, m2, rfl⟩ := run_cons_ok k2
    simp only [run, Outcome.ok.injEq, Prod.mk.injEq] at m2
    rw [← m2.2]
    have : (ob.findSome? Out.poseCov).isSome = false := by
      by_contra hc
      rw [Bool.not_eq_false] at hc
      obtain ⟨_, _, _, _, _, hx⟩ := poseCov_mem hc
      rcases step_cases m1 with ⟨_, h4 | ⟨b, rfl | ⟨rfl, _⟩⟩⟩ | ⟨_, _, _, _, _, _, hev, _⟩
      · exact absurd (h4 _ hx) id
      · simp at hx
      · simp [publishStatus] at hx
      · cases hev
    simp [posesIn, this]
  obtain ⟨hc, _, _⟩ := C171_converges (P := Demo.PQ) hT hK (Demo.env_valid 0) hs hr0 hra hrl rfl
    (by rw [hodo]; exact hu)
    (by
      intro m hm
      rw [Demo.known_anchor, quat_one_mul]
      have : m.rot = 1 := by
        rw [hodo] at hm
        simp only [List.mem_cons, List.not_mem_nil, or_false] at hm
        rcases hm with rfl | rfl <;> rfl
      rw [this]; exact Demo.one_not_mixed) ht1 ht2
  rw [hosa, Demo.known_anchor, show Demo.PQ.lpfStep = 16 from Demo.P0_lpfStep] at hc
  refine ⟨n0, n, na, n2, outs, [], osa, oa, o, t1, f1, t2, f2, hs, hr0, hra, hrl, ht1, ht2, ?_⟩
  have : |((2:ℝ) * 16 - 1) / (2 * 16 + 1)| ^ (0 + 1) = 31 / 33 := by
    rw [zero_add, pow_one, abs_of_pos (by norm_num)]; norm_num
  rw [this] at hc
  exact hc

end Node
end Mcl3dl
