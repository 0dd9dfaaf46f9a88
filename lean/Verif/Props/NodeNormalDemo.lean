import Verif.Props.NodeNormal
import Verif.Props.NodeDemoPose

/-! # C147: runs to which its theorems apply -/

set_option linter.unusedSectionVars false

namespace Mcl3dl
namespace Node
namespace Demo

/-- The default parameters with the sampler that uses normals, two points to select, and initial positions that
are uncertain along the x axis only. -/
noncomputable def PN : Params :=
  { P0 with
    useNormalSampler := true
    like := { P0.like with numDefault := 2 }
    initialPoseStd := { P0.initialPoseStd with pos := ⟨1, 0, 0⟩, rpy := ⟨0, 0, 0⟩ } }

theorem PN_accum : PN.accumCloud ≠ 0 := by
  simp [PN, P0, Params.loadFrom, Server.intD, Server.getInt]

/-- Fair random numbers. -/
noncomputable def fairCanon : ℕ → ℝ := Sampler.fair_exists.choose

theorem fairCanon_fair : Sampler.Fair fairCanon := Sampler.fair_exists.choose_spec

/-- An environment with fair random numbers and known normals. -/
noncomputable def envN (t : ℝ) : Env :=
  { env t with canon := fun _ => fairCanon, normals := fun pts => pts.map fun _ => some ⟨0, 0, 1⟩ }

theorem envN_valid (t : ℝ) : (envN t).Valid where
  voxel := (env_valid t).voxel
  sort := (env_valid t).sort
  covIdx := (env_valid t).covIdx
  unit := (env_valid t).unit
  index := (env_valid t).index
  canon := fun _ k => fairCanon_fair.1 k
  normals := fun pts => by simp [envN]
  order := (env_valid t).order

/-- A library with an eigen solver. -/
noncomputable def libN : Lib Unit := { lib with solve3 := Sampler.solver_exists.choose }

theorem libN_solves : Solves libN.solve3 := Sampler.solver_exists.choose_spec

theorem worksN : Works PN libN fun _ => True where
  sound := ⟨⟨1, 1, 1⟩, le_rfl, by intro pts q r k e he; simp [libN, lib] at he⟩
  rays := by
    intro m b _ l s w _ _
    refine ⟨.long, (), ?_, trivial⟩
    unfold Lidar.getBeamStatus
    rw [show (caster PN libN m).setRay w l s = .ok w from rfl, Outcome.bind_ok, loopO_eq]
    simp [caster, libN, lib, Lidar.beamRound]
  init := trivial

theorem sensible_PN : Sensible PN := by
  have h := sane_P0.toSensible
  exact ⟨h.particles, h.skip, h.lpf, h.like, h.unmatch, h.accum, h.divYaw, h.grid⟩

theorem wellN : SamplesWell PN where
  weight := by norm_num [PN, P0, Params.loadFrom, Server.dblD, Server.getDouble]
  ratio := by norm_num [PN, P0, Params.loadFrom, Server.dblD, Server.getDouble]

theorem measuresN : Measures PN := by
  obtain ⟨h1, h2, h3, h4, h5, h6, h7, h8, h9, h10, h11⟩ := measures
  exact ⟨h1, h2, h3, h4, h5, h6, h7, h8, h9, h10, ⟨h11.1, by norm_num [PN]⟩⟩

/-- A cloud message with three points. -/
def msg3 : Conv.Msg where
  fields := [⟨"x", .f32⟩, ⟨"y", .f32⟩, ⟨"z", .f32⟩]
  size := 3
  asFloat := fun i f => if f = 0 then i + 1 else 0
  asUInt := fun _ _ => 0

theorem fromROSMsg_msg3 :
    Conv.fromROSMsg msg3 [] = (true, [⟨⟨1, 0, 0⟩, 0, 0⟩, ⟨⟨2, 0, 0⟩, 0, 0⟩, ⟨⟨3, 0, 0⟩, 0, 0⟩]) := by
  simp [Conv.fromROSMsg, Conv.Msg.has, msg3, Conv.fromROSMsgImpl, Conv.copyPoint, Conv.rawPoint,
    Conv.Msg.float, Conv.Msg.index, List.findIdx?_cons, Conv.Point.default]
  norm_num

theorem regular_msg3 : Regular msg3 := by
  intro k hk
  simp only [List.mem_cons, List.not_mem_nil, or_false] at hk
  rcases hk with rfl | rfl | rfl <;>
    simp [msg3, Conv.Msg.index, List.findIdx?_cons]

theorem validCloud_msg3 : validCloud msg3 = true := by
  rw [← fromROSMsg_valid, fromROSMsg_msg3]

theorem scanOf_msg3 (P : Params) (t : ℝ) (header : Header) :
    scanOf P (envN t) header msg3 = some ⟨header, [⟨1, 0, 0⟩, ⟨2, 0, 0⟩, ⟨3, 0, 0⟩]⟩ := by
  have h1 : (envN t).tf P.odomFrame header.frame header.stamp = some tf0 := rfl
  simp [scanOf, h1, validCloud_msg3, cloudPoints, fromROSMsg_msg3, tf0_point]

/-- A map and a cloud of three points. -/
noncomputable def historyN : History :=
  [(.mapcloud 1 (msg 10), envN 1), (.cloud ⟨"laser", 2⟩ msg3, envN 2)]

/-- The next cloud. -/
noncomputable def nextN : Event × Env := (.cloud ⟨"laser", 3⟩ (msg 10), envN 3)

theorem historyN_valid : ∀ e ∈ historyN ++ [nextN], e.2.Valid := by
  simp [historyN, nextN, envN_valid]

theorem historyN_safe : ∀ e ∈ historyN ++ [nextN], e.2.Valid ∧ KeepsPoints e.2 ∧ SafeEvent e.1 := by
  have hx : ∀ x, HasXYZ (msg x) := by simp [HasXYZ, msg]
  have hx3 : HasXYZ msg3 := by simp [HasXYZ, msg3]
  have hk : ∀ t, KeepsPoints (envN t) := fun t _ _ h => h
  simp [historyN, nextN, SafeEvent, hx, hx3, envN_valid, hk]

theorem historyN_regular : RegularClouds (historyN ++ [nextN]) := by
  intro e he header m hm
  simp only [historyN, nextN, List.cons_append, List.nil_append, List.mem_cons, List.not_mem_nil, or_false] at he
  rcases he with rfl | rfl | rfl
  · cases hm
  · cases hm; exact regular_msg3
  · cases hm; exact regular_msg _

theorem historyN_view : batchView PN historyN = (true, [⟨⟨"laser", 2⟩, [⟨1, 0, 0⟩, ⟨2, 0, 0⟩, ⟨3, 0, 0⟩]⟩]) := by
  have hn : ¬ completes PN [] "laser" := not_completes_nil "laser"
  simp [batchView, historyN, batchStep, mapAvailable, validCloud_msg, hn, scanOf_msg3, PN_accum]

theorem historyN_step : (batchStep PN (batchView PN historyN).1 (batchView PN historyN).2 nextN).1 =
    some ([] ++ [⟨⟨"laser", 2⟩, [⟨1, 0, 0⟩, ⟨2, 0, 0⟩, ⟨3, 0, 0⟩]⟩]) := by
  have hc : ∀ s pts, completes PN [⟨⟨"laser", s⟩, pts⟩] "laser" := completes_one
  rw [historyN_view]
  simp [batchStep, nextN, hc, PN_accum]

theorem offeredN (s : ℝ) : offered PN (envN 3) tf0 ([] ++ [⟨⟨"laser", s⟩, [⟨1, 0, 0⟩, ⟨2, 0, 0⟩, ⟨3, 0, 0⟩]⟩]) PN.like.clip =
    [⟨⟨1, 0, 0⟩, 0⟩, ⟨⟨2, 0, 0⟩, 0⟩, ⟨⟨3, 0, 0⟩, 0⟩] := by
  have e : PN.like.clip = ⟨1 / 2, 10, -2, 2⟩ := by
    simp [PN, P0, Params.loadFrom, Params.loadLike, Server.dblD, Server.getDouble]
  have hin : ∀ x : ℝ, 1 ≤ x → x ≤ 3 → inClip PN.like.clip ⟨x, 0, 0⟩ := by
    intro x h1 h2
    rw [e]
    unfold inClip
    refine ⟨?_, ?_, by norm_num, by norm_num⟩
    · simp only; nlinarith
    · simp only; nlinarith
  unfold offered
  simp only [List.nil_append, labelled_single, envN, env, List.map_cons, List.map_nil, tf0_point]
  classical
  rw [List.filter_eq_self.2]
  intro p hp
  simp only [List.mem_cons, List.not_mem_nil, or_false] at hp
  rcases hp with rfl | rfl | rfl <;> simp only [decide_eq_true_eq] <;> apply hin <;> norm_num

/-- Map and cloud leave the particles alone. -/
theorem historyN_pf {env0 : Env} {n0 n : Node Unit} {outs : List (List Out)} (hs : start PN libN env0 motion0 = .ok n0)
    (hr : run PN libN n0 historyN = .ok (n, outs)) : n.loc.pf = n0.loc.pf := by
  obtain ⟨n1, o1, os, h1, hr, _⟩ := run_cons_ok hr
  obtain ⟨n3, o3, os3, h3, hr, _⟩ := run_cons_ok hr
  simp only [run, Outcome.ok.injEq, Prod.mk.injEq] at hr
  obtain ⟨rfl, _⟩ := hr
  have b0 := start_batch hs
  obtain ⟨b1, _, _⟩ := step_batch b0 (by simp) h1
  rcases cbMapcloud_ok (show cbMapcloud PN (envN 1) n0 1 (msg 10) = .ok (n1, o1) from h1) with ⟨hf, _⟩ | ⟨_, hl⟩
  · rw [fromROSMsg_msg] at hf; cases hf
  obtain ⟨_, _, _, _, e2, _⟩ := load_frame hl
  obtain ⟨_, f2, _, _, hcase⟩ := cbCloud_loc (show cbCloud PN libN (envN 2) _ ⟨"laser", 2⟩ msg3 = .ok (n3, o3) from h3)
  have hk : n3.loc = (freshen (envN 2) n1).loc := by
    rcases hcase with ⟨hk, _, _⟩ | ⟨_, acc, c, hcore⟩
    · exact hk
    · obtain ⟨_, b4, _⟩ := step_batch b1 (by rintro _ _ ⟨⟩; exact regular_msg3) h3
      have hn : ¬ completes PN [] "laser" := not_completes_nil "laser"
      have hnone : (batchStep PN (mapAvailable false (Event.mapcloud 1 (msg 10)))
            (batchStep PN false [] (Event.mapcloud 1 (msg 10), envN 1)).2
          (Event.cloud ⟨"laser", 2⟩ msg3, envN 2)).1 = none := by
        simp [batchStep, mapAvailable, validCloud_msg, hn, PN_accum]
      have hmin := b4 hnone
      obtain ⟨_, _, ⟨_, _, hk, _⟩ | ⟨_, hme⟩⟩ := measureCore_ok hcore
      · exact hk
      generalize n3.loc = loc2 at hme
      cases hme with
      | noHeader _ => rfl
      | noTf _ _ _ => rfl
      | noOrigin _ _ _ _ => rfl
      | noPoints _ _ _ _ _ => exact absurd (hmin _ List.mem_cons_self) id
      | localized _ _ _ _ _ _ _ _ => exact absurd (hmin _ List.mem_cons_self) id
  rw [hk]
  show n1.loc.pf = n0.loc.pf
  rw [e2]

/-- The particles of the new node: where the random numbers put them along the x axis. -/
theorem startN {env0 : Env} {n0 : Node Unit} (hs : start PN libN env0 motion0 = .ok n0) :
    n0.loc.pf.particles.length = 64 ∧ ∃ idx : ℕ → ℕ, Function.Injective idx ∧
      ∀ k (hk : k < n0.loc.pf.particles.length), n0.loc.pf.particles[k].prob = 1 / 64 ∧
        n0.loc.pf.particles[k].state.pos = ⟨env0.normal 0 (idx k), 0, 0⟩ ∧
        Quat.SameRotation n0.loc.pf.particles[k].state.rot 1 := by
  obtain ⟨_, ns, hns, rfl⟩ := start_ok hs
  obtain ⟨hl, idx, hfr, hpick⟩ := noiseStates_spec hns
  have hnum : PN.numParticles.toNat = 64 := by
    simp [PN]
  have hp1 : PN.initialPose.pos = ⟨0, 0, 0⟩ := P0_initialPose.1
  have hp2 : PN.initialPose.rot = 1 := P0_initialPose.2
  have hlen : ∀ f, ((PF.Filter.new State6.default env0.junk PN.numParticles.toNat).init f : Filter).particles.length = 64 := by
    intro f; rw [hnum]; simp [PF.Filter.init, PF.Filter.new]
  have hs0 : sigmas PN.initialPoseStd 0 = 1 := rfl
  have hsi : ∀ i : Fin 6, i ≠ 0 → sigmas PN.initialPoseStd i = 0 := by
    intro i hi
    fin_cases i
    · exact absurd rfl hi
    all_goals rfl
  refine ⟨hlen _, fun k => idx k 0, ?_, ?_⟩
  · intro k k' he
    exact (hfr k 0 k' 0 (by rw [hs0]; norm_num) (by rw [hs0]; norm_num) he).1
  · intro k hk
    have hk64 : k < 64 := by rw [← hlen (pickNoise ns)]; exact hk
    have hst : ∀ f, ((PF.Filter.new State6.default env0.junk PN.numParticles.toNat).init f : Filter).particles[k]?.map
        (fun p => (p.state, p.prob)) = some (f k, 1 / 64) := by
      intro f; rw [hnum]; simp [PF.Filter.init, PF.Filter.new, hk64]
    have := hst (pickNoise ns)
    rw [List.getElem?_eq_getElem hk] at this
    simp only [Option.map_some, Option.some.injEq, Prod.mk.injEq] at this
    refine ⟨this.2, ?_, ?_⟩
    · rw [this.1, hpick k (by rw [hnum]; exact hk64)]
      simp only [noiseState, noiseComp, hs0, hsi 1 (by decide), hsi 2 (by decide), State6.meanVec, hp1]
      ext <;> simp
    · rw [this.1, hpick k (by rw [hnum]; exact hk64)]
      have : (noiseState PN.initialPose (noiseComp env0 0 PN.initialPose PN.initialPoseStd (idx k))).rot =
          Quat.ofRPY PN.initialPose.rot.getRPY := by
        simp only [noiseState, noiseComp, hsi 3 (by decide), hsi 4 (by decide), hsi 5 (by decide), zero_mul, add_zero,
          State6.meanVec]
        rfl
      rw [this, hp2]
      apply Quat.C34_roundtrip
      · show (0:ℝ) * 0 + 0 * 0 + 0 * 0 + 1 * 1 = 1; norm_num
      · rw [Quat.rotate_z]
        show |_| < (1:ℝ)
        simp [show (1 : Quat ℝ) = ⟨0, 0, 0, 1⟩ from rfl]

theorem counted_all {α : Type} {acc : ℝ} {l : List (ℝ × α)} (hw : ∀ a ∈ l, 0 ≤ a.1)
    (h : acc + (l.map Prod.fst).sum ≤ 1) : counted acc l = l := by
  induction l generalizing acc with
  | nil => rfl
  | cons a l ih =>
    simp only [List.map_cons, List.sum_cons] at h
    have hnn : 0 ≤ (l.map Prod.fst).sum := List.sum_nonneg (by
      intro x hx
      obtain ⟨b, hb, rfl⟩ := List.mem_map.1 hx
      exact hw b (List.mem_cons_of_mem _ hb))
    rw [counted, if_neg (by linarith), ih (fun b hb => hw b (List.mem_cons_of_mem _ hb)) (by linarith)]

/-- Initial random numbers that differ. -/
noncomputable def env0N : Env := { envN 0 with normal := fun _ k => k }

theorem env0N_valid : env0N.Valid where
  voxel := (env_valid 0).voxel
  sort := (env_valid 0).sort
  covIdx := (env_valid 0).covIdx
  unit := (env_valid 0).unit
  index := (env_valid 0).index
  canon := (envN_valid 0).canon
  normals := (envN_valid 0).normals
  order := (env_valid 0).order

/-- With these the particles tell an axis. -/
theorem axisN {n0 : Node Unit} (hs : start PN libN env0N motion0 = .ok n0) :
    ¬ NoAxis PN.numParticles (weighted n0) := by
  obtain ⟨hlen, idx, hinj, hp⟩ := startN hs
  have hmem : ∀ p ∈ n0.loc.pf.particles, p.prob = 1 / 64 ∧ Quat.SameRotation p.state.rot 1 := by
    intro p hpm
    obtain ⟨k, hk, rfl⟩ := List.getElem_of_mem hpm
    exact ⟨(hp k hk).1, (hp k hk).2.2⟩
  have hprob : (weighted n0).map Prod.fst = List.replicate 64 (1 / 64) := by
    unfold weighted
    rw [List.map_map]
    refine List.eq_replicate_iff.2 ⟨by simp [hlen], fun b hb => ?_⟩
    obtain ⟨p, hpm, rfl⟩ := List.mem_map.1 hb
    exact (hmem p hpm).1
  have hc : counted 0 (weighted n0) = weighted n0 := by
    apply counted_all
    · intro a ha
      obtain ⟨p, hpm, rfl⟩ := List.mem_map.1 ha
      show 0 ≤ p.prob
      rw [(hmem p hpm).1]; norm_num
    · rw [hprob]; norm_num
  rintro (⟨used, hu, hall⟩ | hcr)
  · have hue : used = weighted n0 := by
      rw [hu.2.1 (by simp [weighted, hlen, PN]), hc]
    have h0 : 0 < n0.loc.pf.particles.length := by rw [hlen]; norm_num
    have h1 : 1 < n0.loc.pf.particles.length := by rw [hlen]; norm_num
    have := hall _ (by rw [hue]; exact List.mem_map_of_mem (List.getElem_mem h0)) _
      (by rw [hue]; exact List.mem_map_of_mem (List.getElem_mem h1))
    simp only at this
    rw [(hp 0 h0).2.1, (hp 1 h1).2.1] at this
    have hx : ((idx 0 : ℕ) : ℝ) = idx 1 := congrArg Vec3.x this
    have := hinj (Nat.cast_injective hx)
    omega
  · rw [hc] at hcr
    have hrot : ∀ v : Vec3 ℝ, (weighted n0).map (fun a => (a.1, a.2.2.rotate v)) = List.replicate 64 (1 / 64, v) := by
      intro v
      unfold weighted
      rw [List.map_map]
      refine List.eq_replicate_iff.2 ⟨by simp [hlen], fun b hb => ?_⟩
      obtain ⟨p, hpm, rfl⟩ := List.mem_map.1 hb
      obtain ⟨h1, h2⟩ := hmem p hpm
      have h3 : p.state.rot.rotate v = v := by
        rcases h2 with h2 | h2 <;> rw [h2] <;> ext <;>
          simp [Quat.rotate_x, Quat.rotate_y, Quat.rotate_z, show (1 : Quat ℝ) = ⟨0, 0, 0, 1⟩ from rfl]
      simp only [Function.comp, h1, h3]
    rw [hrot, hrot] at hcr
    have := congrArg Vec3.y hcr
    simp [weightedSum, Vec3.cross] at this
    norm_num at this

end Demo

open Demo in
/-- C147_no_crash is not empty: with particles that tell an axis the node selects two of three points (whose normals
are known) and publishes a pose. -/
example : ∃ n0 n1 n outs o, start PN libN env0N motion0 = .ok n0 ∧ run PN libN n0 historyN = .ok (n1, outs) ∧
    run PN libN n0 (historyN ++ [nextN]) = .ok (n, outs ++ [o]) ∧
    (∃ pos rot cov, .pose 2 PN.mapFrame pos rot cov ∈ o) ∧
    ∃ st, StatisticsOf PN.numParticles (weighted n1) st := by
  obtain ⟨n0, hs, ⟨n, outs, hr, hl⟩ | ⟨h1, e, h2, n, outs, hh, hr, hb, hbad⟩⟩ := C147_no_crash sensible_PN rfl wellN
    (by norm_num [PN, P0, Params.loadFrom, Server.dblD, Server.getDouble]) worksN libN_solves env0N motion0
    (historyN ++ [nextN]) historyN_safe historyN_regular (by
      intro e he call
      simp only [historyN, nextN, List.cons_append, List.nil_append, List.mem_cons, List.not_mem_nil, or_false] at he
      rcases he with rfl | rfl | rfl <;> exact fairCanon_fair)
  · obtain ⟨n1, os, o, g1, g2, rfl⟩ := run_snoc_ok hr
    refine ⟨n0, n1, n, os, o, hs, g1, hr, ?_⟩
    have hm : batches [o] = [true] := by
      rcases C111_batches historyN_regular hs hr with ⟨h3, _⟩ | ⟨_, _, _, h3 | h3⟩
      · rw [historyN_step] at h3; cases h3
      · exact h3
      · exfalso
        rcases (step_view (by simp [PN]) (envN_valid 3) g2).batch with ⟨hbn, _⟩ | ⟨_, _, ⟨hne, _⟩ | ⟨_, hbt⟩⟩
        · rw [h3] at hbn; cases hbn
        · exact hne (by simp [PN, Params.toSize, Nat.mod_one])
        · rw [h3] at hbt; cases hbt
    have hC := (C112_measured (P := PN) (by
      simp [PN, P0, Params.loadFrom, Params.loadLike, Server.intD, Server.getInt, Params.toSize]) env0N_valid historyN_valid
      historyN_regular hs hr historyN_step hm).2
    obtain ⟨⟨pos, rot, cov, hf⟩, _⟩ := (hC ⟨by simp [nextN, envN, env], fun _ _ => by simp [nextN, envN, env]⟩ tf0 rfl).2 (by
      have := offeredN 2
      intro h0
      have h1 : usablePoints PN (envN 3) tf0 ([] ++ [⟨⟨"laser", 2⟩, [⟨1, 0, 0⟩, ⟨2, 0, 0⟩, ⟨3, 0, 0⟩]⟩]) =
        offered PN (envN 3) tf0 ([] ++ [⟨⟨"laser", 2⟩, [⟨1, 0, 0⟩, ⟨2, 0, 0⟩, ⟨3, 0, 0⟩]⟩]) PN.like.clip := rfl
      change usablePoints PN (envN 3) tf0 _ = [] at h0
      rw [h1, this] at h0
      cases h0)
    have hpm : Out.pose 2 PN.mapFrame pos rot cov ∈ o.filter (fun x => (Out.poseCov x).isSome) := by rw [hf]; simp
    have hpm := (List.mem_filter.1 hpm).1
    refine ⟨⟨pos, rot, cov, hpm⟩, ?_⟩
    obtain ⟨st, _, _, hst, _⟩ := C147_statistics measuresN rfl libN_solves env0N_valid historyN_valid historyN_regular hs g1 hr
      (by rw [historyN_pf hs g1]
          exact List.length_pos_iff.1 (by rw [(startN hs).1]; norm_num)) historyN_step rfl hpm
    exact ⟨st, hst⟩
  · exfalso
    have hn : ¬ completes PN [] "laser" := not_completes_nil "laser"
    rcases h1 with _ | ⟨a, _ | ⟨b, _ | ⟨c, h1⟩⟩⟩ <;>
      simp only [historyN, List.cons_append, List.nil_append, List.cons.injEq] at hh
    · rw [← hh.1] at hb
      exact hb rfl
    · rw [← hh.1, ← hh.2.1] at hb
      apply hb
      simp [batchView, batchStep, mapAvailable, validCloud_msg, hn, PN_accum]
    · have : run PN libN n0 historyN = .ok (n, outs) := by rw [← hr, ← hh.1, ← hh.2.1]; rfl
      have hpf := historyN_pf hs this
      apply axisN hs
      rw [weighted, ← hpf]
      exact hbad
    · have := congrArg List.length hh.2.2.2
      simp at this

open Demo in
/-- C147_stuck is not empty: with an initial pose that is exactly known the same clouds stop the node. -/
example : ∃ n0 n1 outs, start PN libN (envN 0) motion0 = .ok n0 ∧ run PN libN n0 historyN = .ok (n1, outs) ∧
    ∀ r, run PN libN n0 (historyN ++ [nextN]) ≠ .ok r := by
  obtain ⟨n0, hs, ⟨n, outs, hr, hl⟩ | ⟨h1, e, h2, n, outs, hh, hr, hb, hbad⟩⟩ := C147_no_crash sensible_PN rfl wellN
    (by norm_num [PN, P0, Params.loadFrom, Server.dblD, Server.getDouble]) worksN libN_solves (envN 0) motion0
    historyN (fun e he => historyN_safe e (List.mem_append_left _ he))
    (fun e he => historyN_regular e (List.mem_append_left _ he)) (by
      intro e he call
      simp only [historyN, List.mem_cons, List.not_mem_nil, or_false] at he
      rcases he with rfl | rfl <;> exact fairCanon_fair)
  · refine ⟨n0, n, outs, hs, hr, ?_⟩
    obtain ⟨hlen, idx, _, hp⟩ := startN hs
    have hpf := historyN_pf hs hr
    refine C147_stuck (P := PN) ?_ rfl (by simp [PN]) sensible_PN.divYaw libN_solves (envN_valid 0) historyN_valid
      historyN_regular hs hr historyN_step (t := tf0) rfl (fun _ _ => by simp [nextN, envN, env]) ?_ (x := ⟨0, 0, 0⟩) ?_ ?_
      (v := ⟨0, 0, 1⟩) ?_
    · exact measuresN
    · rw [hpf, hlen]; simp [PN]
    · rw [hpf]
      intro p hpm
      obtain ⟨k, hk, rfl⟩ := List.getElem_of_mem hpm
      rw [(hp k hk).2.1]; rfl
    · rw [show nextN.2 = envN 3 from rfl, offeredN]; simp [PN]
    · rw [show nextN.2 = envN 3 from rfl, offeredN]; simp [envN]
  · exfalso
    have hn : ¬ completes PN [] "laser" := not_completes_nil "laser"
    rcases h1 with _ | ⟨a, _ | ⟨b, h1⟩⟩ <;>
      simp only [historyN, List.cons_append, List.nil_append, List.cons.injEq] at hh
    · rw [← hh.1] at hb
      exact hb rfl
    · rw [← hh.1, ← hh.2.1] at hb
      apply hb
      simp [batchView, batchStep, mapAvailable, validCloud_msg, hn, PN_accum]
    · have := congrArg List.length hh.2.2
      simp at this

end Node
end Mcl3dl
