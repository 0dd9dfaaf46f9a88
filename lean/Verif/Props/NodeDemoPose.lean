import Verif.Props.NodeMatchRate
import Verif.Proofs.NodeDemoExact

/-! # A run of the demo node in which a pose is published and known -/

set_option linter.unusedSectionVars false

namespace Mcl3dl
namespace Node
namespace Demo

/-- A cloud message with two points. -/
def msg2 (x y : ℝ) : Conv.Msg where
  fields := [⟨"x", .f32⟩, ⟨"y", .f32⟩, ⟨"z", .f32⟩]
  size := 2
  asFloat := fun i f => if f = 0 then (if i = 0 then x else y) else 0
  asUInt := fun _ _ => 0

theorem fromROSMsg_msg2 (x y : ℝ) :
    Conv.fromROSMsg (msg2 x y) [] = (true, [⟨⟨x, 0, 0⟩, 0, 0⟩, ⟨⟨y, 0, 0⟩, 0, 0⟩]) := by
  simp [Conv.fromROSMsg, Conv.Msg.has, msg2, Conv.fromROSMsgImpl, Conv.copyPoint, Conv.rawPoint,
    Conv.Msg.float, Conv.Msg.index, List.findIdx?_cons, Conv.Point.default]

theorem regular_msg2 (x y : ℝ) : Regular (msg2 x y) := by
  intro k hk
  simp only [List.mem_cons, List.not_mem_nil, or_false] at hk
  rcases hk with rfl | rfl | rfl <;>
    simp [msg2, Conv.Msg.index, List.findIdx?_cons]

theorem validCloud_msg2 (x y : ℝ) : validCloud (msg2 x y) = true := by
  rw [← fromROSMsg_valid, fromROSMsg_msg2]

theorem scanOf_msg2 (P : Params) (t : ℝ) (header : Header) (x y : ℝ) :
    scanOf P (env t) header (msg2 x y) = some ⟨header, [⟨x, 0, 0⟩, ⟨y, 0, 0⟩]⟩ := by
  have h1 : (env t).tf P.odomFrame header.frame header.stamp = some tf0 := rfl
  simp [scanOf, h1, validCloud_msg2, cloudPoints, fromROSMsg_msg2, tf0_point]

theorem usable_msg2 (t s x y : ℝ) (h1 : 1 / 2 ≤ x) (h2 : x ≤ 10) :
    usablePoints P0 (env t) tf0 [⟨⟨"laser", s⟩, [⟨x, 0, 0⟩, ⟨y, 0, 0⟩]⟩] ≠ [] := by
  have h := usable_msg t s x h1 h2
  unfold usablePoints at h ⊢
  rw [List.ne_nil_iff_length_pos, List.length_pos_iff_exists_mem] at h ⊢
  obtain ⟨p, hp⟩ := h
  refine ⟨p, ?_⟩
  rw [List.mem_filter] at hp ⊢
  refine ⟨?_, hp.2⟩
  have := hp.1
  simp only [env, labelled_single, List.map_cons, List.map_nil, List.mem_cons, List.not_mem_nil, or_false] at this ⊢
  exact .inl this

/-- A map with one point, more particles than configured, and a cloud of two points. -/
noncomputable def poseHistory (m x y : ℝ) : History :=
  [(.mapcloud 1 (msg m), env 1), (.resize 65, env 2), (.cloud ⟨"laser", 3⟩ (msg2 x y), env 3)]

theorem poseHistory_valid (m x y : ℝ) : ∀ e ∈ poseHistory m x y, e.2.Valid := by
  simp [poseHistory, env_valid]

theorem poseHistory_regular (m x y : ℝ) : RegularClouds (poseHistory m x y) := by
  intro e he header msg hm
  simp only [poseHistory, List.mem_cons, List.not_mem_nil, or_false] at he
  rcases he with rfl | rfl | rfl <;> cases hm
  exact regular_msg2 x y

theorem poseHistory_view (m x y : ℝ) :
    batchView P0 (poseHistory m x y) = (true, [⟨⟨"laser", 3⟩, [⟨x, 0, 0⟩, ⟨y, 0, 0⟩]⟩]) := by
  simp [batchView, poseHistory, batchStep, mapAvailable, validCloud_msg, not_completes_nil, scanOf_msg2]

theorem poseHistory_map (m x y : ℝ) : (mapView P0 (poseHistory m x y)).active = [⟨⟨m, 0, 0⟩, 0⟩] := by
  simp [mapView, poseHistory, MapView.step, validCloud_msg, cloudPoints, fromROSMsg_msg, env]

theorem ofRPY_zero : Quat.ofRPY (⟨0, 0, 0⟩ : Vec3 ℝ) = 1 := by
  show (⟨_, _, _, _⟩ : Quat ℝ) = ⟨0, 0, 0, 1⟩
  simp [Transc.sin, Transc.cos]

theorem P0_initialPose : P0.initialPose.pos = ⟨0, 0, 0⟩ ∧ P0.initialPose.rot = 1 := by
  constructor
  · simp [P0, Params.loadFrom, Server.dblD, Server.getDouble, State6.ofQuat]
  · simp [P0, Params.loadFrom, Server.dblD, Server.getDouble, State6.ofQuat, ofRPY_zero]

theorem diagonal_zero (t : ℝ) (call : ℕ) (mean sigma : List ℝ) (i e : ℕ) (h : sigma.length + i = mean.length) :
    ∃ e', NoiseGen.diagonalLoop ((env t).gauss call) mean sigma i e = .ok (mean.drop i, e') := by
  induction sigma generalizing i e with
  | nil =>
    have : mean.drop i = [] := List.drop_eq_nil_iff.2 (by simp at h; omega)
    exact ⟨e, by rw [this]; rfl⟩
  | cons sg sigma ih =>
    have hi : i < mean.length := by simp at h; omega
    have hg : ∀ m s e, (env t).gauss call m s e = (m, e + 1) := by intro m s e; simp [Env.gauss, env]
    rw [NoiseGen.diagonalLoop, List.getElem?_eq_getElem hi]
    simp only [hg]
    rw [← List.cons_getElem_drop_succ (h := hi)]
    split_ifs
    · obtain ⟨e', he⟩ := ih (i + 1) e (by simp at h; omega)
      exact ⟨e', by rw [he]; rfl⟩
    · obtain ⟨e', he⟩ := ih (i + 1) (e + 1) (by simp at h; omega)
      exact ⟨e', by rw [he]; rfl⟩

/-- Without noise the states drawn are the mean. -/
theorem noiseStates_zero (t : ℝ) (call : ℕ) (mean sigma : State6 ℝ) (n : ℕ) {ns : List (State6 ℝ)}
    (h : (env t).noiseStates call mean sigma n = .ok ns) :
    ns.length = n ∧ ∀ s ∈ ns, s.pos = mean.pos ∧ s.rot = Quat.ofRPY mean.rot.getRPY := by
  have one : ∀ e : ℕ, ∃ s e', State6.generateNoise (State6.diagonalGen ((env t).gauss call) mean sigma) e = .ok (s, e') ∧
      s.pos = mean.pos ∧ s.rot = Quat.ofRPY mean.rot.getRPY := by
    intro e
    obtain ⟨e', h⟩ := diagonal_zero t call mean.meanVec sigma.sigmaVec 0 e rfl
    rw [List.drop_zero] at h
    refine ⟨{ (State6.default : State6 ℝ) with
      pos := ⟨mean.pos.x, mean.pos.y, mean.pos.z⟩
      integLin := ⟨mean.pos.x, mean.pos.y, mean.pos.z⟩
      integAng := ⟨mean.rot.getRPY.x - mean.rot.getRPY.x, mean.rot.getRPY.y - mean.rot.getRPY.y,
        mean.rot.getRPY.z - mean.rot.getRPY.z⟩
      rot := Quat.ofRPY ⟨mean.rot.getRPY.x, mean.rot.getRPY.y, mean.rot.getRPY.z⟩ }, e', ?_, rfl, rfl⟩
    simp only [State6.generateNoise, State6.diagonalGen, NoiseGen.diagonal, h, Outcome.bind_ok]
    rfl
  have many : ∀ (n e : ℕ), ∃ ss e', State6.generateN (State6.diagonalGen ((env t).gauss call) mean sigma) n e = .ok (ss, e') ∧
      ss.length = n ∧ ∀ s ∈ ss, s.pos = mean.pos ∧ s.rot = Quat.ofRPY mean.rot.getRPY := by
    intro n
    induction n with
    | zero => exact fun e => ⟨[], e, rfl, rfl, by simp⟩
    | succ n ih =>
      intro e
      obtain ⟨s, e1, h1, h2⟩ := one e
      obtain ⟨ss, e2, h4, h5, h6⟩ := ih e1
      refine ⟨s :: ss, e2, by simp [State6.generateN, h1, h4, Outcome.bind], by simp [h5], ?_⟩
      intro t ht
      rcases List.mem_cons.1 ht with rfl | ht
      · exact h2
      · exact h6 t ht
  obtain ⟨ss, e', h1, h2, h3⟩ := many n 0
  rw [Env.noiseStates, h1] at h
  simp only [Outcome.bind, Outcome.ok.injEq] at h
  exact h ▸ ⟨h2, h3⟩

/-- All particles of the new node are at the origin. -/
theorem start_origin {C : Type} {L : Lib C} {n0 : Node C} (hs : start P0 L (env 0) motion0 = .ok n0) :
    ∀ p ∈ n0.loc.pf.particles, p.state.pos = 0 ∧ Quat.SameRotation p.state.rot 1 := by
  obtain ⟨_, ns, hns, rfl⟩ := start_ok hs
  obtain ⟨hl, hns⟩ := noiseStates_zero _ _ _ _ _ hns
  intro p hp
  simp only [PF.Filter.init, List.mem_mapIdx] at hp
  obtain ⟨i, hi, rfl⟩ := hp
  have hi' : i < ns.length := by
    rw [hl]
    simpa [PF.Filter.new] using hi
  have hmem : pickNoise ns i ∈ ns := by
    simp [pickNoise, List.getD, hi']
  obtain ⟨h1, h2⟩ := hns _ hmem
  refine ⟨?_, ?_⟩
  · show (pickNoise ns i).pos = 0
    rw [h1, P0_initialPose.1]; rfl
  · show Quat.SameRotation (pickNoise ns i).rot 1
    rw [h2, P0_initialPose.2]
    apply Quat.C34_roundtrip
    · show (0:ℝ) * 0 + 0 * 0 + 0 * 0 + 1 * 1 = 1; norm_num
    · rw [Quat.rotate_z]
      show |_| < (1:ℝ)
      simp [show (1 : Quat ℝ) = ⟨0, 0, 0, 1⟩ from rfl]

/-- The node before the cloud that completes the batch. -/
theorem poseHistory_run {C : Type} {L : Lib C} {m x y : ℝ} {n0 n : Node C} {outs : List (List Out)}
    (hs : start P0 L (env 0) motion0 = .ok n0) (hr : run P0 L n0 (poseHistory m x y) = .ok (n, outs)) :
    n.loc.pf.particles.length = 65 ∧ (∀ p ∈ n.loc.pf.particles, p.state.pos = 0 ∧ Quat.SameRotation p.state.rot 1) ∧
      n.odo.odom = State6.default ∧ n.loc.matchLast = 0 ∧ n.loc.statePrev = State6.default ∧
      n.loc.pf.entropy = none ∧ n.loc.allAccum = some [] ∧ n.loc.fixCnt = 0 := by
  have ho := start_origin hs
  obtain ⟨_, ns, _, hn0⟩ := start_ok hs
  have hodo : n0.odo.odom = State6.default := by rw [hn0]
  have hml : n0.loc.matchLast = 0 := by rw [hn0]
  have hsp : n0.loc.statePrev = State6.default := by rw [hn0]
  have hen : n0.loc.pf.entropy = none := by rw [hn0]; rfl
  have hfx : n0.loc.fixCnt = 0 := by rw [hn0]
  clear hn0
  obtain ⟨n1, o1, os, h1, hr, _⟩ := run_cons_ok hr
  obtain ⟨n2, o2, os2, h2, hr, _⟩ := run_cons_ok hr
  obtain ⟨n3, o3, os3, h3, hr, _⟩ := run_cons_ok hr
  simp only [run, Outcome.ok.injEq, Prod.mk.injEq] at hr
  obtain ⟨rfl, _⟩ := hr
  have b0 := start_batch hs
  obtain ⟨b1, _, _⟩ := step_batch b0 (by simp) h1
  obtain ⟨b2, _, _⟩ := step_batch b1 (by simp) h2
  rcases cbMapcloud_ok (show cbMapcloud P0 (env 1) n0 1 (msg m) = .ok (n1, o1) from h1) with ⟨hf, _⟩ | ⟨_, hl⟩
  · rw [fromROSMsg_msg] at hf; cases hf
  obtain ⟨e1, _, _, _, e2, _⟩ := load_frame hl
  obtain ⟨pf, hpf, rfl, _⟩ := cbResize_ok (show cbResize P0 (env 2) n1 65 = .ok (n2, o2) from h2)
  have hpf' := hpf
  obtain ⟨_, hlen, hent, _⟩ := resizeFilter_spec (env_valid _) hpf'
  obtain ⟨_, f2, _, _, hcase⟩ := cbCloud_loc (show cbCloud P0 L (env 3) _ ⟨"laser", 3⟩ (msg2 x y) = .ok (n3, o3) from h3)
  have hk : n3.loc = (freshen (env 3) { n1 with loc := { n1.loc with pf := pf } }).loc := by
    rcases hcase with ⟨hk, _, _⟩ | ⟨_, acc, c, hcore⟩
    · exact hk
    · obtain ⟨_, b4, _⟩ := step_batch b2 (by rintro _ _ ⟨⟩; exact regular_msg2 x y) h3
      have hnone : (batchStep P0 (mapAvailable (mapAvailable false (Event.mapcloud 1 (msg m))) (Event.resize 65))
          (batchStep P0 (mapAvailable false (Event.mapcloud 1 (msg m)))
            (batchStep P0 false [] (Event.mapcloud 1 (msg m), env 1)).2 (Event.resize 65, env 2)).2
          (Event.cloud ⟨"laser", 3⟩ (msg2 x y), env 3)).1 = none := by
        simp [batchStep, mapAvailable, validCloud_msg, not_completes_nil]
      have hmin := b4 hnone
      obtain ⟨_, _, ⟨_, _, hk, _⟩ | ⟨_, hme⟩⟩ := measureCore_ok hcore
      · exact hk
      generalize n3.loc = loc2 at hme
      cases hme with
      | noHeader _ => rfl
      | noTf _ _ _ => rfl
      | noOrigin _ _ _ _ => rfl
      | noPoints _ _ _ _ _ => exact absurd (hmin _ List.mem_cons_self) id
      | localized _ _ _ _ _ _ _ _ => exact absurd (hmin _ List.mem_cons_self) id
  have hstates : ∀ p ∈ pf.particles, ∃ q ∈ n0.loc.pf.particles, p.state = q.state := by
    rw [resizeFilter] at hpf
    rw [if_neg (by norm_num)] at hpf
    have hne : n1.loc.pf.particles ≠ [] ∨ (65 : ℤ).toNat = 0 := by
      by_contra hno
      push _root_.Not at hno
      have := (resizeFilter_spec (env_valid _) hpf').2.2.2.1
      rcases this with h | h
      · exact h hno.1
      · omega
    obtain ⟨f2, h2, _, _, hp⟩ := PF.resize_spec State6.default (env 2).junk n1.loc.pf (65 : ℤ).toNat _
      ((env_valid 2).sort _) hne
    rw [h2] at hpf
    simp only [Outcome.ok.injEq] at hpf
    rw [← hpf]
    intro p hp'
    obtain ⟨_, q, hq, e⟩ := hp p hp'
    rw [e2] at hq
    exact ⟨q, hq, e⟩
  rw [hk, f2]
  refine ⟨hlen, ?_, ?_, ?_, ?_, ?_, ?_, ?_⟩
  · intro p hp
    obtain ⟨q, hq, e⟩ := hstates p hp
    rw [e]
    exact ho q hq
  · show n1.odo.odom = _
    rw [e1]; exact hodo
  · show n1.loc.matchLast = 0
    rw [e2]; exact hml
  · show n1.loc.statePrev = _
    rw [e2]; exact hsp
  · show pf.entropy = none
    rw [hent, e2]; exact hen
  · show n1.loc.allAccum = some []
    rw [e2]
  · show n1.loc.fixCnt = 0
    rw [e2]; exact hfx

/-- The cloud that completes the batch. -/
noncomputable def lastCloud : Event × Env := (.cloud ⟨"laser", 4⟩ (msg 10), env 4)

theorem poseHistory_step (m x y : ℝ) :
    (batchStep P0 (batchView P0 (poseHistory m x y)).1 (batchView P0 (poseHistory m x y)).2 lastCloud).1 =
      some ([] ++ [⟨⟨"laser", 3⟩, [⟨x, 0, 0⟩, ⟨y, 0, 0⟩]⟩]) := by
  rw [poseHistory_view]
  simp [batchStep, completes_one, lastCloud]

theorem poseHistory_regular' (m x y : ℝ) : RegularClouds (poseHistory m x y ++ [lastCloud]) := by
  intro e he
  rcases List.mem_append.1 he with he | he
  · exact poseHistory_regular m x y e he
  · rw [List.mem_singleton.1 he]
    rintro header m ⟨⟩
    exact regular_msg 10

/-- Its run. -/
theorem pose_runs (m x y : ℝ) (h1 : 1 / 2 ≤ x) (h2 : x ≤ 10) :
    ∃ n0 n1 n outs o, start P0 exactLib (env 0) motion0 = .ok n0 ∧
      run P0 exactLib n0 (poseHistory m x y) = .ok (n1, outs) ∧
      run P0 exactLib n0 (poseHistory m x y ++ [lastCloud]) = .ok (n, outs ++ [o]) ∧
      step P0 exactLib lastCloud.2 n1 lastCloud.1 = .ok (n, o) ∧
      ∃ rot cov, .pose 3 P0.mapFrame 0 rot cov ∈ o ∧ ∀ v, rot.normalized.rotate v = v := by
  have hx : ∀ x, HasXYZ (msg x) := by simp [HasXYZ, msg]
  have hx2 : ∀ x y, HasXYZ (msg2 x y) := by simp [HasXYZ, msg2]
  obtain ⟨n0, hs, n, outs, hr, hl, _⟩ := exact_runs (poseHistory m x y ++ [lastCloud]) (by
    simp [poseHistory, lastCloud, SafeEvent, hx, hx2, env_valid, keeps])
  obtain ⟨n1, os, o, g1, g2, rfl⟩ := run_snoc_ok hr
  refine ⟨n0, n1, n, os, o, hs, g1, hr, g2, ?_⟩
  have hv := poseHistory_valid m x y
  obtain ⟨⟨pos, rot, cov, hp⟩, _⟩ := localizes_pts (L := exactLib) hv (poseHistory_regular m x y) (t := 4) (regular_msg 10)
    (usable_msg2 4 3 x y h1 h2) hs hr (poseHistory_view m x y)
  have hpm : .pose 3 P0.mapFrame pos rot cov ∈ o := by
    have : Out.pose 3 P0.mapFrame pos rot cov ∈ o.filter (fun x => (Out.poseCov x).isSome) := by rw [hp]; simp
    exact (List.mem_filter.1 this).1
  obtain ⟨hlen, hor, hodo, _, _, _, _, _⟩ := poseHistory_run hs g1
  obtain ⟨e1, e2⟩ := C114_node (P := P0) (by rw [P0_divYaw]; norm_num)
    (by simp [P0, Params.loadFrom, Params.loadBeam, Server.dblD, Server.getDouble])
    (by simp [P0, Params.loadFrom, Params.loadLike, Server.dblD, Server.getDouble])
    (by norm_num [P0, Params.loadFrom, Server.dblD, Server.getDouble])
    (by norm_num [P0, Params.loadFrom, Server.dblD, Server.getDouble])
    (env_valid 0) hv hs g1 g2 hpm 0 1 (by show (0:ℝ) * 0 + 0 * 0 + 0 * 0 + 1 * 1 = 1; norm_num) hor
  have e2 := e2.2 fun h => absurd (show (1 : ℝ) = 0 from h.1) one_ne_zero
  obtain ⟨w, _, _, hj⟩ := C98_jump (P := P0) (by rw [P0_lpfStep]; norm_num)
    (⟨env 0, motion0, n0, _, _, env_valid 0, hv, hs, g1⟩ : Reachable P0 exactLib n1) g2 hpm
  have u1 : (1 : Quat ℝ).dot 1 = 1 := by show (0:ℝ) * 0 + 0 * 0 + 0 * 0 + 1 * 1 = 1; norm_num
  have un : (-1 : Quat ℝ).dot (-1) = 1 := by show (-0:ℝ) * -0 + -0 * -0 + -0 * -0 + -1 * -1 = 1; norm_num
  have hrot : n.loc.statePrev.rot.dot n.loc.statePrev.rot = 1 := by
    rcases e2 with e | e <;> rw [e]
    · exact u1
    · exact un
  have hod : n1.odo.odom.rot = 1 := by rw [hodo]; rfl
  obtain ⟨p1, p2⟩ := hj (.inl (by rw [hlen]; simp)) hrot (by rw [hod]; exact u1) (by
    rw [hod]
    have hv : n.loc.statePrev.rot * (1 : Quat ℝ).inv = n.loc.statePrev.rot := by
      have : (1 : Quat ℝ).inv = 1 := by
        rw [Quat.C30_inv_unit _ u1]
        show (⟨-0, -0, -0, 1⟩ : Quat ℝ) = ⟨0, 0, 0, 1⟩
        simp
      rw [this]
      exact (Quat.C29_one _ 0).2.1
    rw [hv]
    have := (Quat.sameRotation_iff _ _ hrot u1).1 e2 ⟨1, 0, 0⟩
    rw [this, Quat.rotate_z]
    simp [show (1 : Quat ℝ) = ⟨0, 0, 0, 1⟩ from rfl])
  have hsame : Quat.SameRotation rot 1 := by
    rcases p2 with p | p <;> rcases e2 with e | e <;> rw [p, e]
    · exact .inl rfl
    · exact .inr rfl
    · exact .inr rfl
    · left; show (⟨- -0, - -0, - -0, - -1⟩ : Quat ℝ) = ⟨0, 0, 0, 1⟩; simp
  refine ⟨rot, cov, by rw [p1, e1] at hpm; exact hpm, fun v => ?_⟩
  have hu : rot.dot rot = 1 := by
    rcases hsame with e | e <;> rw [e]
    · exact u1
    · exact un
  have hn : rot.normalized = rot := Quat.C31_normalized_unit _ hu
  rw [hn, (Quat.sameRotation_iff _ _ hu u1).1 hsame v]
  exact (Quat.C29_one 1 v).2.2

end Demo
end Node
end Mcl3dl
