import Verif.Props.NodeStatusDemo
import Verif.Props.NodeEntropy
import Verif.Props.NodeFake
import Verif.Model.NodeDiag

/-! # C137: status and diagnostics -/

set_option linter.unusedSectionVars false

namespace Mcl3dl
namespace Node

variable {C : Type}

/-- The status messages of a callback: none, or one, the last message, of a cloud callback with a map. -/
theorem status_last {P : Params} {lib : Lib C} {env : Env} {n n' : Node C} {ev : Event} {o : List Out}
    (h : step P lib env n ev = .ok (n', o)) :
    o.filterMap Out.statusMsg = [] ∧ (∀ a b c d e, .pose a b c d e ∉ o) ∨
    ∃ s a, o = a ++ [publishStatus s n'.loc.pf] ∧ a.filterMap Out.statusMsg = [] ∧ (∃ hd msg, ev = .cloud hd msg) ∧
      n.map.hasMap = true ∧ n'.map = n.map ∧ n'.odo = n.odo ∧ n'.imu = n.imu ∧ s.stamp = env.now 0 ∧
      (s = { Status.fresh (env.now 0) with error := .pointsNotFound } ∧ a = [.batch true] ∨
        s.error = .normal ∧ ∃ a' b' c' d' e', .pose a' b' c' d' e' ∈ a) := by
  by_cases hc : ∃ header msg, ev = .cloud header msg
  · obtain ⟨header, msg, rfl⟩ := hc
    obtain ⟨hm1, hm2, hm3, hw, hcase⟩ := cbCloud_loc h
    rcases hcase with ⟨hl, hcnt, rfl⟩ | ⟨hm, acc, c, hcore⟩
    · exact .inl ⟨rfl, by simp⟩
    obtain ⟨hs, hcnt, hk⟩ := measureCore_ok hcore
    generalize hloc2 : n'.loc = loc2 at hk
    rcases hk with ⟨hk, _, rfl, rfl⟩ | ⟨hk, hme⟩
    · exact .inl ⟨rfl, by simp⟩
    cases hme with
    | noHeader _ => exact .inl ⟨rfl, by simp⟩
    | noTf _ _ _ => exact .inl ⟨rfl, by simp⟩
    | noOrigin _ _ _ _ => exact .inl ⟨rfl, by simp⟩
    | noPoints _ p _ _ _ =>
      refine .inr ⟨_, [.batch true], rfl, rfl, ⟨_, _, rfl⟩, hm, hm1, hm2, hm3, rfl, .inl ⟨rfl, rfl⟩⟩
    | localized hd p _ outs h1 h2 h3 hl =>
      obtain ⟨r, _, _, _, _, _, hmo, _, _, _, _, hloc, rfl⟩ := localize_ok hl
      have hmm := matchOutput_only hmo
      have hmf : r.mo.2.filterMap Out.statusMsg = [] := by
        rw [List.filterMap_eq_nil_iff]
        intro x hx
        obtain ⟨s, l, rfl | rfl⟩ := hmm x hx <;> rfl
      refine .inr ⟨r.status P n.stdWarn (freshen env n).loc, .batch true :: ([.markers r.marks.1] ++
        (if P.publishTf then
          [.transforms (transformsOf P (outStamp P n.odo (freshen env n).loc.tolBase (env.now 1))
            (r.smooth P n.odo (freshen env n).loc))] else []) ++
        [.pose hd.stamp P.mapFrame (r.smooth P n.odo (freshen env n).loc).pos
          (r.smooth P n.odo (freshen env n).loc).rot r.cov] ++ r.mo.2 ++
        [publishParticles P n.odo (freshen env n).loc.tolBase (env.now 2) (r.pf2 P (freshen env n).loc)]), ?_, ?_,
        ⟨_, _, rfl⟩, hm, hm1, hm2, hm3, rfl, .inr ⟨rfl, ?_⟩⟩
      · rw [hloc]
        simp [List.append_assoc]
      · rw [List.filterMap_cons]
        simp only [Out.statusMsg, List.filterMap_append, List.filterMap_cons, List.filterMap_nil, hmf, publishParticles]
        split_ifs <;> simp [Out.statusMsg]
      · exact ⟨hd.stamp, P.mapFrame, (r.smooth P n.odo (freshen env n).loc).pos,
          (r.smooth P n.odo (freshen env n).loc).rot, r.cov, by simp⟩
  · push _root_.Not at hc
    have hmin := step_minor h hc
    left
    constructor
    · rw [List.filterMap_eq_nil_iff]
      intro x hx
      have := hmin x hx
      cases x <;> first | rfl | exact absurd this id
    · intro a b c d e hx
      exact hmin _ hx

/-- C137, the status: a callback publishes at most one status. Only a cloud does, and only with a map; the status has the time at
which the callback began. It reports an error exactly if no pose is published with it; then the number of particles
and the match ratio are 0 and everything else is NORMAL. A pose never comes without a status. -/
theorem C137_status {P : Params} {lib : Lib C} {env : Env} {n n' : Node C} {ev : Event} {o : List Out}
    (h : step P lib env n ev = .ok (n', o)) :
    (o.filterMap Out.statusMsg).length ≤ 1 ∧
    ((∃ a b c d e, .pose a b c d e ∈ o) → (o.filterMap Out.statusMsg).length = 1) ∧
    ∀ s ent lev, .status s ent lev ∈ o → (∃ hd msg, ev = .cloud hd msg) ∧ s.stamp = env.now 0 ∧
      (s.error = .pointsNotFound ↔ ¬ ∃ a b c d e, .pose a b c d e ∈ o) ∧
      (s.error = .pointsNotFound → s.status = .normal ∧ s.convergence = .normal ∧ s.matchRatio = 0 ∧ s.particleSize = 0) := by
  rcases status_last h with ⟨h1, h2⟩ | ⟨s, a, rfl, ha, hev, _, _, _, _, hst, hs⟩
  · refine ⟨by simp [h1], ?_, ?_⟩
    · rintro ⟨a, b, c, d, e, hx⟩
      exact absurd hx (h2 a b c d e)
    · intro s ent lev hx
      have : s ∈ o.filterMap Out.statusMsg := List.mem_filterMap.2 ⟨_, hx, rfl⟩
      rw [h1] at this
      exact absurd this (by simp)
  · have hl : ((a ++ [publishStatus s n'.loc.pf]).filterMap Out.statusMsg) = [s] := by
      rw [List.filterMap_append, ha]
      rfl
    refine ⟨by rw [hl]; simp, fun _ => by rw [hl]; simp, ?_⟩
    intro s' ent lev hx
    have hm : s' ∈ (a ++ [publishStatus s n'.loc.pf]).filterMap Out.statusMsg := List.mem_filterMap.2 ⟨_, hx, rfl⟩
    rw [hl, List.mem_singleton] at hm
    subst hm
    refine ⟨hev, hst, ?_, ?_⟩
    · rcases hs with ⟨rfl, rfl⟩ | ⟨he, a', b', c', d', e', hp⟩
      · simp [publishStatus]
      · constructor
        · intro hp'; rw [he] at hp'; cases hp'
        · intro hp'; exact absurd ⟨a', b', c', d', e', by simp [hp]⟩ hp'
    · rcases hs with ⟨rfl, rfl⟩ | ⟨he, _⟩
      · intro _; exact ⟨rfl, rfl, rfl, rfl⟩
      · intro hp'; rw [he] at hp'; cases hp'

/-- C137, the diagnostics: published exactly with a status. They have level ERROR iff no usable point was found or
the standard deviation is too large, and the message tells which. The map is always reported available (there are no
diagnostics before there is a map), the odometry iff there is a reference odometry message, the IMU iff there is a
reference IMU message. -/
theorem C137_diagnostics {P : Params} (hO : P.fakeOdom = false) (hI : P.fakeImu = false) {lib : Lib C} {env0 env : Env}
    {motion0 : Motion ℝ} {n0 n n' : Node C} {h : History} {outs : List (List Out)} {ev : Event} {o : List Out}
    (hs : start P lib env0 motion0 = .ok n0) (hr : run P lib n0 h = .ok (n, outs))
    (hst : step P lib env n ev = .ok (n', o)) :
    (diagnostics n o).length = (o.filterMap Out.statusMsg).length ∧ diagnostics n o = diagnostics n' o ∧
    ∀ d ∈ diagnostics n o, ∃ s ∈ o.filterMap Out.statusMsg,
      (d.level = .error ↔ s.error = .pointsNotFound ∨ s.convergence = .largeStd) ∧
      (d.message = "OK" ↔ d.level = .ok) ∧ (d.message = "Valid points does not found." ↔ s.error = .pointsNotFound) ∧
      d.map = true ∧ d.odometry = (odomRef h).isSome ∧ d.imu = (imuRef P h).isSome := by
  have hi : OdoInv P n.odo (odomRef h) := run_odo hO (odoInv_start hs) hr
  have h0 : ImuInv n0.imu ⟨none, FiltVec3.new .lpf ⟨P.accLpfStep, P.accLpfStep, P.accLpfStep⟩ 0 false⟩ := by
    obtain ⟨_, ns, _, rfl⟩ := start_ok hs
    exact ⟨rfl, by simp, rfl⟩
  have hii : ImuInv n.imu (imuView P h) := run_imu hI h0 hr
  have hnone : ∀ (k : Node C) (l : List Out), l.filterMap Out.statusMsg = [] → diagnostics k l = [] := by
    intro k l hl
    rw [diagnostics, List.filterMap_eq_nil_iff]
    rw [List.filterMap_eq_nil_iff] at hl
    intro x hx
    have := hl x hx
    cases x <;> first | rfl | cases this
  rcases status_last hst with ⟨h1, _⟩ | ⟨s, a, rfl, ha, hev, hmap, e1, e2, e3, _, _⟩
  · rw [hnone n o h1, hnone n' o h1, h1]
    exact ⟨rfl, rfl, by simp⟩
  · have hsl : ((a ++ [publishStatus s n'.loc.pf]).filterMap Out.statusMsg) = [s] := by
      rw [List.filterMap_append, ha]
      rfl
    have hd : ∀ k : Node C, diagnostics k (a ++ [publishStatus s n'.loc.pf]) =
        [⟨s.level, s.summary, k.map.hasMap, k.odo.has, k.imu.has⟩] := by
      intro k
      have := hnone k a ha
      rw [diagnostics] at this ⊢
      rw [List.filterMap_append, this]
      rfl
    rw [hsl, hd, hd, e1, e2, e3]
    refine ⟨rfl, rfl, fun d hd => ⟨s, by simp, ?_⟩⟩
    rw [List.mem_singleton] at hd
    subst hd
    refine ⟨?_, ?_, ?_, hmap, hi.1, ?_⟩
    · simp only [Status.level]
      split_ifs with h1 h2
      · simp [h1]
      · simp [h2]
      · simp [h1, h2]
    · simp only [Status.level, Status.summary]
      split_ifs with h1 h2 <;> simp
    · simp only [Status.summary]
      split_ifs with h1 h2 <;> simp [h1]
    · rw [← imuView_last]; exact hii.1

/-- C137: runs with the default parameters whose last callback publishes a status with a pose, and one without usable
points. -/
example : (∃ n0 n1 n outs o, start Demo.P0 Demo.exactLib (Demo.env 0) Demo.motion0 = .ok n0 ∧
      run Demo.P0 Demo.exactLib n0 (Demo.poseHistory 10 10 5) = .ok (n1, outs) ∧
      step Demo.P0 Demo.exactLib Demo.lastCloud.2 n1 Demo.lastCloud.1 = .ok (n, o) ∧
      (o.filterMap Out.statusMsg).length = 1 ∧ (∃ s ∈ o.filterMap Out.statusMsg, s.error = .normal) ∧
      (diagnostics n1 o).length = 1) ∧
    ∃ n0 n1 n outs o, start Demo.P0 Demo.exactLib (Demo.env 0) Demo.motion0 = .ok n0 ∧
      run Demo.P0 Demo.exactLib n0 (Demo.poseHistory 10 100 100) = .ok (n1, outs) ∧
      step Demo.P0 Demo.exactLib Demo.lastCloud.2 n1 Demo.lastCloud.1 = .ok (n, o) ∧
      (diagnostics n1 o).length = 1 := by
  constructor
  · obtain ⟨n0, n1, n, outs, o, hs, hr, hr', hst, rot, cov, hp, hrot⟩ :=
      Demo.pose_runs 10 10 5 (by norm_num) (by norm_num)
    obtain ⟨_, h2, h3⟩ := C137_status hst
    have hl := h2 ⟨_, _, _, _, _, hp⟩
    refine ⟨n0, n1, n, outs, o, hs, hr, hst, hl, ?_, by rw [(C137_diagnostics (P := Demo.P0) rfl rfl hs hr hst).1, hl]⟩
    obtain ⟨s, hs1⟩ := List.length_eq_one_iff.1 hl
    refine ⟨s, by rw [hs1]; simp, ?_⟩
    have hm : s ∈ o.filterMap Out.statusMsg := by rw [hs1]; simp
    obtain ⟨x, hx, hxs⟩ := List.mem_filterMap.1 hm
    cases x with
    | status s' e l =>
      simp only [Out.statusMsg, Option.some.injEq] at hxs
      subst hxs
      have := (h3 _ _ _ hx).2.2.1
      cases he : s'.error with
      | normal => rfl
      | pointsNotFound => exact absurd ⟨_, _, _, _, _, hp⟩ (this.1 he)
    | _ => cases hxs
  · obtain ⟨n0, n, outs, o, hs, hr, s, lev, hx⟩ := C101_undefined_before
    obtain ⟨n1, os, o1, g1, g2, he⟩ := run_snoc_ok hr
    have ho : o = o1 ∧ outs = os := by
      have := List.append_inj' he rfl
      exact ⟨by simpa using this.2, this.1⟩
    obtain ⟨rfl, rfl⟩ := ho
    refine ⟨n0, n1, n, outs, o, hs, g1, g2, ?_⟩
    rw [(C137_diagnostics (P := Demo.P0) rfl rfl hs g1 g2).1]
    have h1 := (C137_status g2).1
    have : 0 < (o.filterMap Out.statusMsg).length := List.length_pos_of_mem (List.mem_filterMap.2 ⟨_, hx, rfl⟩)
    omega

end Node
end Mcl3dl
