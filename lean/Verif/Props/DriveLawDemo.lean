import Verif.Props.DriveLaw
import Verif.Props.DeadReckoningDemo

/-!
# C169: a run that meets the hypotheses
-/

set_option linter.unusedSectionVars false

namespace Mcl3dl
namespace Node
namespace Demo

/-- An odometry message, a map, a cloud, and the configured number of particles. -/
noncomputable def driveHistory : History :=
  [(.odom (exOdom 1), env 1), (.mapcloud 1 (msg 10), env 1), (.cloud ⟨"laser", 2⟩ (msg 10), env 2), (.resize 64, env 2)]

theorem driveHistory_view : batchView P0 driveHistory = (true, [⟨⟨"laser", 2⟩, [⟨10, 0, 0⟩]⟩]) := by
  simp [batchView, driveHistory, batchStep, mapAvailable, validCloud_msg, not_completes_nil, scanOf_msg]

end Demo

/-- The hypotheses of C169 are met by a run with the default parameters: 64 particles, and odometry that then reports two
metres ahead. -/
example : Demo.P0.fakeOdom = false ∧ Demo.P0.matchRatioThresh ≤ 0 ∧
    HistValid (Demo.driveHistory ++ [(.cloud ⟨"laser", 3⟩ (Demo.msg 10), Demo.env 3)]) ∧
    UnitMessages (Demo.driveHistory ++ [(.cloud ⟨"laser", 3⟩ (Demo.msg 10), Demo.env 3)]) ∧
    odomRef Demo.driveHistory = some (exOdom 1) ∧
    (exOdom 1).stamp + 1 / 20 < (exOdom 3).stamp ∧ (exOdom 3).stamp ≤ (exOdom 1).stamp + 5 ∧
    (exOdom 1).rot.inv.rotate ((exOdom 3).pos - (exOdom 1).pos) = ⟨2, 0, 0⟩ ∧
    (exOdom 1).rot.inv * (exOdom 3).rot = Quat.ofAxisAng ⟨0, 0, 1⟩ 0 ∧
    ∃ n0 n n1 outs o pos rot cov, start Demo.P0 Demo.exactLib (Demo.env 0) Demo.motion0 = .ok n0 ∧
    run Demo.P0 Demo.exactLib n0 Demo.driveHistory = .ok (n, outs) ∧
    step Demo.P0 Demo.exactLib (Demo.env 3) n (.cloud ⟨"laser", 3⟩ (Demo.msg 10)) = .ok (n1, o) ∧
    .pose 2 Demo.P0.mapFrame pos rot cov ∈ o ∧ (n.loc.pf.particles.length : ℤ) ≤ Demo.P0.numParticles := by
  have hx : ∀ x, HasXYZ (Demo.msg x) := by simp [HasXYZ, Demo.msg]
  set e : Event × Env := (.cloud ⟨"laser", 3⟩ (Demo.msg 10), Demo.env 3) with he
  have hok : ∀ e' ∈ Demo.driveHistory ++ [e], e'.2.Valid ∧ KeepsPoints e'.2 ∧ SafeEvent e'.1 := by
    simp [Demo.driveHistory, he, SafeEvent, hx, Demo.env_valid, Demo.keeps]
  have h1 : (1 : Quat ℝ) = ⟨0, 0, 0, 1⟩ := rfl
  refine ⟨by simp [Demo.P0, Params.loadFrom, Server.boolD, Server.getBool],
    by norm_num [Demo.P0, Params.loadFrom, Server.dblD, Server.getDouble], fun e he => (hok e he).1, ?_, rfl,
    by norm_num [exOdom], by norm_num [exOdom], ?_, ?_, ?_⟩
  · intro e' he'
    simp only [Demo.driveHistory, he, List.cons_append, List.nil_append, List.mem_cons, List.not_mem_nil, or_false] at he'
    rcases he' with rfl | rfl | rfl | rfl | rfl <;>
      exact Demo.odom_env _ _ (fun m hm => by cases hm <;> exact ⟨_, rfl⟩) (fun m hm => by cases hm)
  · simp only [exOdom, h1]
    ext <;> simp [Vec3.sub_x, Vec3.sub_y, Vec3.sub_z, Quat.rotate_x, Quat.rotate_y,
      Quat.rotate_z, Quat.inv, Quat.dot, Quat.conj, Quat.sdiv]
    norm_num
  · rw [Quat.ofAxisAng_eq _ (by norm_num [Vec3.dot])]
    simp only [exOdom, h1]
    ext <;> simp [Quat.mul_x, Quat.mul_y, Quat.mul_z, Quat.mul_w, Quat.inv, Quat.dot, Quat.conj, Quat.sdiv]
  · obtain ⟨n0, hs, n, outs, hr, hl, _⟩ := Demo.exact_runs (Demo.driveHistory ++ [e]) hok
    obtain ⟨n1, os, o, g1, g2, rfl⟩ := run_snoc_ok hr
    have hrg : RegularClouds Demo.driveHistory := by
      intro e' he' header m hm
      simp only [Demo.driveHistory, List.mem_cons, List.not_mem_nil, or_false] at he'
      rcases he' with rfl | rfl | rfl | rfl <;> cases hm ; exact Demo.regular_msg _
    obtain ⟨⟨pos, rot, cov, hp⟩, _⟩ := Demo.localizes_pts (L := Demo.exactLib) (fun e he => (hok e (List.mem_append_left _ he)).1)
      hrg (t := 3) (Demo.regular_msg 10) (Demo.usable_msg 3 2 10 (by norm_num) (by norm_num)) hs hr Demo.driveHistory_view
    have hpm : .pose 2 Demo.P0.mapFrame pos rot cov ∈ o := by
      have : Out.pose 2 Demo.P0.mapFrame pos rot cov ∈ o.filter (fun x => (Out.poseCov x).isSome) := by rw [hp]; simp
      exact (List.mem_filter.1 this).1
    refine ⟨n0, n1, n, os, o, pos, rot, cov, hs, g1, g2, hpm, ?_⟩
    obtain ⟨m1, _, _, _, g1, _⟩ := run_cons_ok g1
    obtain ⟨m2, _, _, _, g1, _⟩ := run_cons_ok g1
    obtain ⟨m3, _, _, _, g1, _⟩ := run_cons_ok g1
    obtain ⟨m4, o4, _, h4, g1, _⟩ := run_cons_ok g1
    simp only [run, Outcome.ok.injEq, Prod.mk.injEq] at g1
    obtain ⟨rfl, _⟩ := g1
    obtain ⟨pf, hpf, rfl, _⟩ := cbResize_ok (show cbResize Demo.P0 (Demo.env 2) m3 64 = .ok (m4, o4) from h4)
    have hl4 : pf.particles.length = 64 := (resizeFilter_spec (Demo.env_valid _) hpf).2.1
    show (pf.particles.length : ℤ) ≤ Demo.P0.numParticles
    rw [hl4]
    simp [Demo.P0, Params.loadFrom, Server.intD, Server.getInt]

end Node
end Mcl3dl
