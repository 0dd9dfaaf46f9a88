import Verif.Props.NoiseLawCloud
import Verif.Props.DriveLawDemo
import Verif.Props.NodeMatchRatio

/-!
# C168: runs that meet the hypotheses
-/

set_option linter.unusedSectionVars false

namespace Mcl3dl
namespace Node
namespace Demo

/-- The default parameters, with expansion at match ratios below 2. -/
noncomputable def PX : Params := { P0 with matchRatioThresh := 2 }

theorem sane_PX : Sane PX := by
  obtain ⟨⟨h1, h2, h3, h4, h5, h6, h7, h8⟩, h9⟩ := sane_P0
  exact ⟨⟨h1, h2, h3, h4, h5, h6, h7, h8⟩, h9⟩

theorem works_PX : Works PX exactLib fun _ => True := by
  obtain ⟨h1, h2, h3⟩ := exactWorks
  exact ⟨h1, h2, h3⟩

theorem batchStep_PX (a : Bool) (l : List Scan) (e : Event × Env) : batchStep PX a l e = batchStep P0 a l e := rfl

theorem batchView_PX (h : History) : batchView PX h = batchView P0 h := rfl

theorem env_quiet (t : ℝ) : ((env t).withNormal 1 fun _ => 0) = env t := by
  simp [Env.withNormal, env]

end Demo

/-- The hypotheses of `C168_automatic` are met, with a match ratio below the threshold. -/
example : ∃ n0 n n1 outs o pos rot cov st en lv, start Demo.PX Demo.exactLib (Demo.env 0) Demo.motion0 = .ok n0 ∧
    run Demo.PX Demo.exactLib n0 Demo.driveHistory = .ok (n, outs) ∧
    step Demo.PX Demo.exactLib ((Demo.env 3).withNormal 1 fun _ => 0) n (.cloud ⟨"laser", 3⟩ (Demo.msg 10)) = .ok (n1, o) ∧
    .pose 2 Demo.PX.mapFrame pos rot cov ∈ o ∧ (n.loc.pf.particles.length : ℤ) ≤ Demo.PX.numParticles ∧
    .status st en lv ∈ o ∧ st.matchRatio < Demo.PX.matchRatioThresh := by
  have hx : ∀ x, HasXYZ (Demo.msg x) := by simp [HasXYZ, Demo.msg]
  rw [Demo.env_quiet]
  set e : Event × Env := (.cloud ⟨"laser", 3⟩ (Demo.msg 10), Demo.env 3) with he
  have hok : ∀ e' ∈ Demo.driveHistory ++ [e], e'.2.Valid ∧ KeepsPoints e'.2 ∧ SafeEvent e'.1 := by
    simp [Demo.driveHistory, he, SafeEvent, hx, Demo.env_valid, Demo.keeps]
  obtain ⟨n0, hs, n, outs, hr, hl⟩ := C110_no_crash Demo.sane_PX Demo.works_PX (Demo.env 0) Demo.motion0 _ hok
  obtain ⟨n1, os, o, g1, g2, rfl⟩ := run_snoc_ok hr
  have hv : HistValid (Demo.driveHistory ++ [e]) := fun e he => (hok e he).1
  have hrg : RegularClouds (Demo.driveHistory ++ [e]) := by
    intro e' he' header m hm
    simp only [Demo.driveHistory, he, List.cons_append, List.nil_append, List.mem_cons, List.not_mem_nil, or_false] at he'
    rcases he' with rfl | rfl | rfl | rfl | rfl <;> cases hm <;> exact Demo.regular_msg _
  have hstep : (batchStep Demo.PX (batchView Demo.PX Demo.driveHistory).1 (batchView Demo.PX Demo.driveHistory).2 e).1 =
      some ([] ++ [⟨⟨"laser", 2⟩, [⟨10, 0, 0⟩]⟩]) := by
    rw [Demo.batchView_PX, Demo.batchStep_PX]
    simp [batchView, Demo.driveHistory, batchStep, mapAvailable, Demo.validCloud_msg, Demo.not_completes_nil,
      Demo.scanOf_msg, Demo.completes_one, he]
  have hm : batches [o] = [true] := by
    rcases C111_batches hrg hs hr with ⟨h3, _⟩ | ⟨_, _, _, h3 | h3⟩
    · rw [hstep] at h3; cases h3
    · exact h3
    · exfalso
      rcases (step_view (show 0 ≤ Demo.PX.numParticles from by simp [Demo.PX]) (Demo.env_valid 3) g2).batch with
        ⟨hbn, _⟩ | ⟨_, _, ⟨hne, _⟩ | ⟨_, hbt⟩⟩
      · rw [h3] at hbn; cases hbn
      · exact hne (by simp [Demo.PX, Params.toSize, Nat.mod_one])
      · rw [h3] at hbt; cases hbt
  have hC := (C112_measured (P := Demo.PX) (by
    simp [Demo.PX, Demo.P0, Params.loadFrom, Params.loadLike, Server.intD, Server.getInt, Params.toSize])
    (Demo.env_valid 0) hv hrg hs hr hstep hm).2
  obtain ⟨⟨pos, rot, cov, hp⟩, _⟩ := (hC ⟨by simp [he, Demo.env], fun _ _ => by simp [he, Demo.env]⟩ Demo.tf0 rfl).2
    (Demo.usable_msg 3 2 10 (by norm_num) (by norm_num))
  have hpm : .pose 2 Demo.PX.mapFrame pos rot cov ∈ o := by
    have : Out.pose 2 Demo.PX.mapFrame pos rot cov ∈ o.filter (fun x => (Out.poseCov x).isSome) := by rw [hp]; simp
    exact (List.mem_filter.1 this).1
  have hcount : (n1.loc.pf.particles.length : ℤ) ≤ Demo.PX.numParticles := by
    obtain ⟨m1, _, _, _, g1, _⟩ := run_cons_ok g1
    obtain ⟨m2, _, _, _, g1, _⟩ := run_cons_ok g1
    obtain ⟨m3, _, _, _, g1, _⟩ := run_cons_ok g1
    obtain ⟨m4, o4, _, h4, g1, _⟩ := run_cons_ok g1
    simp only [run, Outcome.ok.injEq, Prod.mk.injEq] at g1
    obtain ⟨rfl, _⟩ := g1
    obtain ⟨pf, hpf, rfl, _⟩ := cbResize_ok (show cbResize Demo.PX (Demo.env 2) m3 64 = .ok (m4, o4) from h4)
    have hl4 : pf.particles.length = 64 := (resizeFilter_spec (Demo.env_valid _) hpf).2.1
    show (pf.particles.length : ℤ) ≤ Demo.PX.numParticles
    rw [hl4]
    simp [Demo.PX, Demo.P0, Params.loadFrom, Server.intD, Server.getInt]
  obtain ⟨r, _, _, _, _, _, _, _, _, ⟨st, en, lv, hmem, _⟩, _⟩ := cloud_swap g2 hpm
  refine ⟨n0, n1, n, os, o, pos, rot, cov, st, en, lv, hs, g1, g2, hpm, hcount, hmem, ?_⟩
  have hkd : kdCfg Demo.PX = kdCfg Demo.P0 := rfl
  obtain ⟨_, _, _, _, _, _, _, _, _, hle⟩ := C117_ratio (P := Demo.PX) (w := ⟨1, 1, 5⟩) (by rw [hkd, Demo.P0_kd]; norm_num)
    (by
      have : Demo.PX.mapChunk = (kdCfg Demo.P0).chunkLength := rfl
      rw [this, hkd, Demo.P0_kd]; norm_num)
    (by norm_num [Demo.PX, Demo.P0, Params.loadFrom, Params.loadLike, Server.dblD, Server.getDouble])
    (by norm_num [Demo.PX, Demo.P0, Params.loadFrom, Params.loadLike, Server.dblD, Server.getDouble])
    (by norm_num) (fun pts q r num => Demo.exactFlann_spec pts q r num) (Demo.env_valid 0) hv hrg hs hr hstep rfl hpm hmem
  exact lt_of_le_of_lt hle (by norm_num [Demo.PX])

/-- The hypotheses of `C168_jitter` are met. -/
example : Weighs Demo.P0 ∧ ReportsNear Demo.exactLib ∧ HistValid Demo.evenHistory ∧ UnitMessages Demo.evenHistory ∧
    ∃ n0 n n1 outs o pos rot cov, start Demo.P0 Demo.exactLib (Demo.env 0) Demo.motion0 = .ok n0 ∧
    run Demo.P0 Demo.exactLib n0 Demo.evenHistory = .ok (n, outs) ∧
    step Demo.P0 Demo.exactLib Demo.lastCloud.2 n Demo.lastCloud.1 = .ok (n1, o) ∧
    .pose 3 Demo.P0.mapFrame pos rot cov ∈ o ∧ (n.loc.pf.particles.length : ℤ) ≤ Demo.P0.numParticles := by
  refine ⟨Demo.weighs, Demo.reportsNear, by simp [HistValid, Demo.evenHistory, Demo.env_valid], ?_, ?_⟩
  · intro e' he'
    simp only [Demo.evenHistory, List.mem_cons, List.not_mem_nil, or_false] at he'
    rcases he' with rfl | rfl | rfl <;>
      exact Demo.odom_env _ _ (fun m hm => by cases hm) (fun m hm => by cases hm)
  · obtain ⟨n0, n1, n, outs, o, pos, rot, cov, hs, g1, hr, hp, hl⟩ := Demo.even_runs
    obtain ⟨n1', os, o', g1', g2, he⟩ := run_snoc_ok hr
    obtain ⟨rfl, ho⟩ := List.append_inj' he rfl
    simp only [List.cons.injEq, and_true] at ho
    subst ho
    rw [g1] at g1'
    cases g1'
    refine ⟨n0, n1, n, outs, o, pos, rot, cov, hs, g1, g2, hp, ?_⟩
    rw [hl]
    simp [Demo.P0, Params.loadFrom, Server.intD, Server.getInt]

end Node
end Mcl3dl
