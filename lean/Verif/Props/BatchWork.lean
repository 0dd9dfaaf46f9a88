import Verif.Props.BeamWork
import Verif.Props.NodeReal

/-! # C184: a concrete case of the bound for a batch -/

set_option linter.unusedSectionVars false

namespace Mcl3dl
namespace Node
namespace Demo
open Lidar

/-- A map of one point, as the node keeps it. -/
noncomputable def oneMap : MapSt :=
  ⟨true, [⟨0, [⟨⟨2, 0, 0⟩, 0⟩]⟩], some 0, some 0, none, ChunkedKdtree.setInputCloud (kdCfg P0) [⟨2, 0, 0⟩], some 0, 1⟩

/-- A batch of one point seen by the beam model from the origin. -/
noncomputable def onePrep : Prep :=
  ⟨[], [0], [], none, Beam.make P0.beam, Like.make P0.like, [⟨⟨1, 0, 0⟩, 0⟩], []⟩

/-- C184 applied in the node: the default parameters, a map of one point, one point measured for two particles. -/
example (l : ℝ) : ∃ r, weighLoop P0 (countingLib (realLib P0 exactFlann lib.solve3 lib.solve6)) oneMap onePrep
      [⟨State6.default, 1, 0, l⟩, ⟨State6.default, 1, 0, l⟩] ⟨(.inr none, 0), 1, 0⟩ = .ok r ∧
    (r.2.caster.2 : ℝ) ≤ 0 + 2 * (1 * max
        (max 1 ((1 + P0.beam.hitRange) / min (min P0.mapDownsample.x P0.mapDownsample.y) P0.mapDownsample.z))
        (3 + Real.sqrt 3 * ((1 + P0.beam.hitRange) / P0.ddaGridSize))) := by
  have hg : 0 < P0.mapDownsample.x ∧ 0 < P0.mapDownsample.y ∧ 0 < P0.mapDownsample.z := by
    norm_num [P0, Params.loadFrom, Server.dblD, Server.getDouble]
  have hhit : 0 ≤ P0.beam.hitRange := by norm_num [P0, Params.loadFrom, Params.loadBeam, Server.dblD, Server.getDouble]
  have hdg : 0 < P0.ddaGridSize := by
    norm_num [P0, Params.loadFrom, Params.loadDdaGrid, Server.dblD, Server.getDouble, Server.boolD, Server.getBool]
  have hlen : DDA.len ((⟨1, 0, 0⟩ : Vec3 ℝ) - 0) = 1 := by
    show Real.sqrt ((1 - 0) ^ 2 + (0 - 0) ^ 2 + (0 - 0) ^ 2) = 1
    norm_num
  have hr : ∀ v : Vec3 ℝ, (1 : Quat ℝ).rotate v = v := fun v => (Quat.C29_one 1 v).2.2
  have hz : ∀ v : Vec3 ℝ, v + 0 = v := fun v => Vec3.ext (add_zero _) (add_zero _) (add_zero _)
  have hn : (1 : Quat ℝ).normalized = 1 := Quat.C31_normalized_unit 1 (by simp [Quat.dot])
  have ht : (State6.default : State6 ℝ).transform [(⟨⟨1, 0, 0⟩, 0⟩ : Point)] = [⟨⟨1, 0, 0⟩, 0⟩] := by
    simp only [State6.transform, State6.default, hn, hr, hz, List.map_cons, List.map_nil]
  have hc := kd_casts (P := P0) measures (flann := exactFlann) (w := ⟨1, 1, 5⟩) (by norm_num) exactFlann_spec
    (solve3 := lib.solve3) (solve6 := lib.solve6) hg hhit (D := 5)
    (by norm_num [P0, Params.loadFrom, Params.loadBeam, Server.dblD, Server.getDouble])
    (m := oneMap) (v := ⟨true, none, [⟨⟨2, 0, 0⟩, 0⟩]⟩)
    ⟨rfl, rfl, rfl, .inr ⟨0, ⟨0, [⟨⟨2, 0, 0⟩, 0⟩]⟩, rfl, rfl, rfl, rfl, rfl⟩⟩ rfl (model := onePrep.beam) Beam.Reach.make
  have hrays : RaysOk (fun l e => 0 < DDA.len (e - l) ∧ DDA.len (e - l) ≤ 5) onePrep.origins State6.default
      onePrep.beamPc := by
    intro p hp
    rw [show onePrep.beamPc = [⟨⟨1, 0, 0⟩, 0⟩] from rfl, ht, List.mem_singleton] at hp
    subst hp
    refine ⟨0, rfl, ?_⟩
    rw [show (State6.default : State6 ℝ).pos + (State6.default : State6 ℝ).rot.rotate 0 = 0 by
      show (0 : Vec3 ℝ) + (1 : Quat ℝ).rotate 0 = 0
      rw [hr, hz]]
    show 0 < DDA.len ((⟨1, 0, 0⟩ : Vec3 ℝ) - 0) ∧ DDA.len ((⟨1, 0, 0⟩ : Vec3 ℝ) - 0) ≤ 5
    rw [hlen]; norm_num
  have hids : FlannIds exactFlann := by
    intro pts q r k e he
    obtain ⟨p, hp, -⟩ := (exactFlann_spec pts q r k).sound e he
    exact (List.getElem?_eq_some_iff.1 hp).1
  obtain ⟨r0, h0, -⟩ := weighLoop_total (lib := realLib P0 exactFlann lib.solve3 lib.solve6) hids hc
    (by norm_num [P0, onePrep, Like.make, Params.loadFrom, Params.loadLike, Server.dblD, Server.getDouble])
    [⟨State6.default, 1, 0, l⟩, ⟨State6.default, 1, 0, l⟩] (by
      intro q hq
      simp only [List.mem_cons, List.not_mem_nil, or_false, or_self] at hq
      subst hq; exact hrays) ⟨.inr none, 1, 0⟩ ⟨none, rfl⟩
  rw [C184_batch_counting _ _ _ _ _ _ 0] at h0
  obtain ⟨r, h1, -⟩ := Outcome.bind_eq_ok_iff.1 h0
  refine ⟨r, h1, ?_⟩
  have := C184_batch (lt_min (lt_min hg.1 hg.2.1) hg.2.2) hdg hhit (N := 1) (R := 1) (by simp [onePrep]) zero_le_one (by
      intro q hq
      rw [show onePrep.beamPc = [⟨⟨1, 0, 0⟩, 0⟩] from rfl, List.mem_singleton] at hq
      subst hq
      show DDA.len ((⟨1, 0, 0⟩ : Vec3 ℝ) - 0) ≤ 1
      rw [hlen]) (by
      intro q hq
      simp only [List.mem_cons, List.not_mem_nil, or_false, or_self] at hq
      subst hq
      simp [State6.default, Quat.dot]) h1
  simpa using this

end Demo
end Node
end Mcl3dl
