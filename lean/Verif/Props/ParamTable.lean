import Verif.Spec.ParamTable
import Verif.Props.Params
import Verif.Model.NodeMeasure

/-! # C131: every parameter sets what its name says -/

set_option linter.unusedSectionVars false

namespace Mcl3dl
namespace ParamTable

open Params

theorem rename_dbl {junk : String → ℝ} {s : Server} {n : String} (hn : ∀ r ∈ renames, r.1 ≠ n) (d : ℝ) :
    (rename junk s).dblD n d = (s.getDouble n).getD d := by
  unfold Server.dblD Server.getDouble
  rw [(C102_old_untouched junk s n hn).1]

theorem rename_int {junk : String → ℝ} {s : Server} {n : String} (hn : ∀ r ∈ renames, r.1 ≠ n) (d : ℤ) :
    (rename junk s).intD n d = (s.getInt n).getD d := by
  unfold Server.intD Server.getInt
  rw [(C102_old_untouched junk s n hn).1]

theorem rename_bool {junk : String → ℝ} {s : Server} {n : String} (hn : ∀ r ∈ renames, r.1 ≠ n) (d : Bool) :
    (rename junk s).boolD n d = (s.getBool n).getD d := by
  unfold Server.boolD Server.getBool
  rw [(C102_old_untouched junk s n hn).1]

theorem rename_str {junk : String → ℝ} {s : Server} {n : String} (hn : ∀ r ∈ renames, r.1 ≠ n) (d : String) :
    (rename junk s).strD n d = (s.getStr n).getD d := by
  unfold Server.strD Server.getStr
  rw [(C102_old_untouched junk s n hn).1]

/-- C131: the documented numbers are set by their names, with the documented defaults. -/
theorem C131_documented (junk : String → ℝ) (s : Server) (p : Params) (hp : load junk s = some p) :
    ∀ e ∈ documented, e.2.2 p = (s.getDouble e.1).getD e.2.1 := by
  have hp' := load_some hp
  subst hp'
  simp only [documented, List.forall_mem_cons, List.not_mem_nil, false_imp_iff, implies_true, and_true]
  refine ⟨?_, ?_, ?_, ?_, ?_, ?_, ?_, ?_, ?_, ?_, ?_, ?_, ?_, ?_, ?_⟩ <;>
  · rw [← rename_dbl (junk := junk) (by decide)]
    simp only [loadFrom, State6.ofRPY]
    try norm_num

/-- C131: so are the other numbers. -/
theorem C131_numbers (junk : String → ℝ) (s : Server) (p : Params) (hp : load junk s = some p) :
    ∀ e ∈ numbers, e.2.2 p = (s.getDouble e.1).getD e.2.1 := by
  have hp' := load_some hp
  subst hp'
  simp only [numbers, List.forall_mem_cons, List.not_mem_nil, false_imp_iff, implies_true, and_true]
  refine ⟨?_, ?_, ?_, ?_, ?_, ?_, ?_, ?_, ?_, ?_, ?_, ?_, ?_, ?_, ?_, ?_, ?_, ?_, ?_, ?_, ?_, ?_, ?_, ?_, ?_, ?_, ?_,
    ?_, ?_, ?_, ?_, ?_, ?_, ?_, ?_, ?_, ?_, ?_, ?_, ?_, ?_, ?_, ?_, ?_⟩ <;>
  · rw [← rename_dbl (junk := junk) (by decide)]
    simp only [loadFrom, loadBeam, State6.ofRPY, State6.ofQuat]
    try norm_num

/-- C131: the whole numbers. -/
theorem C131_integers (junk : String → ℝ) (s : Server) (p : Params) (hp : load junk s = some p) :
    (∀ e ∈ integers, e.2.2 p = (s.getInt e.1).getD e.2.1) ∧
    p.totalAccumCloudMax = (s.getInt "total_accum_cloud_max").getD (10 * p.accumCloud) ∧
    p.beam.numGlobal = toSize ((s.getInt "beam/num_points_global").getD 0) := by
  have hp' := load_some hp
  subst hp'
  simp only [integers, List.forall_mem_cons, List.not_mem_nil, false_imp_iff, implies_true, and_true]
  refine ⟨⟨?_, ?_, ?_⟩, ?_, ?_⟩ <;>
  · rw [← rename_int (junk := junk) (by decide)]
    simp only [loadFrom, loadBeam, mul_comm]

theorem toInt_eq (d : ℝ) : Server.toInt d = if 0 ≤ d then ⌊d + 1 / 2⌋ else ⌊d⌋ := by
  unfold Server.toInt
  by_cases h : 0 ≤ d
  · simp only [if_pos h]
    have h1 := Int.floor_le d
    have h2 := Int.lt_floor_add_one d
    by_cases h3 : d - ⌊d⌋ < 1 / 2
    · rw [if_pos h3]
      symm
      rw [Int.floor_eq_iff]
      constructor <;> linarith
    · rw [if_neg h3]
      have h4 : ⌈d⌉ = ⌊d⌋ + 1 := by
        rw [Int.ceil_eq_iff]
        push_cast
        constructor <;> linarith [not_lt.1 h3]
      rw [h4]
      symm
      rw [Int.floor_eq_iff]
      push_cast
      constructor <;> linarith [not_lt.1 h3]
  · simp only [if_neg h]
    rw [if_pos]
    linarith [Int.le_ceil d]

/-- C131: a whole number that is set to a number with a fraction: the nearest whole number, and upward from the middle; but
downward if it is negative. -/
theorem C131_rounded (junk : String → ℝ) (s : Server) (p : Params) (hp : load junk s = some p) :
    ∀ e ∈ integers, ∀ d, s e.1 = some (.dbl d) →
      (0 ≤ d → e.2.2 p = ⌊d + 1 / 2⌋) ∧ (d < 0 → e.2.2 p = ⌊d⌋) := by
  intro e he d hd
  have h := (C131_integers junk s p hp).1 e he
  rw [Server.getInt, hd] at h
  simp only [Option.getD_some, toInt_eq] at h
  exact ⟨fun h0 => by rw [h, if_pos h0], fun h0 => by rw [h, if_neg (not_le.2 h0)]⟩

/-- 2.5 particles are 3. -/
example (junk : String → ℝ) (s : Server) (p : Params) (hp : load junk s = some p) (h : s "num_particles" = some (.dbl (5 / 2))) :
    p.numParticles = 3 := by
  have := ((C131_rounded junk s p hp) ("num_particles", 64, fun p => p.numParticles) (by simp [integers]) (5 / 2) h).1 (by norm_num)
  simp only at this
  rw [this]
  norm_num

/-- C131: the switches. -/
theorem C131_switches (junk : String → ℝ) (s : Server) (p : Params) (hp : load junk s = some p) :
    ∀ e ∈ switches, e.2.2 p = (s.getBool e.1).getD e.2.1 := by
  have hp' := load_some hp
  subst hp'
  simp only [switches, List.forall_mem_cons, List.not_mem_nil, false_imp_iff, implies_true, and_true]
  refine ⟨rfl, rfl, ?_, ?_, ?_, ?_, ?_⟩ <;>
  · rw [← rename_bool (junk := junk) (by decide)]
    simp only [loadFrom, loadBeam]

/-- C131: the frame names. -/
theorem C131_frames (junk : String → ℝ) (s : Server) (p : Params) (hp : load junk s = some p) :
    ∀ e ∈ frames, e.2.2 p = (s.getStr e.1).getD e.2.1 := by
  have hp' := load_some hp
  subst hp'
  simp only [frames, List.forall_mem_cons, List.not_mem_nil, false_imp_iff, implies_true, and_true]
  refine ⟨?_, ?_, ?_, ?_⟩ <;>
  · rw [← rename_str (junk := junk) (by decide)]
    simp only [loadFrom]

/-- C131: the orientation of the initial pose. -/
theorem C131_initial (junk : String → ℝ) (s : Server) (p : Params) (hp : load junk s = some p) :
    p.initialPose.rot = Quat.ofRPY ⟨(s.getDouble "init_roll").getD 0, (s.getDouble "init_pitch").getD 0,
      (s.getDouble "init_yaw").getD 0⟩ := by
  have hp' := load_some hp
  subst hp'
  rw [← rename_dbl (junk := junk) (by decide), ← rename_dbl (junk := junk) (by decide),
    ← rename_dbl (junk := junk) (by decide)]
  simp only [loadFrom, State6.ofQuat]

/-- C131: the settings of the sampler and of the ray caster. -/
theorem C131_switched (junk : String → ℝ) (s : Server) (p : Params) (hp : load junk s = some p) :
    (p.useNormalSampler = true →
      p.samplerPerform = (s.getDouble "random_sampler_with_normal/perform_weighting_ratio").getD 2 ∧
      p.samplerMaxRatio = (s.getDouble "random_sampler_with_normal/max_weight_ratio").getD 5 ∧
      p.samplerMaxWeight = (s.getDouble "random_sampler_with_normal/max_weight").getD 5 ∧
      p.samplerRange = (s.getDouble "random_sampler_with_normal/normal_search_range").getD 0.4) ∧
    (p.useDda = true →
      p.rayAngleHalf = (s.getDouble "beam/ray_angle_half").getD (0.25 * Real.pi / 180)) := by
  have hp' := load_some hp
  subst hp'
  constructor
  · intro h
    rw [← rename_dbl (junk := junk) (by decide), ← rename_dbl (junk := junk) (by decide),
      ← rename_dbl (junk := junk) (by decide), ← rename_dbl (junk := junk) (by decide)]
    simp only [loadFrom] at h ⊢
    rw [if_pos h, if_pos h, if_pos h, if_pos h]
    norm_num
  · intro h
    rw [← rename_dbl (junk := junk) (by decide)]
    simp only [loadFrom] at h ⊢
    rw [if_pos h]
    norm_num

/-- C131: the warning thresholds the node starts with: the value given, limited to the range of the
dynamic_reconfigure description (0 to the largest double); without one, no warning can be issued for a
finite standard deviation, as the threshold is the largest double. -/
theorem C131_warn (junk : String → ℝ) (s : Server) (p : Params) (hp : load junk s = some p) :
    ∀ e ∈ warns, e.2 p =
      if (s.getDouble e.1).getD dblMax < 0 then 0
      else if dblMax < (s.getDouble e.1).getD dblMax then dblMax
      else (s.getDouble e.1).getD dblMax := by
  have hp' := load_some hp
  subst hp'
  have h0 : (0 : ℝ) ≤ dblMax := by
    unfold dblMax
    have : (2 : ℝ) ^ (-52 : ℤ) ≤ 2 ^ (0 : ℤ) := zpow_le_zpow_right₀ (by norm_num) (by norm_num)
    apply mul_nonneg _ (by positivity)
    rw [zpow_zero] at this
    linarith
  have key : ∀ v : ℝ, max 0 (min dblMax v) = if v < 0 then 0 else if dblMax < v then dblMax else v := by
    intro v
    split_ifs with h1 h2
    · exact max_eq_left ((min_le_right _ _).trans h1.le)
    · rw [min_eq_left h2.le, max_eq_right h0]
    · rw [min_eq_right (not_lt.1 h2), max_eq_right (not_lt.1 h1)]
  simp only [warns, List.forall_mem_cons, List.not_mem_nil, false_imp_iff, implies_true, and_true]
  refine ⟨?_, ?_, ?_⟩ <;>
  · rw [← key, ← rename_dbl (junk := junk) (by decide)]
    rfl

/-- C131: what is derived from them: the smallest and the largest grid size of the map, and the number of
headings of the global localization, the whole number nearest to a full turn divided by the angular
step. -/
theorem C131_derived (junk : String → ℝ) (s : Server) (p : Params) (hp : load junk s = some p) :
    (∀ g ∈ [p.mapDownsample.x, p.mapDownsample.y, p.mapDownsample.z], p.mapGridMin ≤ g ∧ g ≤ p.mapGridMax) ∧
    p.mapGridMin ∈ [p.mapDownsample.x, p.mapDownsample.y, p.mapDownsample.z] ∧
    p.mapGridMax ∈ [p.mapDownsample.x, p.mapDownsample.y, p.mapDownsample.z] ∧
    ∀ step : ℝ, (s.getDouble "global_localization_grid_ang").getD 0.524 = step → 0 < step →
      (p.divYaw : ℝ) - 1 / 2 ≤ 2 * Real.pi / step ∧ 2 * Real.pi / step < p.divYaw + 1 / 2 := by
  have hp' := load_some hp
  subst hp'
  refine ⟨?_, ?_, ?_, ?_⟩
  · intro g hg
    simp only [loadFrom, List.mem_cons, List.not_mem_nil, or_false] at hg ⊢
    rcases hg with rfl | rfl | rfl <;> simp
  · simp only [loadFrom, List.mem_cons, List.not_mem_nil, or_false]
    rcases min_choice (min ((rename junk s).dblD "map_downsample_x" (1 / 10))
      ((rename junk s).dblD "map_downsample_y" (1 / 10))) ((rename junk s).dblD "map_downsample_z" (1 / 10)) with h | h
    · rw [h]
      rcases min_choice ((rename junk s).dblD "map_downsample_x" (1 / 10))
        ((rename junk s).dblD "map_downsample_y" (1 / 10)) with h' | h' <;> rw [h'] <;> simp
    · rw [h]; simp
  · simp only [loadFrom, List.mem_cons, List.not_mem_nil, or_false]
    rcases max_choice (max ((rename junk s).dblD "map_downsample_x" (1 / 10))
      ((rename junk s).dblD "map_downsample_y" (1 / 10))) ((rename junk s).dblD "map_downsample_z" (1 / 10)) with h | h
    · rw [h]
      rcases max_choice ((rename junk s).dblD "map_downsample_x" (1 / 10))
        ((rename junk s).dblD "map_downsample_y" (1 / 10)) with h' | h' <;> rw [h'] <;> simp
    · rw [h]; simp
  · intro step h1 h2
    rw [← rename_dbl (junk := junk) (by decide)] at h1
    have e : (0.524 : ℝ) = 524 / 1000 := by norm_num
    rw [e] at h1
    simp only [loadFrom, h1, if_neg h2.ne', lround]
    have h3 : 0 ≤ 2 * Real.pi / step := by positivity
    rw [if_pos h3]
    have h4 := Int.floor_le (2 * Real.pi / step + 1 / 2)
    have h5 := Int.lt_floor_add_one (2 * Real.pi / step + 1 / 2)
    constructor <;> linarith

/-- C131: the map is cut into cubes of `map_chunk`, and the widest search the models announce is the
largest of four times each `map_downsample_*` (the beam model) and `match_dist_min` (the likelihood
model), and not negative. -/
theorem C131_search_range (p : Params) :
    (Node.kdCfg p).chunkLength = p.mapChunk ∧
    IsGreatest {0, 4 * p.mapDownsample.x, 4 * p.mapDownsample.y, 4 * p.mapDownsample.z, p.like.matchDistMin}
      (Node.kdCfg p).maxSearchRadius := by
  refine ⟨rfl, ?_⟩
  simp only [Node.kdCfg, cmax_eq]
  constructor
  · simp only [Set.mem_insert_iff, Set.mem_singleton_iff]
    rcases max_choice (max 0 (max (max p.mapDownsample.x p.mapDownsample.y) p.mapDownsample.z * 4)) p.like.matchDistMin with h | h
    · rw [h]
      rcases max_choice 0 (max (max p.mapDownsample.x p.mapDownsample.y) p.mapDownsample.z * 4) with h | h
      · rw [h]; simp
      · rw [h]
        rcases max_choice (max p.mapDownsample.x p.mapDownsample.y) p.mapDownsample.z with h | h
        · rw [h]
          rcases max_choice p.mapDownsample.x p.mapDownsample.y with h | h <;> rw [h, mul_comm] <;> simp
        · rw [h, mul_comm]; simp
    · rw [h]; simp
  · have h1 := le_max_left (max p.mapDownsample.x p.mapDownsample.y) p.mapDownsample.z
    have h2 := le_max_right (max p.mapDownsample.x p.mapDownsample.y) p.mapDownsample.z
    have h3 := le_max_left p.mapDownsample.x p.mapDownsample.y
    have h4 := le_max_right p.mapDownsample.x p.mapDownsample.y
    intro x hx
    simp only [Set.mem_insert_iff, Set.mem_singleton_iff] at hx
    simp only [le_max_iff]
    rcases hx with h | h | h | h | h <;> subst h
    · simp
    · left; right; linarith
    · left; right; linarith
    · left; right; linarith
    · simp

/-- C131: nothing but the named parameters has any effect. -/
theorem C131_nothing_else (junk : String → ℝ) (s s' : Server) (h : ∀ n ∈ allNames, s n = s' n) :
    load junk s = load junk s' := by
  have hren : ∀ r ∈ renames, r.1 ∈ others ∧ r.2 ∈ others := by decide
  have hsub : ∀ n ∈ others, n ∈ allNames := fun n hn => by simp [allNames, hn]
  have key : ∀ n ∈ allNames, rename junk s n = rename junk s' n := by
    intro n hn
    by_cases hr : ∃ r ∈ renames, r.1 = n
    · obtain ⟨r, hr, rfl⟩ := hr
      rw [rename_eq junk s r hr, rename_eq junk s' r hr]
      have h1 := h r.1 (hsub _ (hren r hr).1)
      have h2 := h r.2 (hsub _ (hren r hr).2)
      unfold Compat.paramRename
      rw [h2]
      cases h3 : s' r.2 with
      | none => exact h1
      | some v =>
        simp only
        rw [h1]
        cases h4 : s' r.1 with
        | some w => simp only; rw [h1, h4]
        | none => simp [Server.set, Server.getDouble, h2]
    · push Not at hr
      rw [(C102_old_untouched junk s n hr).1, (C102_old_untouched junk s' n hr).1, h n hn]
  generalize hs1 : rename junk s = t at key
  generalize hs2 : rename junk s' = t' at key
  have d : ∀ n ∈ allNames, ∀ x, t.dblD n x = t'.dblD n x := fun n hn x => by
    simp only [Server.dblD, Server.getDouble, key n hn]
  have i : ∀ n ∈ allNames, ∀ x, t.intD n x = t'.intD n x := fun n hn x => by
    simp only [Server.intD, Server.getInt, key n hn]
  have b : ∀ n ∈ allNames, ∀ x, t.boolD n x = t'.boolD n x := fun n hn x => by
    simp only [Server.boolD, Server.getBool, key n hn]
  have st : ∀ n ∈ allNames, ∀ x, t.strD n x = t'.strD n x := fun n hn x => by
    simp only [Server.strD, Server.getStr, key n hn]
  have b0 : ∀ n ∈ allNames, ∀ x, s.boolD n x = s'.boolD n x := fun n hn x => by
    simp only [Server.boolD, Server.getBool, h n hn]
  have hl : ∀ fi fo, loadFrom junk t fi fo = loadFrom junk t' fi fo := by
    intro fi fo
    simp only [allNames, documented, numbers, integers, switches, frames, others, List.map_cons, List.map_nil,
      List.cons_append, List.nil_append, List.forall_mem_cons, List.not_mem_nil, false_imp_iff, implies_true,
      and_true] at d i b st
    unfold loadFrom loadLike loadBeam loadDdaGrid configThresh
    simp only [d, i, b, st]
  unfold load
  simp only [hs1, hs2, hl, b0 "fake_imu" (by decide), b0 "fake_odom" (by decide)]

/-- C131 is not empty: a configuration in which two parameters are set. -/
example (junk : String → ℝ) : ∃ p, load junk (fun n => if n = "odom_err_ang_lin" then some (.dbl 7)
      else if n = "num_particles" then some (.int 9) else none) = some p ∧
    p.errAngLin = 7 ∧ p.errLinAng = 0.05 ∧ p.numParticles = 9 := by
  obtain ⟨p, hp⟩ : ∃ p, load junk (fun n => if n = "odom_err_ang_lin" then some (.dbl 7)
      else if n = "num_particles" then some (.int 9) else none) = some p := by
    simp [load, Server.boolD, Server.getBool]
  have h := C131_documented junk _ p hp
  have h2 := (C131_integers junk _ p hp).1
  refine ⟨p, hp, ?_, ?_, ?_⟩
  · rw [show p.errAngLin = _ from h ("odom_err_ang_lin", 0.05, fun p => p.errAngLin) (by simp [documented])]
    simp [Server.getDouble]
  · rw [show p.errLinAng = _ from h ("odom_err_lin_ang", 0.05, fun p => p.errLinAng) (by simp [documented])]
    simp [Server.getDouble]
  · rw [show p.numParticles = _ from h2 ("num_particles", 64, fun p => p.numParticles) (by simp [integers])]
    simp [Server.getInt]

end ParamTable
end Mcl3dl
