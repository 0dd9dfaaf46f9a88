import Verif.Model.Params

/-! # The parameters of the node: names, defaults and meaning

From /repo/doc/Parameters.md (the documented ones) and the launch files and tests (the others). -/

namespace Mcl3dl
namespace ParamTable

/-- Numbers: name, default, what is set.  The documented ones. -/
noncomputable def documented : List (String × ℝ × (Params → ℝ)) :=
  [("match_ratio_thresh", 0, fun p => p.matchRatioThresh),
   ("expansion_var_x", 0.2, fun p => p.expansionVar.pos.x),
   ("expansion_var_y", 0.2, fun p => p.expansionVar.pos.y),
   ("expansion_var_z", 0.2, fun p => p.expansionVar.pos.z),
   ("expansion_var_roll", 0.05, fun p => p.expansionVar.rpy.x),
   ("expansion_var_pitch", 0.05, fun p => p.expansionVar.rpy.y),
   ("expansion_var_yaw", 0.05, fun p => p.expansionVar.rpy.z),
   ("odom_err_lin_lin", 0.1, fun p => p.errLinLin),
   ("odom_err_lin_ang", 0.05, fun p => p.errLinAng),
   ("odom_err_ang_lin", 0.05, fun p => p.errAngLin),
   ("odom_err_ang_ang", 0.05, fun p => p.errAngAng),
   ("odom_err_integ_lin_tc", 10, fun p => p.integLinTc),
   ("odom_err_integ_lin_sigma", 100, fun p => p.integLinSigma),
   ("odom_err_integ_ang_tc", 10, fun p => p.integAngTc),
   ("odom_err_integ_ang_sigma", 100, fun p => p.integAngSigma)]

/-- The other numbers that have only one name. -/
noncomputable def numbers : List (String × ℝ × (Params → ℝ)) :=
  [("map_downsample_x", 0.1, fun p => p.mapDownsample.x),
   ("map_downsample_y", 0.1, fun p => p.mapDownsample.y),
   ("map_downsample_z", 0.1, fun p => p.mapDownsample.z),
   ("downsample_x", 0.1, fun p => p.downsample.x),
   ("downsample_y", 0.1, fun p => p.downsample.y),
   ("downsample_z", 0.05, fun p => p.downsample.z),
   ("update_downsample_x", 0.3, fun p => p.updateDownsample.x),
   ("update_downsample_y", 0.3, fun p => p.updateDownsample.y),
   ("update_downsample_z", 0.3, fun p => p.updateDownsample.z),
   ("map_update_interval_interval", 2, fun p => p.mapUpdateInterval),
   ("dist_weight_x", 1, fun p => p.distWeight.x),
   ("dist_weight_y", 1, fun p => p.distWeight.y),
   ("dist_weight_z", 5, fun p => p.distWeight.z),
   ("global_localization_grid_lin", 0.3, fun p => p.globalGrid),
   ("resample_var_x", 0.05, fun p => p.resampleVar.pos.x),
   ("resample_var_y", 0.05, fun p => p.resampleVar.pos.y),
   ("resample_var_z", 0.05, fun p => p.resampleVar.pos.z),
   ("resample_var_roll", 0.05, fun p => p.resampleVar.rpy.x),
   ("resample_var_pitch", 0.05, fun p => p.resampleVar.rpy.y),
   ("resample_var_yaw", 0.05, fun p => p.resampleVar.rpy.z),
   ("lpf_step", 16, fun p => p.lpfStep),
   ("acc_lpf_step", 128, fun p => p.accLpfStep),
   ("acc_var", Real.pi / 4, fun p => p.accVar),
   ("jump_dist", 1, fun p => p.jumpDist),
   ("jump_ang", 1.57, fun p => p.jumpAng),
   ("fix_dist", 0.2, fun p => p.fixDist),
   ("fix_ang", 0.1, fun p => p.fixAng),
   ("bias_var_dist", 2, fun p => p.biasVarDist),
   ("bias_var_ang", 1.57, fun p => p.biasVarAng),
   ("match_output_interval_interval", 0.2, fun p => p.matchOutputInterval),
   ("tf_tolerance", 0.05, fun p => p.tfTolerance),
   ("match_output_dist", 0.1, fun p => p.matchOutputDist),
   ("unmatch_output_dist", 0.5, fun p => p.unmatchOutputDist),
   ("map_chunk", 20, fun p => p.mapChunk),
   ("init_x", 0, fun p => p.initialPose.pos.x),
   ("init_y", 0, fun p => p.initialPose.pos.y),
   ("init_z", 0, fun p => p.initialPose.pos.z),
   ("init_var_x", 2, fun p => p.initialPoseStd.pos.x),
   ("init_var_y", 2, fun p => p.initialPoseStd.pos.y),
   ("init_var_z", 0.5, fun p => p.initialPoseStd.pos.z),
   ("init_var_roll", 0.1, fun p => p.initialPoseStd.rpy.x),
   ("init_var_pitch", 0.1, fun p => p.initialPoseStd.rpy.y),
   ("init_var_yaw", 0.5, fun p => p.initialPoseStd.rpy.z),
   ("beam/hit_range", 0.3, fun p => p.beam.hitRange)]

/-- Whole numbers. -/
def integers : List (String × ℤ × (Params → ℤ)) :=
  [("num_particles", 64, fun p => p.numParticles),
   ("skip_measure", 1, fun p => p.skipMeasure),
   ("accum_cloud", 1, fun p => p.accumCloud)]

/-- Switches. -/
def switches : List (String × Bool × (Params → Bool)) :=
  [("fake_imu", false, fun p => p.fakeImu),
   ("fake_odom", false, fun p => p.fakeOdom),
   ("publish_tf", true, fun p => p.publishTf),
   ("output_pcd", false, fun p => p.outputPcd),
   ("use_random_sampler_with_normal", false, fun p => p.useNormalSampler),
   ("beam/use_raycast_using_dda", false, fun p => p.useDda),
   ("beam/add_penalty_short_only_mode", true, fun p => p.beam.shortOnly)]

/-- Frame names. -/
def frames : List (String × String × (Params → String)) :=
  [("map_frame", "map", fun p => p.mapFrame),
   ("robot_frame", "base_link", fun p => p.baseFrame),
   ("odom_frame", "odom", fun p => p.odomFrame),
   ("floor_frame", "floor", fun p => p.floorFrame)]

/-- The largest finite double. -/
noncomputable def dblMax : ℝ := (2 - 2 ^ (-52 : ℤ)) * 2 ^ 1023

/-- The warning thresholds (cfg/MCL3DLParams.cfg). -/
def warns : List (String × (Params → ℝ)) :=
  [("std_warn_thresh_xy", fun p => p.stdWarn.x),
   ("std_warn_thresh_z", fun p => p.stdWarn.y),
   ("std_warn_thresh_yaw", fun p => p.stdWarn.z)]

/-- The names of all the parameters that are not in one of the lists above. -/
def others : List String :=
  ["global_localization_grid_ang", "total_accum_cloud_max", "init_roll", "init_pitch", "init_yaw",
   "std_warn_thresh_xy", "std_warn_thresh_z", "std_warn_thresh_yaw",
   "random_sampler_with_normal/perform_weighting_ratio", "random_sampler_with_normal/max_weight_ratio",
   "random_sampler_with_normal/max_weight", "random_sampler_with_normal/normal_search_range",
   "beam/num_points_global", "beam/filter_label_max", "beam/ray_angle_half", "beam/dda_grid_size",
   "likelihood/clip_near", "likelihood/clip_far", "likelihood/clip_z_min", "likelihood/clip_z_max",
   "likelihood/match_dist_min", "likelihood/match_dist_flat", "likelihood/match_weight", "likelihood/num_points",
   "likelihood/num_points_global", "beam/clip_near", "beam/clip_far", "beam/clip_z_min", "beam/clip_z_max",
   "beam/num_points", "beam/beam_likelihood", "beam/ang_total_ref",
   "clip_near", "clip_far", "clip_z_min", "clip_z_max", "match_dist_min", "match_dist_flat", "match_weight",
   "num_points", "num_points_global", "clip_beam_near", "clip_beam_far", "clip_beam_z_min", "clip_beam_z_max",
   "num_points_beam", "beam_likelihood", "ang_total_ref"]

/-- All names. -/
noncomputable def allNames : List String :=
  documented.map Prod.fst ++ numbers.map Prod.fst ++ integers.map Prod.fst ++ switches.map Prod.fst ++
    frames.map Prod.fst ++ others

end ParamTable
end Mcl3dl
