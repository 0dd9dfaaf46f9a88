{
 "claims": [
  {
   "property": "C01",
   "status": "proved",
   "theorems": [
    "Mcl3dl.CloudAccum.C01_batch_is_recorded"
   ],
   "note": "refinement of the traced push to a batch specification, all call histories"
  },
  {
   "property": "C02",
   "status": "proved",
   "theorems": [
    "Mcl3dl.CloudAccum.C02_accumulate_once_process_nonempty"
   ],
   "note": ""
  },
  {
   "property": "C03",
   "status": "proved",
   "theorems": [
    "Mcl3dl.CloudAccum.C03_batch_size_bounds"
   ],
   "note": ""
  },
  {
   "property": "C04",
   "status": "proved",
   "theorems": [
    "Mcl3dl.CloudAccum.C04_process_iff_complete"
   ],
   "note": ""
  },
  {
   "property": "C05",
   "status": "proved",
   "theorems": [
    "Mcl3dl.CloudAccum.C05_no_loss_no_duplication"
   ],
   "note": ""
  },
  {
   "property": "C06",
   "status": "proved",
   "theorems": [
    "Mcl3dl.CloudAccum.C06_failure_discards"
   ],
   "note": ""
  },
  {
   "property": "C07",
   "status": "proved",
   "theorems": [
    "Mcl3dl.CloudAccum.C07_bounded_latency"
   ],
   "note": ""
  },
  {
   "property": "C08",
   "status": "proved",
   "theorems": [
    "Mcl3dl.CloudAccum.C08_push_defined",
    "Mcl3dl.CloudAccum.C08_zero_max_undefined",
    "Mcl3dl.CloudAccum.C08_defined_iff"
   ],
   "note": "iff; restated: the expectation fails for total_accum_cloud_max = 0 (C08_zero_max_undefined)"
  },
  {
   "property": "C09",
   "status": "proved",
   "theorems": [
    "Mcl3dl.CloudAccum.C09_pass_through"
   ],
   "note": ""
  },
  {
   "property": "C10",
   "status": "proved",
   "theorems": [
    "Mcl3dl.PF.C10_particle_count"
   ],
   "note": ""
  },
  {
   "property": "C11",
   "status": "proved",
   "theorems": [
    "Mcl3dl.PF.C11_measure_bayes"
   ],
   "note": ""
  },
  {
   "property": "C12",
   "status": "proved",
   "theorems": [
    "Mcl3dl.PF.C12_measure_all_or_nothing"
   ],
   "note": "any arithmetic, including NaN"
  },
  {
   "property": "C13",
   "status": "proved",
   "theorems": [
    "Mcl3dl.PF.C13_weights_distribution"
   ],
   "note": ""
  },
  {
   "property": "C14",
   "status": "proved",
   "theorems": [
    "Mcl3dl.PF.C14_scale_invariance",
    "Mcl3dl.PF.C14_fusion",
    "Mcl3dl.PF.C14_order_irrelevant"
   ],
   "note": ""
  },
  {
   "property": "C15",
   "status": "proved",
   "theorems": [
    "Mcl3dl.PF.C15_entropy"
   ],
   "note": ""
  },
  {
   "property": "C16",
   "status": "proved",
   "theorems": [
    "Mcl3dl.PF.C16_resample_invents_nothing"
   ],
   "note": "any arithmetic, any ordered permutation as the result of std::sort"
  },
  {
   "property": "C17",
   "status": "proved",
   "theorems": [
    "Mcl3dl.PF.C17_low_variance",
    "Mcl3dl.PF.C17_positive_weights",
    "Mcl3dl.PF.C17_zero_draw",
    "Mcl3dl.PF.C17_sources"
   ],
   "note": "for families and every draw; single particles for positive weights; C17_zero_draw shows the off-by-one"
  },
  {
   "property": "C18",
   "status": "proved",
   "theorems": [
    "Mcl3dl.PF.C18_survivors",
    "Mcl3dl.PF.C18_zero_weight_dies",
    "Mcl3dl.PF.C18_needs_stable_sort",
    "Mcl3dl.PF.C18_needs_positive_draw"
   ],
   "note": "exact conditions for survival (C18_survivors); C18_needs_stable_sort and C18_needs_positive_draw show both occur"
  },
  {
   "property": "C19",
   "status": "proved",
   "theorems": [
    "Mcl3dl.PF.C19_noise_on_repeats",
    "Mcl3dl.PF.C19_first_copy_disturbed"
   ],
   "note": "restated as what happens; C19_first_copy_disturbed shows where the expectation fails"
  },
  {
   "property": "C20",
   "status": "proved",
   "theorems": [
    "Mcl3dl.PF.C20_resize_keeps_distribution",
    "Mcl3dl.PF.C20_positive_weights",
    "Mcl3dl.PF.C20_resize_own_size",
    "Mcl3dl.PF.C20_needs_stable_sort",
    "Mcl3dl.PF.C20_sources"
   ],
   "note": "for families, any sort; C20_needs_stable_sort shows why not for single particles"
  },
  {
   "property": "C21",
   "status": "proved",
   "theorems": [
    "Mcl3dl.PF.C21_defined",
    "Mcl3dl.PF.C21_empty_undefined",
    "Mcl3dl.PF.C21_defined_iff"
   ],
   "note": "iff (C21_defined_iff); C21_empty_undefined: empty filters are reachable"
  },
  {
   "property": "C22",
   "status": "proved",
   "theorems": [
    "Mcl3dl.PF.C22_max_is_first_maximum",
    "Mcl3dl.PF.C22_maxBiased_is_first_maximum"
   ],
   "note": ""
  },
  {
   "property": "C23",
   "status": "proved",
   "theorems": [
    "Mcl3dl.PF.C23_expectation_is_weighted_mean"
   ],
   "note": ""
  },
  {
   "property": "C24",
   "status": "proved",
   "theorems": [
    "Mcl3dl.PF.C24_expectation_prefix",
    "Mcl3dl.PF.C24_effect",
    "Mcl3dl.PF.C24_not_most_probable"
   ],
   "note": "restated as what happens; C24_not_most_probable shows where the expectation fails"
  },
  {
   "property": "C25",
   "status": "proved",
   "theorems": [
    "Mcl3dl.PF.C25_covariance_psd",
    "Mcl3dl.PF.C25_selection",
    "Mcl3dl.PF.C25_uses_all",
    "Mcl3dl.PF.C25_empty_selection",
    "Mcl3dl.PF.C25_empty_selection_nan"
   ],
   "note": "including the empty selection (C25_empty_selection)"
  },
  {
   "property": "C26",
   "status": "proved",
   "theorems": [
    "Mcl3dl.PF.C26_expectation_prefix",
    "Mcl3dl.PF.C26_expectation_uses_all",
    "Mcl3dl.PF.C26_stops_early"
   ],
   "note": "for all weights; C26_stops_early shows where the expectation fails"
  },
  {
   "property": "C27",
   "status": "proved",
   "theorems": [
    "Mcl3dl.PF.C27_append_keeps_mean",
    "Mcl3dl.PF.C27_append_inert"
   ],
   "note": ""
  },
  {
   "property": "C28",
   "status": "proved",
   "theorems": [
    "Mcl3dl.Quat.C28_rotate_dot",
    "Mcl3dl.Quat.C28_unit_preserves_dot",
    "Mcl3dl.Quat.C28_unit_preserves_cross",
    "Mcl3dl.Quat.C28_rotate_linear",
    "Mcl3dl.Quat.C28_rotate_norm"
   ],
   "note": ""
  },
  {
   "property": "C29",
   "status": "proved",
   "theorems": [
    "Mcl3dl.Quat.C29_mul_rotate",
    "Mcl3dl.Quat.C29_mul_assoc",
    "Mcl3dl.Quat.C29_one",
    "Mcl3dl.Quat.C29_dot_mul",
    "Mcl3dl.Quat.C29_norm_mul"
   ],
   "note": ""
  },
  {
   "property": "C30",
   "status": "proved",
   "theorems": [
    "Mcl3dl.Quat.C30_inv_mul",
    "Mcl3dl.Quat.C30_inv_rotate",
    "Mcl3dl.Quat.C30_inv_unit",
    "Mcl3dl.Quat.C30_inv_real"
   ],
   "note": ""
  },
  {
   "property": "C31",
   "status": "proved",
   "theorems": [
    "Mcl3dl.Quat.C31_normalized",
    "Mcl3dl.Quat.C31_normalized_rotate",
    "Mcl3dl.Quat.C31_normalized_unit",
    "Mcl3dl.Quat.C31_only_zero_fails"
   ],
   "note": ""
  },
  {
   "property": "C32",
   "status": "proved",
   "theorems": [
    "Mcl3dl.Quat.C32_unit",
    "Mcl3dl.Quat.C32_composition",
    "Mcl3dl.Quat.C32_matrix"
   ],
   "note": ""
  },
  {
   "property": "C33",
   "status": "proved",
   "theorems": [
    "Mcl3dl.Quat.C33_getRPY_ofRPY"
   ],
   "note": ""
  },
  {
   "property": "C34",
   "status": "proved",
   "theorems": [
    "Mcl3dl.Quat.C34_roundtrip",
    "Mcl3dl.Quat.C34_gimbal_lock",
    "Mcl3dl.Quat.C34_gimbal_lock_example"
   ],
   "note": "both cases; C34_gimbal_lock_example shows the loss"
  },
  {
   "property": "C35",
   "status": "proved",
   "theorems": [
    "Mcl3dl.Quat.C35_unit",
    "Mcl3dl.Quat.C35_rodrigues",
    "Mcl3dl.Quat.C35_fixes_axis"
   ],
   "note": ""
  },
  {
   "property": "C36",
   "status": "proved",
   "theorems": [
    "Mcl3dl.Quat.C36_getAxisAng",
    "Mcl3dl.Quat.C36_near_identity"
   ],
   "note": ""
  },
  {
   "property": "C37",
   "status": "proved",
   "theorems": [
    "Mcl3dl.Quat.C37_rotateAxis",
    "Mcl3dl.Quat.C37_near_identity"
   ],
   "note": ""
  },
  {
   "property": "C38",
   "status": "proved",
   "theorems": [
    "Mcl3dl.Quat.C38_unit",
    "Mcl3dl.Quat.C38_lookAt",
    "Mcl3dl.Quat.C38_half_turn_example"
   ],
   "note": "iff; C38_half_turn_example shows where the expectation fails"
  },
  {
   "property": "C39",
   "status": "proved",
   "theorems": [
    "Mcl3dl.State6.C39_mean_equal_orientation",
    "Mcl3dl.State6.C39_half_turn_example"
   ],
   "note": "iff; C39_half_turn_example shows where the expectation fails"
  },
  {
   "property": "C40",
   "status": "proved",
   "theorems": [
    "Mcl3dl.State6.C40_sub_add",
    "Mcl3dl.State6.C40_add_sub",
    "Mcl3dl.State6.C40_needs_nonzero"
   ],
   "note": ""
  },
  {
   "property": "C41",
   "status": "proved",
   "theorems": [
    "Mcl3dl.State6.C41_covElement",
    "Mcl3dl.State6.C41_turn_invariant"
   ],
   "note": ""
  },
  {
   "property": "C42",
   "status": "proved",
   "theorems": [
    "Mcl3dl.State6.C42_pointwise",
    "Mcl3dl.State6.C42_rigid",
    "Mcl3dl.State6.C42_orientation"
   ],
   "note": ""
  },
  {
   "property": "C43",
   "status": "proved",
   "theorems": [
    "Mcl3dl.State6.C43_init",
    "Mcl3dl.State6.C43_linear_example"
   ],
   "note": "restated as what happens; C43_linear_example shows where the expectation fails"
  },
  {
   "property": "C44",
   "status": "proved",
   "theorems": [
    "Mcl3dl.State6.C44_noise_resets",
    "Mcl3dl.State6.C44_noise_example",
    "Mcl3dl.State6.C44_resample_resets"
   ],
   "note": "restated as what happens, for noise() and resample; C44_noise_example shows where the expectation fails"
  },
  {
   "property": "C45",
   "status": "proved",
   "theorems": [
    "Mcl3dl.State6.C45_zero_sigma",
    "Mcl3dl.State6.C45_all_zero",
    "Mcl3dl.State6.C45_short_mean"
   ],
   "note": ""
  },
  {
   "property": "C46",
   "status": "proved",
   "theorems": [
    "Mcl3dl.Filt.C46_set_steady"
   ],
   "note": ""
  },
  {
   "property": "C47",
   "status": "proved",
   "theorems": [
    "Mcl3dl.Filt.C47_no_overshoot",
    "Mcl3dl.Filt.C47_overshoot_below_half"
   ],
   "note": ""
  },
  {
   "property": "C48",
   "status": "proved",
   "theorems": [
    "Mcl3dl.Filt.C48_error_formula",
    "Mcl3dl.Filt.C48_converges"
   ],
   "note": ""
  },
  {
   "property": "C49",
   "status": "proved",
   "theorems": [
    "Mcl3dl.Filt.C49_complementary"
   ],
   "note": ""
  },
  {
   "property": "C50",
   "status": "proved",
   "theorems": [
    "Mcl3dl.Filt.C50_shortest_turn",
    "Mcl3dl.Filt.C50_ignores_turns"
   ],
   "note": ""
  },
  {
   "property": "C51",
   "status": "proved",
   "theorems": [
    "Mcl3dl.FiltVec3.C51_componentwise"
   ],
   "note": ""
  },
  {
   "property": "C52",
   "status": "proved",
   "theorems": [
    "Mcl3dl.ChunkedKdtree.C52_equals_whole_cloud_search",
    "Mcl3dl.ChunkedKdtree.C52_needs_weights"
   ],
   "note": ""
  },
  {
   "property": "C53",
   "status": "proved",
   "theorems": [
    "Mcl3dl.ChunkedKdtree.C53_ids_valid"
   ],
   "note": ""
  },
  {
   "property": "C54",
   "status": "proved",
   "theorems": [
    "Mcl3dl.ChunkedKdtree.C54_beyond_overlap_example",
    "Mcl3dl.ChunkedKdtree.C54_reach",
    "Mcl3dl.ChunkedKdtree.C54_beyond_overlap"
   ],
   "note": "every radius that is not refused; C54_beyond_overlap_example shows where the expectation fails"
  },
  {
   "property": "C55",
   "status": "proved",
   "theorems": [
    "Mcl3dl.ChunkedKdtree.C55_throws_iff"
   ],
   "note": ""
  },
  {
   "property": "C56",
   "status": "proved",
   "theorems": [
    "Mcl3dl.ChunkedKdtree.C56_chunk_clouds",
    "Mcl3dl.ChunkedKdtree.C56_chunk_content",
    "Mcl3dl.ChunkedKdtree.C56_getChunkCloud"
   ],
   "note": ""
  },
  {
   "property": "C57",
   "status": "proved",
   "theorems": [
    "Mcl3dl.ChunkedKdtree.C57_hash_defined",
    "Mcl3dl.ChunkedKdtree.C57_negative_undefined"
   ],
   "note": "iff; C57_negative_undefined: every point with negative y"
  },
  {
   "property": "C58",
   "status": "proved",
   "theorems": [
    "Mcl3dl.DDA.C58_calls_defined",
    "Mcl3dl.DDA.C58_array_index",
    "Mcl3dl.DDA.C58_points_in_grid",
    "Mcl3dl.DDA.C58_setRay_defined",
    "Mcl3dl.DDA.C58_zero_grid",
    "Mcl3dl.DDA.C58_negative_grid",
    "Mcl3dl.DDA.C58_zero_length_undefined"
   ],
   "note": "setRay on a zero-length ray is undefined (C58_zero_length_undefined); proved for all others"
  },
  {
   "property": "C59",
   "status": "proved",
   "theorems": [
    "Mcl3dl.DDA.C59_path"
   ],
   "note": ""
  },
  {
   "property": "C60",
   "status": "proved",
   "theorems": [
    "Mcl3dl.DDA.C60_covers",
    "Mcl3dl.DDA.C60_examined_cells_met",
    "Mcl3dl.DDA.C60_needs_end_above_min"
   ],
   "note": "the extended end point must not lie below the map minimum (C60_needs_end_above_min shows the hypothesis is needed)"
  },
  {
   "property": "C61",
   "status": "proved",
   "theorems": [
    "Mcl3dl.DDA.C61_collisions"
   ],
   "note": ""
  },
  {
   "property": "C62",
   "status": "proved",
   "theorems": [
    "Mcl3dl.DDA.C62_current_map",
    "Mcl3dl.DDA.C62_same_stamp_ignored",
    "Mcl3dl.DDA.C62_same_stamp_example",
    "Mcl3dl.Lidar.C62_dangling"
   ],
   "note": "both cases; C62_same_stamp_example shows where the expectation fails"
  },
  {
   "property": "C63",
   "status": "proved",
   "theorems": [
    "Mcl3dl.DDA.C63_z_ignored",
    "Mcl3dl.DDA.C63_threshold"
   ],
   "note": "restated as what happens"
  },
  {
   "property": "C64",
   "status": "proved",
   "theorems": [
    "Mcl3dl.DDA.C64_outside"
   ],
   "note": ""
  },
  {
   "property": "C65",
   "status": "proved",
   "theorems": [
    "Mcl3dl.KDRay.C65_results",
    "Mcl3dl.KDRay.C65_samples",
    "Mcl3dl.KDRay.C65_within",
    "Mcl3dl.KDRay.C65_zero_grid",
    "Mcl3dl.KDRay.C65_zero_length"
   ],
   "note": ""
  },
  {
   "property": "C66",
   "status": "proved",
   "theorems": [
    "Mcl3dl.Lidar.C66_classification",
    "Mcl3dl.Lidar.C66_dda",
    "Mcl3dl.Lidar.C66_kdtree"
   ],
   "note": ""
  },
  {
   "property": "C67",
   "status": "proved",
   "theorems": [
    "Mcl3dl.Lidar.C67_bounds",
    "Mcl3dl.Lidar.C67_empty"
   ],
   "note": ""
  },
  {
   "property": "C68",
   "status": "proved",
   "theorems": [
    "Mcl3dl.Lidar.C68_likelihood",
    "Mcl3dl.Lidar.C68_zero",
    "Mcl3dl.Lidar.C68_global_localization_example"
   ],
   "note": "restated with the configured number; C68_global_localization_example shows where the expectation fails"
  },
  {
   "property": "C69",
   "status": "proved",
   "theorems": [
    "Mcl3dl.Lidar.C69_filter",
    "Mcl3dl.Lidar.C69_nan_passes"
   ],
   "note": "real coordinates, and C69_nan_passes for NaN"
  },
  {
   "property": "C70",
   "status": "proved",
   "theorems": [
    "Mcl3dl.Lidar.C70_number_of_points",
    "Mcl3dl.Lidar.C70_models"
   ],
   "note": ""
  },
  {
   "property": "C71",
   "status": "proved",
   "theorems": [
    "Mcl3dl.Lidar.C71_score",
    "Mcl3dl.Lidar.C71_empty",
    "Mcl3dl.Lidar.C71_bounds",
    "Mcl3dl.Lidar.C71_monotone"
   ],
   "note": ""
  },
  {
   "property": "C72",
   "status": "proved",
   "theorems": [
    "Mcl3dl.Sampler.C72_uniform"
   ],
   "note": ""
  },
  {
   "property": "C73",
   "status": "proved",
   "theorems": [
    "Mcl3dl.Sampler.C73_distinct"
   ],
   "note": ""
  },
  {
   "property": "C74",
   "status": "proved",
   "theorems": [
    "Mcl3dl.Sampler.C74_terminates",
    "Mcl3dl.Sampler.C74_zero_covariance",
    "Mcl3dl.Sampler.C74_zero_covariance_eigenvalues",
    "Mcl3dl.Sampler.C74_returns_iff"
   ],
   "note": "iff (C74_returns_iff), over extended reals with NaN; C74_zero_covariance: never ends"
  },
  {
   "property": "C75",
   "status": "proved",
   "theorems": [
    "Mcl3dl.Sampler.C75_range",
    "Mcl3dl.Sampler.C75_levels",
    "Mcl3dl.Sampler.C75_monotone"
   ],
   "note": ""
  },
  {
   "property": "C76",
   "status": "proved",
   "theorems": [
    "Mcl3dl.Sampler.C76_axis",
    "Mcl3dl.Sampler.C76_nonneg",
    "Mcl3dl.Sampler.C76_negative_correlation"
   ],
   "note": "restated as what happens; C76_negative_correlation shows where the expectation fails"
  },
  {
   "property": "C77",
   "status": "proved",
   "theorems": [
    "Mcl3dl.Motion.C77_step",
    "Mcl3dl.Motion.C77_sequence"
   ],
   "note": ""
  },
  {
   "property": "C78",
   "status": "proved",
   "theorems": [
    "Mcl3dl.Motion.C78_unit",
    "Mcl3dl.Motion.C78_yaw_error",
    "Mcl3dl.Motion.C78_angle"
   ],
   "note": ""
  },
  {
   "property": "C79",
   "status": "proved",
   "theorems": [
    "Mcl3dl.Motion.C79_decay",
    "Mcl3dl.Motion.C79_bounded"
   ],
   "note": ""
  },
  {
   "property": "C80",
   "status": "proved",
   "theorems": [
    "Mcl3dl.NormalLikelihood.C80_density",
    "Mcl3dl.NormalLikelihood.C80_shape",
    "Mcl3dl.NormalLikelihood.C80_zero_sigma",
    "Mcl3dl.NormalLikelihoodNd.C80_multivariate",
    "Mcl3dl.NormalLikelihoodNd.C80_diagonal"
   ],
   "note": ""
  },
  {
   "property": "C81",
   "status": "proved",
   "theorems": [
    "Mcl3dl.GravityModel.C81_wellDefined",
    "Mcl3dl.GravityModel.C81_max",
    "Mcl3dl.GravityModel.C81_yaw_invariant",
    "Mcl3dl.GravityModel.C81_zero_acceleration"
   ],
   "note": ""
  },
  {
   "property": "C82",
   "status": "proved",
   "theorems": [
    "Mcl3dl.Node.C82_cloud_ignored_without_map"
   ],
   "note": ""
  },
  {
   "property": "C83",
   "status": "proved",
   "theorems": [
    "Mcl3dl.Node.C83_buffers_exist",
    "Mcl3dl.Node.C83_buffers_exist_any",
    "Mcl3dl.Node.C83_labels",
    "Mcl3dl.Node.C83_beam_labels"
   ],
   "note": ""
  },
  {
   "property": "C84",
   "status": "proved",
   "theorems": [
    "Mcl3dl.Node.C84_first_update",
    "Mcl3dl.Node.C84_second_update_example"
   ],
   "note": "first update; C85 gives the content after any history; C84_second_update_example shows where the expectation fails"
  },
  {
   "property": "C85",
   "status": "proved",
   "theorems": [
    "Mcl3dl.Node.C85_active_map",
    "Mcl3dl.Node.C85_published_map",
    "Mcl3dl.Node.C85_load_discards"
   ],
   "note": ""
  },
  {
   "property": "C86",
   "status": "proved",
   "theorems": [
    "Mcl3dl.Node.C86_gate",
    "Mcl3dl.Node.C86_telescopes",
    "Mcl3dl.Node.C86_exact"
   ],
   "note": ""
  },
  {
   "property": "C87",
   "status": "proved",
   "theorems": [
    "Mcl3dl.Node.C87_constant",
    "Mcl3dl.Node.C87_gate"
   ],
   "note": ""
  },
  {
   "property": "C88",
   "status": "proved",
   "theorems": [
    "Mcl3dl.Node.C88_terminates",
    "Mcl3dl.Node.C88_at_most_one",
    "Mcl3dl.Node.C88_both_rejected"
   ],
   "note": ""
  },
  {
   "property": "C89",
   "status": "proved",
   "theorems": [
    "Mcl3dl.Node.C89_every_nth",
    "Mcl3dl.Node.C89_skipped_is_silent"
   ],
   "note": ""
  },
  {
   "property": "C90",
   "status": "proved",
   "theorems": [
    "Mcl3dl.Node.C90_zero",
    "Mcl3dl.Node.C90_division_by_zero",
    "Mcl3dl.Node.C90_nonzero",
    "Mcl3dl.Node.C90_int"
   ],
   "note": "both directions: C90_nonzero, C90_zero, C90_division_by_zero"
  },
  {
   "property": "C91",
   "status": "proved",
   "theorems": [
    "Mcl3dl.Node.C91_one",
    "Mcl3dl.Node.C91_returns"
   ],
   "note": ""
  },
  {
   "property": "C92",
   "status": "proved",
   "theorems": [
    "Mcl3dl.Node.C92_status"
   ],
   "note": ""
  },
  {
   "property": "C93",
   "status": "proved",
   "theorems": [
    "Mcl3dl.Node.C93_convergence",
    "Mcl3dl.Node.C93_large"
   ],
   "note": "all measurements; the exempt period is given by the measurements before"
  },
  {
   "property": "C94",
   "status": "proved",
   "theorems": [
    "Mcl3dl.Node.C94_tolerance"
   ],
   "note": ""
  },
  {
   "property": "C95",
   "status": "proved",
   "theorems": [
    "Mcl3dl.Node.C95_no_map",
    "Mcl3dl.Node.C95_grid",
    "Mcl3dl.Node.C95_heading",
    "Mcl3dl.Node.C95_coverage"
   ],
   "note": ""
  },
  {
   "property": "C96",
   "status": "proved",
   "theorems": [
    "Mcl3dl.Node.C96_sum",
    "Mcl3dl.Node.C96_sum_example"
   ],
   "note": "the sum is proved; C96_sum_example shows it is 12 by default"
  },
  {
   "property": "C97",
   "status": "proved",
   "theorems": [
    "Mcl3dl.Node.C97_rejected",
    "Mcl3dl.Node.C97_accepted",
    "Mcl3dl.Node.C97_exact"
   ],
   "note": ""
  },
  {
   "property": "C98",
   "status": "proved",
   "theorems": [
    "Mcl3dl.Node.C98_jump"
   ],
   "note": ""
  },
  {
   "property": "C99",
   "status": "proved",
   "theorems": [
    "Mcl3dl.Node.C99_published",
    "Mcl3dl.Node.C99_consistent"
   ],
   "note": ""
  },
  {
   "property": "C100",
   "status": "proved",
   "theorems": [
    "Mcl3dl.Node.C100_disjoint",
    "Mcl3dl.Node.C100_reach",
    "Mcl3dl.Node.C100_exact",
    "Mcl3dl.Node.C100_matched",
    "Mcl3dl.Node.C100_beyond_search_range"
   ],
   "note": "disjoint always; exact for every distance that is searched (C100_reach); C100_beyond_search_range shows where the expectation fails"
  },
  {
   "property": "C101",
   "status": "proved",
   "theorems": [
    "Mcl3dl.Node.C101_stays",
    "Mcl3dl.Node.C101_matched",
    "Mcl3dl.Node.C101_undefined_before"
   ],
   "note": "C101_undefined_before shows where the expectation fails"
  },
  {
   "property": "C102",
   "status": "proved",
   "theorems": [
    "Mcl3dl.Params.C102_old_untouched",
    "Mcl3dl.Params.C102_renamed",
    "Mcl3dl.Params.C102_not_a_number",
    "Mcl3dl.Params.C102_loaded",
    "Mcl3dl.Params.C102_mistyped"
   ],
   "note": "both cases: C102_renamed, C102_not_a_number"
  },
  {
   "property": "C103",
   "status": "proved",
   "theorems": [
    "Mcl3dl.Params.C103_refused",
    "Mcl3dl.Params.C103_names",
    "Mcl3dl.Params.C103_opened",
    "Mcl3dl.Params.C103_not_both"
   ],
   "note": ""
  },
  {
   "property": "C104",
   "status": "proved",
   "theorems": [
    "Mcl3dl.Params.C104_label_filter"
   ],
   "note": ""
  },
  {
   "property": "C105",
   "status": "proved",
   "theorems": [
    "Mcl3dl.Params.C105_dda_grid"
   ],
   "note": ""
  },
  {
   "property": "C106",
   "status": "proved",
   "theorems": [
    "Mcl3dl.Conv.C106_success",
    "Mcl3dl.Conv.C106_content",
    "Mcl3dl.Conv.C106_other_datatypes"
   ],
   "note": "all messages and targets; C106_other_datatypes shows the surprising cases"
  },
  {
   "property": "C107",
   "status": "proved",
   "theorems": [
    "Mcl3dl.KDRay.C107_collision",
    "Mcl3dl.KDRay.C107_sin_unit_weights",
    "Mcl3dl.KDRay.C107_samples",
    "Mcl3dl.KDRay.C107_no_miss",
    "Mcl3dl.KDRay.C107_chunked"
   ],
   "note": ""
  },
  {
   "property": "C108",
   "status": "proved",
   "theorems": [
    "Mcl3dl.Landmark.C108_landmark",
    "Mcl3dl.Landmark.C108_sign_invariant"
   ],
   "note": ""
  },
  {
   "property": "C109",
   "status": "proved",
   "theorems": [
    "Mcl3dl.MultiNoise.C109_mean_covariance",
    "Mcl3dl.MultiNoise.C109_not_symmetric",
    "Mcl3dl.MultiNoise.C109_not_psd_nan"
   ],
   "note": ""
  },
  {
   "property": "C110",
   "status": "proved",
   "theorems": [
    "Mcl3dl.Node.C110_no_crash",
    "Mcl3dl.Node.C110_particles",
    "Mcl3dl.Node.C110_needs_xyz"
   ],
   "note": ""
  },
  {
   "property": "C111",
   "status": "proved",
   "theorems": [
    "Mcl3dl.Node.C111_batches"
   ],
   "note": ""
  },
  {
   "property": "C112",
   "status": "proved",
   "theorems": [
    "Mcl3dl.Node.C112_measured"
   ],
   "note": ""
  },
  {
   "property": "C113",
   "status": "proved",
   "theorems": [
    "Mcl3dl.Node.C113_hull",
    "Mcl3dl.Node.C113_node"
   ],
   "note": ""
  },
  {
   "property": "C114",
   "status": "proved",
   "theorems": [
    "Mcl3dl.Node.C114_unanimous",
    "Mcl3dl.Node.C114_half_turn_example",
    "Mcl3dl.Node.C114_node"
   ],
   "note": "iff; C114_half_turn_example shows where the expectation fails"
  },
  {
   "property": "C115",
   "status": "proved",
   "theorems": [
    "Mcl3dl.Node.C115_published",
    "Mcl3dl.Node.C115_since",
    "Mcl3dl.Node.C115_weights",
    "Mcl3dl.Node.C115_after_pose"
   ],
   "note": ""
  },
  {
   "property": "C116",
   "status": "proved",
   "theorems": [
    "Mcl3dl.Node.C116_rate"
   ],
   "note": ""
  },
  {
   "property": "C117",
   "status": "proved",
   "theorems": [
    "Mcl3dl.Node.C117_ratio",
    "Mcl3dl.Node.C117_extremes"
   ],
   "note": ""
  },
  {
   "property": "C118",
   "status": "proved",
   "theorems": [
    "Mcl3dl.Node.C118_estimate"
   ],
   "note": ""
  },
  {
   "property": "C119",
   "status": "proved",
   "theorems": [
    "Mcl3dl.Quat.C119_weighted",
    "Mcl3dl.Quat.C119_parts"
   ],
   "note": ""
  },
  {
   "property": "C120",
   "status": "proved",
   "theorems": [
    "Mcl3dl.PF.C120_slots",
    "Mcl3dl.PF.C120_weights"
   ],
   "note": ""
  },
  {
   "property": "C122",
   "status": "proved",
   "theorems": [
    "Mcl3dl.Node.C122_coefficients",
    "Mcl3dl.Node.C122_zero",
    "Mcl3dl.Node.C122_expansion"
   ],
   "note": "with and without expansion"
  },
  {
   "property": "C123",
   "status": "proved",
   "theorems": [
    "Mcl3dl.Node.C123_default",
    "Mcl3dl.Node.C123_service",
    "Mcl3dl.Node.C123_automatic"
   ],
   "note": ""
  },
  {
   "property": "C124",
   "status": "proved",
   "theorems": [
    "Mcl3dl.Node.C124_resampling",
    "Mcl3dl.Node.C124_positive_weights"
   ],
   "note": ""
  },
  {
   "property": "C126",
   "status": "proved",
   "theorems": [
    "Mcl3dl.Node.C126_unit",
    "Mcl3dl.Node.C126_published"
   ],
   "note": ""
  },
  {
   "property": "C121",
   "status": "proved",
   "theorems": [
    "Mcl3dl.Node.C121_angular_ignored",
    "Mcl3dl.Node.C121_start",
    "Mcl3dl.Node.C121_linear"
   ],
   "note": "translational factor, no effect of the rotational error (C121_angular_ignored), start (C121_start)"
  },
  {
   "property": "C130",
   "status": "proved",
   "theorems": [
    "Mcl3dl.Node.C130_start"
   ],
   "note": ""
  },
  {
   "property": "C131",
   "status": "proved",
   "theorems": [
    "Mcl3dl.Node.C131_kd_ray",
    "Mcl3dl.Node.C131_dda_ray",
    "Mcl3dl.Node.C131_caster_choice",
    "Mcl3dl.ParamTable.C131_documented",
    "Mcl3dl.ParamTable.C131_numbers",
    "Mcl3dl.ParamTable.C131_integers",
    "Mcl3dl.ParamTable.C131_rounded",
    "Mcl3dl.ParamTable.C131_switches",
    "Mcl3dl.ParamTable.C131_frames",
    "Mcl3dl.ParamTable.C131_initial",
    "Mcl3dl.ParamTable.C131_switched",
    "Mcl3dl.ParamTable.C131_warn",
    "Mcl3dl.ParamTable.C131_derived",
    "Mcl3dl.ParamTable.C131_search_range",
    "Mcl3dl.ParamTable.C131_nothing_else"
   ],
   "note": ""
  },
  {
   "property": "C132",
   "status": "proved",
   "theorems": [
    "Mcl3dl.ChunkedKdtree.C132_last_settings",
    "Mcl3dl.ChunkedKdtree.C132_exact"
   ],
   "note": ""
  },
  {
   "property": "C125",
   "status": "proved",
   "theorems": [
    "Mcl3dl.Node.C125_markers"
   ],
   "note": ""
  },
  {
   "property": "C127",
   "status": "proved",
   "theorems": [
    "Mcl3dl.Node.C127_added",
    "Mcl3dl.Node.C127_discarded",
    "Mcl3dl.Node.C127_kept",
    "Mcl3dl.Node.C127_off"
   ],
   "note": ""
  },
  {
   "property": "C128",
   "status": "proved",
   "theorems": [
    "Mcl3dl.Node.C128_landmark",
    "Mcl3dl.Node.C128_frame_ignored"
   ],
   "note": ""
  },
  {
   "property": "C129",
   "status": "proved",
   "theorems": [
    "Mcl3dl.Node.C129_covariance"
   ],
   "note": ""
  },
  {
   "property": "C133",
   "status": "proved",
   "theorems": [
    "Mcl3dl.Node.C133_tolerance"
   ],
   "note": ""
  },
  {
   "property": "C134",
   "status": "proved",
   "theorems": [
    "Mcl3dl.Node.C134_smoothing"
   ],
   "note": ""
  },
  {
   "property": "C135",
   "status": "proved",
   "theorems": [
    "Mcl3dl.Node.C135_as_received",
    "Mcl3dl.Node.C135_level",
    "Mcl3dl.Node.C135_tilt"
   ],
   "note": ""
  },
  {
   "property": "C136",
   "status": "proved",
   "theorems": [
    "Mcl3dl.Node.C136_as_received"
   ],
   "note": ""
  },
  {
   "property": "C137",
   "status": "proved",
   "theorems": [
    "Mcl3dl.Node.C137_status",
    "Mcl3dl.Node.C137_diagnostics"
   ],
   "note": ""
  },
  {
   "property": "C138",
   "status": "proved",
   "theorems": [
    "Mcl3dl.PF.C138_measure_rounded",
    "Mcl3dl.PF.C138_sum_error"
   ],
   "note": ""
  },
  {
   "property": "C139",
   "status": "proved",
   "theorems": [
    "Mcl3dl.Node.C139_kdtree",
    "Mcl3dl.Node.C139_dda"
   ],
   "note": ""
  },
  {
   "property": "C140",
   "status": "proved",
   "theorems": [
    "Mcl3dl.ChunkedKdtree.C140_setInputCloud",
    "Mcl3dl.ChunkedKdtree.C140_radiusSearch",
    "Mcl3dl.ChunkedKdtree.C140_wide",
    "Mcl3dl.ChunkedKdtree.C140_negative"
   ],
   "note": ""
  },
  {
   "property": "C141",
   "status": "proved",
   "theorems": [
    "Mcl3dl.NonFinite.C141_density",
    "Mcl3dl.NonFinite.C141_odom_sigma",
    "Mcl3dl.NonFinite.C141_acc_var",
    "Mcl3dl.NonFinite.C141_bias",
    "Mcl3dl.NonFinite.C141_time_constant"
   ],
   "note": ""
  },
  {
   "property": "C142",
   "status": "proved",
   "theorems": [
    "Mcl3dl.NonFinite.C142_measure",
    "Mcl3dl.NonFinite.C142_resample",
    "Mcl3dl.NonFinite.C142_nan"
   ],
   "note": ""
  },
  {
   "property": "C143",
   "status": "proved",
   "theorems": [
    "Mcl3dl.C143_integral",
    "Mcl3dl.C143_moments",
    "Mcl3dl.C143_multivariate",
    "Mcl3dl.C143_covariance"
   ],
   "note": ""
  },
  {
   "property": "C144",
   "status": "proved",
   "theorems": [
    "Mcl3dl.PF.C144_equal_weights",
    "Mcl3dl.PF.C144_zero_offset"
   ],
   "note": ""
  },
  {
   "property": "C145",
   "status": "proved",
   "theorems": [
    "Mcl3dl.KDRay.C145_flat_wall"
   ],
   "note": ""
  },
  {
   "property": "C146",
   "status": "proved",
   "theorems": [
    "Mcl3dl.Motion.C146_step",
    "Mcl3dl.Motion.C146_run",
    "Mcl3dl.Motion.C146_turn"
   ],
   "note": ""
  },
  {
   "property": "C147",
   "status": "proved",
   "theorems": [
    "Mcl3dl.Node.C147_no_crash",
    "Mcl3dl.Node.C147_statistics",
    "Mcl3dl.Node.C147_stuck"
   ],
   "note": ""
  },
  {
   "property": "C148",
   "status": "proved",
   "theorems": [
    "Mcl3dl.C148_vectors",
    "Mcl3dl.C148_quaternions",
    "Mcl3dl.C148_index",
    "Mcl3dl.C148_equality",
    "Mcl3dl.C148_assignments"
   ],
   "note": ""
  },
  {
   "property": "C149",
   "status": "proved",
   "theorems": [
    "Mcl3dl.Motion.C149_odometry",
    "Mcl3dl.Motion.C149_map",
    "Mcl3dl.Lidar.C149_score",
    "Mcl3dl.GravityModel.C149_gravity",
    "Mcl3dl.C149_landmark",
    "Mcl3dl.Node.C149_estimate"
   ],
   "note": ""
  },
  {
   "property": "C150",
   "status": "proved",
   "theorems": [
    "Mcl3dl.PF.C150_relabel",
    "Mcl3dl.PF.C150_queries",
    "Mcl3dl.PF.C150_poses",
    "Mcl3dl.PF.C150_shift"
   ],
   "note": ""
  },
  {
   "property": "C151",
   "status": "proved",
   "theorems": [
    "Mcl3dl.State6.C151_read",
    "Mcl3dl.State6.C151_write",
    "Mcl3dl.State6.C151_ext",
    "Mcl3dl.State6.C151_add_sub",
    "Mcl3dl.State6.C151_noise"
   ],
   "note": ""
  },
  {
   "property": "C152",
   "status": "proved",
   "theorems": [
    "Mcl3dl.DDA.C152_dda",
    "Mcl3dl.Lidar.C152_beam",
    "Mcl3dl.Lidar.C152_order"
   ],
   "note": ""
  },
  {
   "property": "C153",
   "status": "proved",
   "theorems": [
    "Mcl3dl.PF.C153_measure",
    "Mcl3dl.PF.C153_predict_bias",
    "Mcl3dl.PF.C153_mean",
    "Mcl3dl.PF.C153_covariance",
    "Mcl3dl.PF.C153_max",
    "Mcl3dl.PF.C153_large_weights",
    "Mcl3dl.Node.C153_estimate"
   ],
   "note": ""
  },
  {
   "property": "C154",
   "status": "proved",
   "theorems": [
    "Mcl3dl.PF.C154_unbiased",
    "Mcl3dl.PF.C154_mean"
   ],
   "note": ""
  },
  {
   "property": "C155",
   "status": "proved",
   "theorems": [
    "Mcl3dl.PF.C155_rate",
    "Mcl3dl.PF.C155_others",
    "Mcl3dl.PF.C155_max",
    "Mcl3dl.PF.C155_mean",
    "Mcl3dl.PF.C155_limit"
   ],
   "note": ""
  },
  {
   "property": "C156",
   "status": "proved",
   "theorems": [
    "Mcl3dl.Opposed.C156_lookAt_parallel",
    "Mcl3dl.Opposed.C156_lookAt",
    "Mcl3dl.Opposed.C156_estimate",
    "Mcl3dl.Opposed.C156_bias",
    "Mcl3dl.Opposed.C156_forever",
    "Mcl3dl.Opposed.C156_opposed"
   ],
   "note": ""
  },
  {
   "property": "C157",
   "status": "proved",
   "theorems": [
    "Mcl3dl.Lidar.C157_best",
    "Mcl3dl.Lidar.C157_gap",
    "Mcl3dl.Lidar.C157_converges"
   ],
   "note": ""
  },
  {
   "property": "C158",
   "status": "proved",
   "theorems": [
    "Mcl3dl.PF.C158_copies",
    "Mcl3dl.PF.C158_float"
   ],
   "note": ""
  },
  {
   "property": "C159",
   "status": "proved",
   "theorems": [
    "Mcl3dl.Node.C159_in_range",
    "Mcl3dl.Node.C159_parameters",
    "Mcl3dl.Node.C159_computed",
    "Mcl3dl.Node.C159_2038"
   ],
   "note": ""
  },
  {
   "property": "C160",
   "status": "proved",
   "theorems": [
    "Mcl3dl.Node.C160_measures",
    "Mcl3dl.Node.C160_published"
   ],
   "note": ""
  },
  {
   "property": "C161",
   "status": "proved",
   "theorems": [
    "Mcl3dl.PF.C161_estimate",
    "Mcl3dl.PF.C161_expectation"
   ],
   "note": ""
  },
  {
   "property": "C162",
   "status": "proved",
   "theorems": [
    "Mcl3dl.Node.C162_undisturbed",
    "Mcl3dl.Node.C162_messages",
    "Mcl3dl.Node.C162_refused"
   ],
   "note": ""
  },
  {
   "property": "C163",
   "status": "proved",
   "theorems": [
    "Mcl3dl.Lidar.C163_status",
    "Mcl3dl.Lidar.C163_result",
    "Mcl3dl.Lidar.C163_rule",
    "Mcl3dl.Lidar.C163_dda",
    "Mcl3dl.Lidar.C163_kdtree",
    "Mcl3dl.Node.C163_markers",
    "Mcl3dl.Node.C163_places"
   ],
   "note": ""
  },
  {
   "property": "C164",
   "status": "proved",
   "theorems": [
    "Mcl3dl.Node.C164_unread",
    "Mcl3dl.Node.C164_header",
    "Mcl3dl.Node.C164_untransformed"
   ],
   "note": ""
  },
  {
   "property": "C165",
   "status": "proved",
   "theorems": [
    "Mcl3dl.Node.C165_carried",
    "Mcl3dl.Node.C165_between",
    "Mcl3dl.Node.C165_estimate"
   ],
   "note": ""
  },
  {
   "property": "C166",
   "status": "proved",
   "theorems": [
    "Mcl3dl.Sampler.C166_draws",
    "Mcl3dl.Sampler.C166_mean",
    "Mcl3dl.Sampler.C166_variance",
    "Mcl3dl.Sampler.C166_seldom",
    "Mcl3dl.Sampler.C166_score"
   ],
   "note": ""
  },
  {
   "property": "C167",
   "status": "proved",
   "theorems": [
    "Mcl3dl.Sampler.C167_law",
    "Mcl3dl.Sampler.C167_single",
    "Mcl3dl.Sampler.C167_returns"
   ],
   "note": ""
  },
  {
   "property": "C168",
   "status": "proved",
   "theorems": [
    "Mcl3dl.Node.C168_start",
    "Mcl3dl.Node.C168_expansion",
    "Mcl3dl.Node.C168_initialpose",
    "Mcl3dl.Node.C168_automatic",
    "Mcl3dl.Node.C168_jitter",
    "Mcl3dl.Node.C168_start_mean",
    "Mcl3dl.Node.C168_initialpose_mean"
   ],
   "note": ""
  },
  {
   "property": "C169",
   "status": "proved",
   "theorems": [
    "Mcl3dl.Node.C169_drive",
    "Mcl3dl.Node.C169_default"
   ],
   "note": ""
  },
  {
   "property": "C170",
   "status": "proved",
   "theorems": [
    "Mcl3dl.RoundedGeom.C170_normalize",
    "Mcl3dl.RoundedGeom.C170_scale",
    "Mcl3dl.RoundedGeom.C170_no_drift",
    "Mcl3dl.RoundedGeom.C170_resample"
   ],
   "note": ""
  },
  {
   "property": "C171",
   "status": "proved",
   "theorems": [
    "Mcl3dl.Node.C171_lag",
    "Mcl3dl.Node.C171_constant",
    "Mcl3dl.Node.C171_converges"
   ],
   "note": ""
  },
  {
   "property": "C172",
   "status": "proved",
   "theorems": [
    "Mcl3dl.Node.C172_accepted",
    "Mcl3dl.Node.C172_final",
    "Mcl3dl.Node.C172_start",
    "Mcl3dl.Node.C172_fatal_request",
    "Mcl3dl.Node.C172_fatal_cloud",
    "Mcl3dl.Node.C172_nowhere",
    "Mcl3dl.Node.C172_empty_map"
   ],
   "note": ""
  },
  {
   "property": "C173",
   "status": "proved",
   "theorems": [
    "Mcl3dl.C173_no_accumulation",
    "Mcl3dl.C173_stays_in_range"
   ],
   "note": ""
  },
  {
   "property": "C174",
   "status": "proved",
   "theorems": [
    "Mcl3dl.BadOdom.C174_message",
    "Mcl3dl.BadOdom.C174_first",
    "Mcl3dl.BadOdom.C174_proper",
    "Mcl3dl.BadOdom.C174_lost",
    "Mcl3dl.BadOdom.C174_estimate",
    "Mcl3dl.BadOdom.C174_forever",
    "Mcl3dl.BadOdom.C174_smoothing"
   ],
   "note": ""
  },
  {
   "property": "C175",
   "status": "proved",
   "theorems": [
    "Mcl3dl.DDA.C175_calls_defined",
    "Mcl3dl.DDA.C175_setRay_defined",
    "Mcl3dl.DDA.C175_setRay_again",
    "Mcl3dl.DDA.C175_points_kept",
    "Mcl3dl.DDA.C175_rounding",
    "Mcl3dl.DDA.C175_nan",
    "Mcl3dl.DDA.C175_exact_setRay",
    "Mcl3dl.DDA.C175_exact_getNext"
   ],
   "note": ""
  },
  {
   "property": "C176",
   "status": "proved",
   "theorems": [
    "Mcl3dl.Lidar.C176_smooth",
    "Mcl3dl.Lidar.C176_shift",
    "Mcl3dl.Lidar.C176_turn",
    "Mcl3dl.Lidar.C176_noise",
    "Mcl3dl.Lidar.C176_ratio_jumps"
   ],
   "note": ""
  },
  {
   "property": "C177",
   "status": "proved",
   "theorems": [
    "Mcl3dl.PF.C177_weights",
    "Mcl3dl.PF.C177_estimate",
    "Mcl3dl.PF.C177_absolute",
    "Mcl3dl.PF.C177_scan_noise"
   ],
   "note": ""
  },
  {
   "property": "C178",
   "status": "proved",
   "theorems": [
    "Mcl3dl.Lidar.C178_local",
    "Mcl3dl.Lidar.C178_more"
   ],
   "note": ""
  },
  {
   "property": "C179",
   "status": "proved",
   "theorems": [
    "Mcl3dl.Lidar.C179_beam",
    "Mcl3dl.Lidar.C179_scan"
   ],
   "note": ""
  },
  {
   "property": "C180",
   "status": "proved",
   "theorems": [
    "Mcl3dl.Node.C180_cloud",
    "Mcl3dl.Node.C180_update"
   ],
   "note": ""
  },
  {
   "property": "C181",
   "status": "proved",
   "theorems": [
    "Mcl3dl.Node.C181_clear",
    "Mcl3dl.Node.C181_kdtree",
    "Mcl3dl.Node.C181_dda",
    "Mcl3dl.Node.C181_upright",
    "Mcl3dl.Node.C181_near",
    "Mcl3dl.Node.C181_opposite"
   ],
   "note": ""
  },
  {
   "property": "C182",
   "status": "proved",
   "theorems": [
    "Mcl3dl.ChunkedKdtree.C182_sound",
    "Mcl3dl.ChunkedKdtree.C182_complete",
    "Mcl3dl.ChunkedKdtree.C182_weighted",
    "Mcl3dl.ChunkedKdtree.C182_float",
    "Mcl3dl.ChunkedKdtree.C182_lost"
   ],
   "note": ""
  },
  {
   "property": "C183",
   "status": "proved",
   "theorems": [
    "Mcl3dl.DDA.C183_cast",
    "Mcl3dl.Lidar.C183_beam",
    "Mcl3dl.Lidar.C183_scan",
    "Mcl3dl.DDA.C183_box"
   ],
   "note": ""
  },
  {
   "property": "C184",
   "status": "proved",
   "theorems": [
    "Mcl3dl.Lidar.C184_counting",
    "Mcl3dl.Lidar.C184_counted",
    "Mcl3dl.Lidar.C184_kd",
    "Mcl3dl.Lidar.C184_dda",
    "Mcl3dl.Lidar.C184_work",
    "Mcl3dl.Node.C184_batch_counting",
    "Mcl3dl.Node.C184_batch",
    "Mcl3dl.Lidar.C184_attained"
   ],
   "note": ""
  },
  {
   "property": "C185",
   "status": "proved",
   "theorems": [
    "Mcl3dl.Node.C185_covariance",
    "Mcl3dl.Node.C185_subset",
    "Mcl3dl.Node.C185_zero"
   ],
   "note": ""
  },
  {
   "property": "C186",
   "status": "proved",
   "theorems": [
    "Mcl3dl.Node.C186_scans"
   ],
   "note": ""
  },
  {
   "property": "C187",
   "status": "proved",
   "theorems": [
    "Mcl3dl.Node.C187_number",
    "Mcl3dl.Node.C187_bounds"
   ],
   "note": ""
  }
 ]
}