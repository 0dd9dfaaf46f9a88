{
 "C01": "refinement of the traced push to a batch specification, all call histories",
 "C08": "iff; restated: the expectation fails for total_accum_cloud_max = 0 (C08_zero_max_undefined)",
 "C12": "any arithmetic, including NaN",
 "C16": "any arithmetic, any ordered permutation as the result of std::sort",
 "C17": "for families and every draw; single particles for positive weights; C17_zero_draw shows the off-by-one",
 "C18": "exact conditions for survival (C18_survivors); C18_needs_stable_sort and C18_needs_positive_draw show both occur",
 "C19": "restated as what happens; C19_first_copy_disturbed shows where the expectation fails",
 "C20": "for families, any sort; C20_needs_stable_sort shows why not for single particles",
 "C21": "iff (C21_defined_iff); C21_empty_undefined: empty filters are reachable",
 "C24": "restated as what happens; C24_not_most_probable shows where the expectation fails",
 "C25": "including the empty selection (C25_empty_selection)",
 "C26": "for all weights; C26_stops_early shows where the expectation fails",
 "C34": "both cases; C34_gimbal_lock_example shows the loss",
 "C38": "iff; C38_half_turn_example shows where the expectation fails",
 "C39": "iff; C39_half_turn_example shows where the expectation fails",
 "C43": "restated as what happens; C43_linear_example shows where the expectation fails",
 "C44": "restated as what happens, for noise() and resample; C44_noise_example shows where the expectation fails",
 "C54": "every radius that is not refused; C54_beyond_overlap_example shows where the expectation fails",
 "C57": "iff; C57_negative_undefined: every point with negative y",
 "C58": "setRay on a zero-length ray is undefined (C58_zero_length_undefined); proved for all others",
 "C60": "the extended end point must not lie below the map minimum (C60_needs_end_above_min shows the hypothesis is needed)",
 "C62": "both cases; C62_same_stamp_example shows where the expectation fails",
 "C63": "restated as what happens",
 "C68": "restated with the configured number; C68_global_localization_example shows where the expectation fails",
 "C69": "real coordinates, and C69_nan_passes for NaN",
 "C74": "iff (C74_returns_iff), over extended reals with NaN; C74_zero_covariance: never ends",
 "C76": "restated as what happens; C76_negative_correlation shows where the expectation fails",
 "C84": "first update; C85 gives the content after any history; C84_second_update_example shows where the expectation fails",
 "C90": "both directions: C90_nonzero, C90_zero, C90_division_by_zero",
 "C93": "all measurements; the exempt period is given by the measurements before",
 "C96": "the sum is proved; C96_sum_example shows it is 12 by default",
 "C100": "disjoint always; exact for every distance that is searched (C100_reach); C100_beyond_search_range shows where the expectation fails",
 "C101": "C101_undefined_before shows where the expectation fails",
 "C102": "both cases: C102_renamed, C102_not_a_number",
 "C106": "all messages and targets; C106_other_datatypes shows the surprising cases",
 "C114": "iff; C114_half_turn_example shows where the expectation fails",
 "C121": "translational factor, no effect of the rotational error (C121_angular_ignored), start (C121_start)",
 "C122": "with and without expansion"
}