{
 "claims": [
  {
   "property": "C01",
   "status": "proved",
   "theorems": [
    "Verif.Manager.C01_times_sorted_keys_bijective"
   ],
   "note": "While fewer than 2^64-1 keys have been drawn."
  },
  {
   "property": "C02",
   "status": "proved",
   "theorems": [
    "Verif.Manager.C02_insert_point_update"
   ],
   "note": ""
  },
  {
   "property": "C03",
   "status": "proved",
   "theorems": [
    "Verif.Manager.C03_batch_insert"
   ],
   "note": ""
  },
  {
   "property": "C04",
   "status": "proved",
   "theorems": [
    "Verif.Manager.C04_bracketing"
   ],
   "note": ""
  },
  {
   "property": "C05",
   "status": "proved",
   "theorems": [
    "Verif.Manager.C05_remove_exact"
   ],
   "note": ""
  },
  {
   "property": "C06",
   "status": "proved",
   "theorems": [
    "Verif.Manager.C06_key_stable",
    "Verif.Manager.C06_key_dead"
   ],
   "note": ""
  },
  {
   "property": "C07",
   "status": "proved",
   "theorems": [
    "Verif.KeyGen.C07_keys_in_order",
    "Verif.KeyGen.C07_keys_unique",
    "Verif.KeyGen.C07_wraps",
    "Verif.KeyGen.C07_per_thread_increasing",
    "Verif.KeyGen.C07_no_deadlock",
    "Verif.KeyGen.C07_mutual_exclusion",
    "Verif.KeyGen.C07_undisturbed_caller"
   ],
   "note": ""
  },
  {
   "property": "C08",
   "status": "proved",
   "theorems": [
    "Verif.Manager.C08_extent_and_listing"
   ],
   "note": ""
  },
  {
   "property": "C09",
   "status": "partial",
   "theorems": [
    "Verif.Manager.C09_window_partial",
    "Verif.Manager.C09_refuted",
    "Verif.Manager.C09_window_exact",
    "Verif.Manager.C09_single_ub"
   ],
   "note": "False of the code: the first knot is never listed. Proved for windows starting after the first knot."
  },
  {
   "property": "C10",
   "status": "proved",
   "theorems": [
    "Verif.Manager.C10_batch_modify",
    "Verif.Manager.C10_batch_modify_mismatch",
    "Verif.Manager.C10_batch_modify_bad_start"
   ],
   "note": ""
  },
  {
   "property": "C11",
   "status": "proved",
   "theorems": [
    "Verif.Manager.C11_move",
    "Verif.Manager.C11_move_onto_itself_corrupts",
    "Verif.Manager.C11_move_onto_other_corrupts"
   ],
   "note": ""
  },
  {
   "property": "C12",
   "status": "proved",
   "theorems": [
    "Verif.Manager.C12_add_at_end",
    "Verif.Manager.C12_add_at_end_empty"
   ],
   "note": ""
  },
  {
   "property": "C13",
   "status": "partial",
   "theorems": [
    "Verif.Manager.C13_copy_by_time_partial",
    "Verif.Manager.C13_refuted"
   ],
   "note": "False of the code: the key index of a copy refers to the nodes of the original."
  },
  {
   "property": "C14",
   "status": "proved",
   "theorems": [
    "Verif.Policy.C14_sampling"
   ],
   "note": ""
  },
  {
   "property": "C15",
   "status": "partial",
   "theorems": [
    "Verif.Policy.C15_clear_partial",
    "Verif.Policy.C15_refuted"
   ],
   "note": "False of the code: clear() keeps the measurement counter of the sampling policy. Proved when the counter is 0 at the time of the clear."
  },
  {
   "property": "C16",
   "status": "proved",
   "theorems": [
    "Verif.Spline.C16_boundary",
    "Verif.Spline.C16_unique"
   ],
   "note": ""
  },
  {
   "property": "C17",
   "status": "proved",
   "theorems": [
    "Verif.Spline.C17_derivatives"
   ],
   "note": ""
  },
  {
   "property": "C18",
   "status": "proved",
   "theorems": [
    "Verif.Spline.C18_saturates",
    "Verif.Spline.C18_ends",
    "Verif.Spline.C18_set",
    "Verif.Container.C18_new"
   ],
   "note": ""
  },
  {
   "property": "C19",
   "status": "partial",
   "theorems": [
    "Verif.Spline.C19_time_vectors_partial",
    "Verif.Spline.C19_refuted",
    "Verif.Spline.C19_ddiff_is_first_derivative"
   ],
   "note": "False of the code: getDDiffTimeVector returns the row of the first derivative, for every order. Proved for all other row-vector helpers."
  },
  {
   "property": "C20",
   "status": "proved",
   "theorems": [
    "Verif.Container.C20_interpolates"
   ],
   "note": "Up to 2^28 knots; given a linear solver that returns a solution whenever one exists."
  },
  {
   "property": "C21",
   "status": "proved",
   "theorems": [
    "Verif.Container.C21_smooth_acc",
    "Verif.Container.C21_smooth_vel",
    "Verif.Container.C21_twice_differentiable"
   ],
   "note": ""
  },
  {
   "property": "C22",
   "status": "proved",
   "theorems": [
    "Verif.Container.C22_consistent"
   ],
   "note": ""
  },
  {
   "property": "C23",
   "status": "proved",
   "theorems": [
    "Verif.Container.C23_choice"
   ],
   "note": ""
  },
  {
   "property": "C24",
   "status": "partial",
   "theorems": [
    "Verif.Container.C24_failed_partial",
    "Verif.Container.C24_linear_keeps_prefix",
    "Verif.Container.C24_refuted"
   ],
   "note": "False of the code for the straight-line formulation: the segments before the bad one stay. Proved for the orders 3, 4, 5."
  },
  {
   "property": "C25",
   "status": "proved",
   "theorems": [
    "Verif.Container.C25_duration",
    "Verif.Container.C25_duration_of_fit"
   ],
   "note": ""
  },
  {
   "property": "C26",
   "status": "proved",
   "theorems": [
    "Verif.Container.C26_random_access"
   ],
   "note": ""
  },
  {
   "property": "C27",
   "status": "partial",
   "theorems": [
    "Verif.Container.C27_playback_partial",
    "Verif.Container.C27_lags",
    "Verif.Container.C27_refuted"
   ],
   "note": "False of the code: advance crosses at most one junction per call. Proved when no step is longer than a segment."
  },
  {
   "property": "C28",
   "status": "proved",
   "theorems": [
    "Verif.Container.C28_seek",
    "Verif.Container.C28_rewind"
   ],
   "note": ""
  },
  {
   "property": "C29",
   "status": "partial",
   "theorems": [
    "Verif.Container.C29_advance_partial",
    "Verif.Container.C29_early_end"
   ],
   "note": "False of the code: a segment added after the end was reached is played with a stale offset and the end is reported early. Proved for histories that add segments before the end and do not seek on an empty container (see C49)."
  },
  {
   "property": "C48",
   "status": "partial",
   "theorems": [
    "Verif.Container.C48_container_partial",
    "Verif.Container.C48_container_refuted",
    "Verif.PolyCurve.C48_curves_refuted",
    "Verif.PolyCurve.C48_options_partial",
    "Verif.Hermite.E3.C48_hermite_e3",
    "Verif.Hermite.SE3.C48_hermite_se3"
   ],
   "note": "False of the code: setData with derivatives on an empty list is undefined behaviour for the orders 1, 2, 3, and so are fitCurve of the polynomial-spline curves and fitPeriodicCurve of the Hermite curves."
  },
  {
   "property": "C49",
   "status": "partial",
   "theorems": [
    "Verif.Container.C49_cursor_partial",
    "Verif.Container.C49_refuted"
   ],
   "note": "False of the code: seeking on an empty container sets the index to -1. Proved for histories that never do."
  },
  {
   "property": "C30",
   "status": "proved",
   "theorems": [
    "Verif.PolyCurve.C30_domain_and_interpolation",
    "Verif.PolyCurve.C30_derivatives"
   ],
   "note": ""
  },
  {
   "property": "C31",
   "status": "proved",
   "theorems": [
    "Verif.PolyCurve.C31_time_shift"
   ],
   "note": ""
  },
  {
   "property": "C32",
   "status": "partial",
   "theorems": [
    "Verif.PolyCurve.C32_scalar_refit_partial",
    "Verif.PolyCurve.C32_vector_refit",
    "Verif.PolyCurve.C32_options_append",
    "Verif.PolyCurve.C32_refuted",
    "Verif.PolyCurve.C32_options_after_clear"
   ],
   "note": "False of the code for the overload taking spline options, which appends. Proved for all other overloads."
  },
  {
   "property": "C33",
   "status": "partial",
   "theorems": [
    "Verif.PolyCurve.C33_vector_partial",
    "Verif.PolyCurve.C33_relative_time",
    "Verif.PolyCurve.C33_max_time_wrong",
    "Verif.PolyCurve.C33_refuted"
   ],
   "note": "False of the code when the first time is not 0: evaluate does not subtract it and getMaxTime does not add it. Proved for data starting at 0."
  },
  {
   "property": "C34",
   "status": "partial",
   "theorems": [
    "Verif.Hermite.E3.C34_domain_partial",
    "Verif.Hermite.E3.C34_refuted",
    "Verif.Hermite.E3.C34_acceleration_domain",
    "Verif.Hermite.SE3.C34_domain_partial",
    "Verif.Hermite.SE3.C34_refuted",
    "Verif.Hermite.SE3.C34_acceleration_domain"
   ],
   "note": "False of the code on a curve without knots at time 0 (undefined behaviour). Proved everywhere else."
  },
  {
   "property": "C35",
   "status": "proved",
   "theorems": [
    "Verif.Hermite.E3.C35_interpolates",
    "Verif.Hermite.SE3.C35_interpolates",
    "Verif.Hermite.SE3.C35_exact"
   ],
   "note": "On SE3 the quaternion may come back with the opposite sign at the last knot, which is the same rotation."
  },
  {
   "property": "C36",
   "status": "proved",
   "theorems": [
    "Verif.Hermite.E3.C36_continuously_differentiable",
    "Verif.Hermite.E3.C35_interpolates",
    "Verif.Hermite.SE3.C36_continuously_differentiable",
    "Verif.Hermite.SE3.C35_interpolates"
   ],
   "note": ""
  },
  {
   "property": "C37",
   "status": "proved",
   "theorems": [
    "Verif.Hermite.E3.C37_true_derivatives",
    "Verif.Hermite.SE3.C37_true_derivatives"
   ],
   "note": ""
  },
  {
   "property": "C38",
   "status": "partial",
   "theorems": [
    "Verif.Hermite.E3.C38_slopes_partial",
    "Verif.Hermite.E3.C38_periodic_wrong",
    "Verif.Hermite.E3.C38_refuted",
    "Verif.Hermite.SE3.C38_slopes_partial",
    "Verif.Hermite.SE3.C38_periodic_wrong"
   ],
   "note": "False of the code for fitPeriodicCurve: the slope at the joint is divided by a negative time. Proved for the other fits, for distinct times."
  },
  {
   "property": "C39",
   "status": "partial",
   "theorems": [
    "Verif.Hermite.E3.C39_replaces_partial",
    "Verif.Hermite.E3.C39_keeps_old_knots",
    "Verif.Hermite.E3.C39_refuted",
    "Verif.Hermite.SE3.C39_replaces"
   ],
   "note": "False of the code for CubicHermiteE3Curve, which does not clear. Proved there for empty curves, and for CubicHermiteSE3Curve in full."
  },
  {
   "property": "C40",
   "status": "proved",
   "theorems": [
    "Verif.Hermite.E3.C40_linear",
    "Verif.Hermite.E3.C40_translation",
    "Verif.Hermite.SE3.C40_linear",
    "Verif.Hermite.SE3.C40_translation"
   ],
   "note": ""
  },
  {
   "property": "C41",
   "status": "proved",
   "theorems": [
    "Verif.Hermite.SE3.C41_unit",
    "Verif.Hermite.SE3.C35_interpolates",
    "Verif.Hermite.SE3.C35_exact"
   ],
   "note": ""
  },
  {
   "property": "C50",
   "status": "partial",
   "theorems": [
    "Verif.Hermite.E3.C50_e3_extend_refuted",
    "Verif.Hermite.SE3.C50_se3_partial",
    "Verif.Hermite.SE3.C50_transform_refuted",
    "Verif.Discrete.C50_discrete_partial",
    "Verif.Composition.C50_composition_refuted",
    "Verif.PolyCurve.C50_polynomial_partial"
   ],
   "note": "False of the code: CubicHermiteE3Curve::extend, CubicHermiteSE3Curve::transformCurve and SE3CompositionCurve::setTimeRange return normally having done nothing, and the velocity evaluators of SE3CompositionCurve return zero. Proved for the other unimplemented operations of the modelled classes."
  },
  {
   "property": "C42",
   "status": "proved",
   "theorems": [
    "Verif.Discrete.C42_nearest",
    "Verif.Discrete.C42_outside"
   ],
   "note": ""
  },
  {
   "property": "C43",
   "status": "proved",
   "theorems": [
    "Verif.Discrete.C43_knot",
    "Verif.Discrete.C43_between",
    "Verif.Discrete.C43_transform"
   ],
   "note": "For any group with exponential and logarithm maps such that exp(log g) = g and log 1 = 0."
  },
  {
   "property": "C51",
   "status": "partial",
   "theorems": [
    "Verif.Discrete.C51_discrete_partial",
    "Verif.Discrete.C51_slerp_partial",
    "Verif.Discrete.C51_semidiscrete_refuted"
   ],
   "note": "Proved for DiscreteSE3Curve and SlerpSE2Curve. False of SemiDiscreteSE3Curve, whose expression is the nearest knot while evaluate interpolates."
  },
  {
   "property": "C52",
   "status": "partial",
   "theorems": [
    "Verif.Discrete.C52_refuted",
    "Verif.Discrete.C52_rest_partial"
   ],
   "note": "False of the code: the sign of the slope is reversed. Right exactly on segments between equal values."
  },
  {
   "property": "C53",
   "status": "proved",
   "theorems": [
    "Verif.Discrete.C53_fit_replaces"
   ],
   "note": ""
  },
  {
   "property": "C54",
   "status": "partial",
   "theorems": [
    "Verif.Discrete.C54_prior_partial",
    "Verif.Discrete.C54_refuted"
   ],
   "note": "False of the code outside the range and on curves with fewer than two knots: uninitialised iterators are dereferenced."
  },
  {
   "property": "C56",
   "status": "partial",
   "theorems": [
    "Verif.Discrete.C56_refuted",
    "Verif.Discrete.C56_extend_partial"
   ],
   "note": "False of the code on every thinning curve in the middle of a sampling period. Proved otherwise."
  },
  {
   "property": "C44",
   "status": "proved",
   "theorems": [
    "Verif.Composition.C44_domain",
    "Verif.Composition.C44_extend",
    "Verif.Composition.C44_extend_ok",
    "Verif.Composition.C44_extend_first",
    "Verif.Composition.C44_fold",
    "Verif.Composition.C44_fold_ok"
   ],
   "note": ""
  },
  {
   "property": "C55",
   "status": "partial",
   "theorems": [
    "Verif.Composition.C55_past_partial",
    "Verif.Composition.C55_refuted"
   ],
   "note": "False of the code when the correction is thinned: its last knot is moved to the new time, which changes its value at the old one. Proved for sampling ratio 1."
  },
  {
   "property": "C57",
   "status": "proved",
   "theorems": [
    "Verif.Composition.C57_set_times",
    "Verif.Composition.C57_set_times_ok"
   ],
   "note": ""
  },
  {
   "property": "C58",
   "status": "partial",
   "theorems": [
    "Verif.Composition.C58_transform",
    "Verif.Composition.C58_transform_partial",
    "Verif.Composition.C58_refuted"
   ],
   "note": "False of the code at every time at which the correction does not commute with T; proved at all others."
  },
  {
   "property": "C59",
   "status": "partial",
   "theorems": [
    "Verif.Composition.C59_fit_partial",
    "Verif.Composition.C59_refuted"
   ],
   "note": "False of the code: fitCurve extends without clearing and refuses more than one sample. Proved for empty curves and one sample."
  },
  {
   "property": "C60",
   "status": "proved",
   "theorems": [
    "Verif.Composition.C60_set",
    "Verif.Composition.C60_remove",
    "Verif.Composition.C60_reset",
    "Verif.Composition.C60_base"
   ],
   "note": ""
  },
  {
   "property": "C61",
   "status": "proved",
   "theorems": [
    "Verif.Composition.C61_forward_only"
   ],
   "note": ""
  },
  {
   "property": "C45",
   "status": "proved",
   "theorems": [
    "Verif.Csv.C45_roundtrip",
    "Verif.Csv.C45_exact",
    "Verif.Csv.C45_refuses",
    "Verif.Csv.C45_missing",
    "Verif.Csv.C45_unwritable_refuted"
   ],
   "note": "C45_unwritable_refuted records that a file that cannot be opened is silently not written."
  },
  {
   "property": "C46",
   "status": "partial",
   "theorems": [
    "Verif.Csv.C46_refuses",
    "Verif.Csv.C46_loaded",
    "Verif.Csv.C46_values_partial",
    "Verif.Csv.C46_refuted",
    "Verif.Csv.C46_timetime_refuted"
   ],
   "note": "False of the code: the loader reads the first component of the vector as the time. Proved for the vectors."
  },
  {
   "property": "C62",
   "status": "partial",
   "theorems": [
    "Verif.Csv.C62_saved",
    "Verif.Csv.C62_refuses",
    "Verif.Csv.C62_hermite_partial",
    "Verif.Csv.C62_refuted"
   ],
   "note": "False of CubicHermiteSE3Curve at times outside the curve, where the previous value is written again. Proved otherwise."
  },
  {
   "property": "C47",
   "status": "partial",
   "theorems": [
    "Verif.Ros.C47_unknown_partial",
    "Verif.Ros.C47_known",
    "Verif.Ros.C47_short",
    "Verif.Ros.C47_refuted",
    "Verif.Ros.C47_scalar",
    "Verif.Ros.C47_translation_partial",
    "Verif.Ros.C47_pose"
   ],
   "note": "False of the code for messages without joint names, which are read as joint 0. Proved for all others."
  },
  {
   "property": "C63",
   "status": "proved",
   "theorems": [
    "Verif.Manager.C63_update_by_key",
    "Verif.Manager.C63_update_many"
   ],
   "note": ""
  },
  {
   "property": "C64",
   "status": "proved",
   "theorems": [
    "Verif.Manager.C64_outcomes",
    "Verif.Manager.C64_history"
   ],
   "note": ""
  },
  {
   "property": "C65",
   "status": "proved",
   "theorems": [
    "Verif.Container.C65_straight"
   ],
   "note": ""
  },
  {
   "property": "C66",
   "status": "proved",
   "theorems": [
    "Verif.Container.C66_play_a_fit"
   ],
   "note": ""
  },
  {
   "property": "C67",
   "status": "proved",
   "theorems": [
    "Verif.Container.C67_end",
    "Verif.Container.C67_end_of_fit"
   ],
   "note": ""
  },
  {
   "property": "C68",
   "status": "partial",
   "theorems": [
    "Verif.Container.C68_check_sound",
    "Verif.Container.C68_check_catches",
    "Verif.Container.C68_check_complete_partial",
    "Verif.Container.C68_rejects_played_out",
    "Verif.Container.C68_refuted"
   ],
   "note": "Sound for all histories. Not complete: a container played beyond its end by advance is rejected."
  },
  {
   "property": "C69",
   "status": "partial",
   "theorems": [
    "Verif.Discrete.C69_extend_partial",
    "Verif.Discrete.C69_moved"
   ],
   "note": "False of the code inside a sampling period: no key is reported and an earlier key changes its measurement."
  },
  {
   "property": "C70",
   "status": "partial",
   "theorems": [
    "Verif.Discrete.C70_ratio_change_partial",
    "Verif.Discrete.C70_stuck"
   ],
   "note": "False of the code when the counter has already reached the new ratio: no knot is ever added again."
  },
  {
   "property": "C71",
   "status": "proved",
   "theorems": [
    "Verif.PolyCurve.C71_scalar_ends",
    "Verif.PolyCurve.C71_scalar_velocity",
    "Verif.PolyCurve.C71_vector_is_scalar",
    "Verif.PolyCurve.C71_vector_ends"
   ],
   "note": ""
  },
  {
   "property": "C72",
   "status": "proved",
   "theorems": [
    "Verif.PolyCurve.C72_options"
   ],
   "note": ""
  },
  {
   "property": "C73",
   "status": "partial",
   "theorems": [
    "Verif.PolyCurve.C73_scalar_clear",
    "Verif.PolyCurve.C73_vector_clear_partial",
    "Verif.PolyCurve.C73_refuted"
   ],
   "note": "Proved for the scalar curve. The vector curve keeps its minimal time."
  },
  {
   "property": "C74",
   "status": "partial",
   "theorems": [
    "Verif.Hermite.E3.C74_samples_partial",
    "Verif.Hermite.E3.C74_refuted",
    "Verif.Hermite.E3.C74_other",
    "Verif.Hermite.SE3.C74_samples_partial",
    "Verif.Hermite.SE3.C74_refuted",
    "Verif.Hermite.SE3.C74_other"
   ],
   "note": "False of the code: n samples give n - 1 lines and the last time is never written. Proved for what is written; one sample, no sample and short curves are in C74_other."
  },
  {
   "property": "C75",
   "status": "partial",
   "theorems": [
    "Verif.Hermite.SE3.C75_columns_partial",
    "Verif.Hermite.E3.C75_refuted"
   ],
   "note": "Proved for SE3 (14 columns). False for E3: 14 names, 7 numbers."
  },
  {
   "property": "C76",
   "status": "proved",
   "theorems": [
    "Verif.Pose2.C76_log_near",
    "Verif.Pose2.C76_log_exact"
   ],
   "note": "Over the reals."
  },
  {
   "property": "C77",
   "status": "partial",
   "theorems": [
    "Verif.Pose2.C77_scaling_partial",
    "Verif.Pose2.C77_subtraction_partial",
    "Verif.Pose2.C77_refuted"
   ],
   "note": "False of pose2AsPoint2: its Jacobian is right exactly for poses without rotation. Proved for the others."
  },
  {
   "property": "C78",
   "status": "proved",
   "theorems": [
    "Verif.Hermite.HPol.C78_newest",
    "Verif.Hermite.HPol.C78_forward_only",
    "Verif.Hermite.HPol.C78_lengths"
   ],
   "note": "Over the reals; up to 2^31 measurements."
  },
  {
   "property": "C79",
   "status": "partial",
   "theorems": [
    "Verif.Hermite.HPol.C79_every_partial",
    "Verif.Hermite.HPol.C79_refuted",
    "Verif.Hermite.HPol.C79_ratio_zero"
   ],
   "note": "False of the code for every ratio: one coefficient every n + 1 measurements, and with ratio 0 never more than one. Proved with n + 1."
  },
  {
   "property": "C80",
   "status": "proved",
   "theorems": [
    "Verif.Hermite.HPol.C80_slopes"
   ],
   "note": "Over the reals."
  },
  {
   "property": "C81",
   "status": "partial",
   "theorems": [
    "Verif.Composition.C81_domain_partial",
    "Verif.Composition.C81_remove_refuted",
    "Verif.Composition.C81_no_correction_refuted",
    "Verif.Composition.C81_times_refuted",
    "Verif.Composition.C81_backward_refuted"
   ],
   "note": "False of the code after four kinds of operations, each refuted. Proved for all histories without them."
  },
  {
   "property": "C82",
   "status": "partial",
   "theorems": [
    "Verif.Hermite.E3.C82_empty",
    "Verif.Hermite.E3.C82_clear",
    "Verif.Hermite.SE3.C82_empty",
    "Verif.Hermite.SE3.C82_clear",
    "Verif.Hermite.HPol.C82_policy",
    "Verif.Composition.C82_composition_clear",
    "Verif.Composition.C82_composition_partial",
    "Verif.Composition.C82_composition_refuted"
   ],
   "note": "Proved for the Hermite curves. False of the composition, where isEmpty looks at the base and size at the correction."
  },
  {
   "property": "C83",
   "status": "partial",
   "theorems": [
    "Verif.Interface.C83_usable_partial",
    "Verif.Interface.C83_refuted",
    "Verif.Interface.C83_unknown"
   ],
   "note": "False for two of the five names: slerp_curve aborts at every evaluation, composition_curve at its first measurement. Proved for the other three."
  },
  {
   "property": "C84",
   "status": "partial",
   "theorems": [
    "Verif.Interface.C84_single_partial",
    "Verif.Interface.C84_composition_partial",
    "Verif.Interface.C84_base_single_refuted",
    "Verif.Interface.C84_curve_refuted",
    "Verif.Interface.C84_sizes_partial",
    "Verif.Interface.C84_window_partial"
   ],
   "note": "False of getBaseCurveTimes of curves that are no compositions (the list is left as it was) and of getCurveTimes of a composition (lists time zero, where the curve may have no value). Proved for getCurveTimes of the former and getBaseCurveTimes of the latter (histories as in C81)."
  },
  {
   "property": "C85",
   "status": "partial",
   "theorems": [
    "Verif.Interface.C85_single_partial",
    "Verif.Interface.C85_composition_partial",
    "Verif.Interface.C85_empty",
    "Verif.Interface.C85_correction_refuted"
   ],
   "note": "False of the functions that save the correction, on curves that are no compositions: nothing is written. Proved otherwise (histories as in C81)."
  },
  {
   "property": "C86",
   "status": "partial",
   "theorems": [
    "Verif.Interface.C86_refuted",
    "Verif.Interface.C86_part_partial",
    "Verif.Interface.C86_part_ok_partial",
    "Verif.Interface.C86_modify_partial",
    "Verif.Interface.C86_coefficient_partial",
    "Verif.Interface.C86_replace_partial",
    "Verif.Interface.C86_fold_partial",
    "Verif.Interface.C86_add_refuted",
    "Verif.Composition.C44_fold",
    "Verif.Composition.C57_set_times",
    "Verif.Composition.C60_set",
    "Verif.Composition.C60_remove",
    "Verif.Composition.C60_reset",
    "Verif.Composition.C60_base"
   ],
   "note": "False of curves that are no compositions, where all eight functions return having done nothing, and of setCorrectionTimes of a composition, which replaces instead of adding. Proved for the others."
  },
  {
   "property": "C87",
   "status": "partial",
   "theorems": [
    "Verif.Interface.C87_replace_partial",
    "Verif.Interface.C87_refuted"
   ],
   "note": "False when all measurements are after time zero, or all before it: the call aborts. Proved when the curve spans time zero."
  },
  {
   "property": "C88",
   "status": "partial",
   "theorems": [
    "Verif.Container.C88_determined_partial",
    "Verif.Container.C88_same_result",
    "Verif.Container.C88_quintic_refuted",
    "Verif.Container.C88_refuted"
   ],
   "note": "Proved for orders 1, 2 and 3, for order 4 with three knots and order 5 with two. False otherwise: for order 5 with three or more knots the position at every time strictly between knots can take any value, depending on the solver."
  },
  {
   "property": "C89",
   "status": "partial",
   "theorems": [
    "Verif.Container.C89_superposition_partial",
    "Verif.Container.C89_refuted"
   ],
   "note": "Proved in the determined cases of C88 and orders 1 and 2; false in the others, where the solver decides."
  },
  {
   "property": "C90",
   "status": "partial",
   "theorems": [
    "Verif.Composition.C90_measurements_partial",
    "Verif.Composition.C90_thinned",
    "Verif.Composition.C90_fresh",
    "Verif.Composition.C90_refuted"
   ],
   "note": "Proved from a new curve, and from any state whose correction has just completed a sampling period or ends with two equal values. False otherwise: the last knot of the correction is moved on and the measurement there is read back changed."
  },
  {
   "property": "C91",
   "status": "partial",
   "theorems": [
    "Verif.Hermite.E3.C91_affine",
    "Verif.Hermite.E3.C91_periodic",
    "Verif.Hermite.E3.C91_reversal_partial",
    "Verif.Hermite.E3.C91_reversal_refuted",
    "Verif.Hermite.E3.C91_empty_refuted"
   ],
   "note": "Affine changes are proved for all data with at least one point. Reversal is proved for positions and velocities everywhere and for the second derivative except at inner knots, where it is false: the code takes the one-sided value of the later segment. Without points the two curves differ at time zero, where evaluating an empty curve is undefined."
  },
  {
   "property": "C92",
   "status": "proved",
   "theorems": [
    "Verif.Hermite.E3.C92_local",
    "Verif.Hermite.E3.C92_window_needed",
    "Verif.Hermite.SE3.C92_poses"
   ],
   "note": "The second derivative at the end of the segment belongs to the next segment, and is excluded for that time."
  },
  {
   "property": "C93",
   "status": "partial",
   "theorems": [
    "Verif.Hermite.E3.C93_range_partial",
    "Verif.Hermite.E3.C93_sharp",
    "Verif.Hermite.E3.C93_refuted"
   ],
   "note": "False: the curve overshoots whenever two equal points follow a lower one. Proved: it stays within the range widened by a quarter of its width at either side, and no smaller widening is enough."
  },
  {
   "property": "C94",
   "status": "partial",
   "theorems": [
    "Verif.Hermite.SE3.C94_moved",
    "Verif.Hermite.SE3.C94_periodic",
    "Verif.Hermite.SE3.C94_reversal_partial",
    "Verif.Hermite.SE3.C94_reversal_refuted"
   ],
   "note": "Changes of frame and clock are proved for every logarithm of rotations that turns with the frame. Reversal is proved for the knots, for all positions and for all linear velocities, for every logarithm that changes sign with the inverse rotation; rotations between knots are not reversed: there is a fit for which both runs are half a turn apart half way."
  },
  {
   "property": "C95",
   "status": "partial",
   "theorems": [
    "Verif.Rounding.C95_reads_partial",
    "Verif.Rounding.C95_refuted"
   ],
   "note": "Proved for arithmetic without any law, for histories that seek only while there are segments. Seeking on an empty container and adding a segment makes the next read undefined behaviour, with every arithmetic."
  },
  {
   "property": "C96",
   "status": "partial",
   "theorems": [
    "Verif.Rounding.C96_search",
    "Verif.Rounding.C96_monotone",
    "Verif.Rounding.C96_end_partial",
    "Verif.Rounding.C96_end_refuted"
   ],
   "note": "What the search returns is proved for every arithmetic, the order for every rounding. Reading at the duration gives the end if adding up the durations is exact; in double it is false for durations 1 and 0.9."
  },
  {
   "property": "C97",
   "status": "partial",
   "theorems": [
    "Verif.Rounding.C97_alpha",
    "Verif.Rounding.C97_knots_partial",
    "Verif.Rounding.C97_line_start_partial",
    "Verif.Rounding.C97_line_refuted",
    "Verif.Rounding.C97_constant_refuted"
   ],
   "note": "Proved for E3 Hermite curves, for every rounding. The straight-line container hits the start of its segments exactly and misses the end, for instance after 49 seconds; between knots even a constant Hermite curve is not evaluated exactly."
  },
  {
   "property": "C98",
   "status": "partial",
   "theorems": [
    "Verif.Rounding.C98_steps_partial",
    "Verif.Rounding.C98_refuted",
    "Verif.Rounding.C98_stuck"
   ],
   "note": "Proved when the multiples of the step are representable. Ten steps of 0.1 do not reach one second; steps below half a unit in the last place of the time never move it."
  },
  {
   "property": "C99",
   "status": "partial",
   "theorems": [
    "Verif.Rounding.C99_increasing_partial",
    "Verif.Rounding.C99_refuted",
    "Verif.Rounding.C99_never_ends"
   ],
   "note": "Proved with rounding. NaN knot times are accepted, and a container with a NaN duration plays forever."
  },
  {
   "property": "C100",
   "status": "partial",
   "theorems": [
    "Verif.Rounding.C100_write_partial",
    "Verif.Rounding.C100_endless",
    "Verif.Rounding.C100_lines_refuted"
   ],
   "note": "Proved for every rounding: it never fails, and if the loop ends the lines are values at ordered times in the domain; the number of lines if adding the step is exact. If the step is lost against the first time the loop never ends; over one second 6 samples give 5 lines, 11 samples give 11 lines in double."
  },
  {
   "property": "C101",
   "status": "partial",
   "theorems": [
    "Verif.Rounding.C101_rounded",
    "Verif.Rounding.C101_spacing_partial",
    "Verif.Rounding.C101_last_refuted",
    "Verif.Rounding.C101_dropped_refuted"
   ],
   "note": "Proved for all knots chosen by the policy, with rounding. The last knot is the newest measurement however close it is; and in double a measurement later than the period after the last one can be dropped."
  },
  {
   "property": "C102",
   "status": "partial",
   "theorems": [
    "Verif.Decimal.C102_file_partial",
    "Verif.Decimal.C102_fixed",
    "Verif.Decimal.C102_order",
    "Verif.Decimal.C102_times_refuted"
   ],
   "note": "Proved with the decimal printing of %lf written out, for all curves; the times are ordered. Samples less than half a microsecond apart get the same time in the file."
  },
  {
   "property": "C103",
   "status": "partial",
   "theorems": [
    "Verif.Decimal.C103_general",
    "Verif.Decimal.C103_order",
    "Verif.Decimal.C103_exact",
    "Verif.Decimal.C103_values_partial",
    "Verif.Decimal.C103_refuted",
    "Verif.Decimal.C103_times_refuted"
   ],
   "note": "Proved with the decimal printing of ostringstream and the reading of atof written out: the error is at most five millionths of the number, the order is kept, and in double every decimal number with at most six significant digits comes back exactly. Numbers that agree in six digits become equal; stamps in seconds since 1970 within more than an hour all give the same file."
  },
  {
   "property": "C104",
   "status": "partial",
   "theorems": [
    "Verif.Ros.C104_order",
    "Verif.Ros.C104_strict_partial",
    "Verif.Ros.C104_import_partial",
    "Verif.Ros.C104_lost",
    "Verif.Ros.C104_refuted",
    "Verif.Ros.C104_lost_refuted"
   ],
   "note": "The order is always kept; stamps stay distinct below 2^23 seconds, and the import then goes through the positions at the converted stamps. In every second from 2^23 on two neighbouring stamps become equal, and such a message is accepted as a curve that is 0 everywhere."
  },
  {
   "property": "C105",
   "status": "partial",
   "theorems": [
    "Verif.Discrete.C105_local",
    "Verif.Discrete.C105_set",
    "Verif.Discrete.C105_extend_partial",
    "Verif.Discrete.C105_refuted",
    "Verif.Hermite.E3.C105_E3",
    "Verif.Hermite.SE3.C105_SE3"
   ],
   "note": "Proved for all the curves on a coefficient manager and for setCurve. Extending a thinning curve inside a sampling period moves its last knot, so the last segment changes; refuted for every such curve."
  },
  {
   "property": "C106",
   "status": "proved",
   "theorems": [
    "Verif.Rounding.C106_position",
    "Verif.Rounding.C106_velocity",
    "Verif.Rounding.C106_refuted"
   ],
   "note": "Error propagation through every operation, for any rounding with a relative error, instantiated with 53 bits. C106_refuted: no such bound relative to the velocity itself."
  },
  {
   "property": "C107",
   "status": "proved",
   "theorems": [
    "Verif.Rounding.C107_fit",
    "Verif.Rounding.C107_fitCurve",
    "Verif.Rounding.link_fit",
    "Verif.Rounding.link_fitCurve"
   ],
   "note": "The fit is modelled with rounding in Rounding/FitModel.lean and linked to the base model."
  },
  {
   "property": "C108",
   "status": "partial",
   "theorems": [
    "Verif.PolyCurve.C108_refused_partial",
    "Verif.PolyCurve.C108_hermite_partial",
    "Verif.PolyCurve.C108_others_partial",
    "Verif.PolyCurve.C108_e3_release",
    "Verif.PolyCurve.C108_refuted",
    "Verif.PolyCurve.C108_vector"
   ],
   "note": "False of the E3 Hermite curve in release builds (surplus values ignored, missing ones read beyond the end), of the vector-valued polynomial curve (surplus values ignored) and of the scalar polynomial curve, which ends at the last of the surplus values. Proved for the other classes."
  },
  {
   "property": "C109",
   "status": "proved",
   "theorems": [
    "Verif.Energy.C109_line",
    "Verif.Energy.C109_cubic",
    "Verif.Energy.C109_quintic"
   ],
   "note": ""
  },
  {
   "property": "C110",
   "status": "proved",
   "theorems": [
    "Verif.Energy.C110_cubic",
    "Verif.Energy.C110_straight"
   ],
   "note": ""
  },
  {
   "property": "C111",
   "status": "proved",
   "theorems": [
    "Verif.Energy.C111_hermite",
    "Verif.Energy.C111_compare"
   ],
   "note": ""
  },
  {
   "property": "C112",
   "status": "proved",
   "theorems": [
    "Verif.Accuracy.C112_hermite",
    "Verif.Accuracy.C112_straight"
   ],
   "note": ""
  },
  {
   "property": "C113",
   "status": "proved",
   "theorems": [
    "Verif.Accuracy.C113_cubic"
   ],
   "note": ""
  },
  {
   "property": "C114",
   "status": "proved",
   "theorems": [
    "Verif.Rounding.C114_segment"
   ],
   "note": ""
  },
  {
   "property": "C115",
   "status": "proved",
   "theorems": [
    "Verif.Rounding.C115_container"
   ],
   "note": ""
  },
  {
   "property": "C116",
   "status": "proved",
   "theorems": [
    "Verif.Container.C116_segment",
    "Verif.Container.C116_velocities",
    "Verif.Container.C116_accelerations"
   ],
   "note": ""
  },
  {
   "property": "C117",
   "status": "proved",
   "theorems": [
    "Verif.Sensitivity.C117_data",
    "Verif.Sensitivity.C117_solver"
   ],
   "note": ""
  },
  {
   "property": "C118",
   "status": "proved",
   "theorems": [
    "Verif.Sensitivity.C118_hermite",
    "Verif.Sensitivity.C118_straight"
   ],
   "note": ""
  },
  {
   "property": "C119",
   "status": "proved",
   "theorems": [
    "Verif.Manager.C119_call",
    "Verif.Manager.C119_history",
    "Verif.Manager.C119_queries"
   ],
   "note": ""
  },
  {
   "property": "C120",
   "status": "proved",
   "theorems": [
    "Verif.Manager.C120_keys_apart",
    "Verif.Manager.C120_alone"
   ],
   "note": ""
  },
  {
   "property": "C121",
   "status": "proved",
   "theorems": [
    "Verif.Discrete.C121_steady",
    "Verif.Discrete.C121_steady_space",
    "Verif.Discrete.C121_clock",
    "Verif.Discrete.C121_reversed",
    "Verif.Discrete.C121_refine"
   ],
   "note": "C121_steady under the contract Discrete.Geodesic of exponential and logarithm, proved for the plane (se2_geodesic) and for rotations of space (so3_geodesic); poses of space with translation and rotation apart do not meet it (pose3_not_geodesic), hence C121_steady_space. C121_refine under the weaker contract Discrete.Path (pose3_path), C121_reversed for knots between which the way back is the way there (pose3_reversible: less than half a turn)."
  },
  {
   "property": "C122",
   "status": "proved",
   "theorems": [
    "Verif.Composition.C122_local",
    "Verif.Composition.C122_refine"
   ],
   "note": "Under the contract Discrete.Path of exponential and logarithm, proved for the plane (se2_geodesic) and for poses of space (pose3_path)."
  },
  {
   "property": "C123",
   "status": "proved",
   "theorems": [
    "Verif.Hermite.SE3.C123_fit",
    "Verif.Hermite.SE3.C123_fit_other",
    "Verif.Hermite.SE3.C123_evaluate",
    "Verif.Hermite.SE3.C123_energy",
    "Verif.Hermite.SE3.C123_accuracy",
    "Verif.Hermite.SE3.C123_noise"
   ],
   "note": "knotShadow and shadow are the specification: position and translational velocity seen through a linear map."
  },
  {
   "property": "C124",
   "status": "partial",
   "theorems": [
    "Verif.Rounding.C124_fit_partial",
    "Verif.Rounding.C124_periodic_partial",
    "Verif.Rounding.C124_evaluate_partial",
    "Verif.Rounding.C124_segment_partial",
    "Verif.Rounding.C124_refuted",
    "Verif.Rounding.C124_segment_refuted"
   ],
   "note": "False of fitPeriodicCurve with three points: 0/0, and every value of the curve is NaN. False of segments of orders 1 and 2 with duration zero. Proved otherwise, and the values are those of the models without special values, so that the convention x/0 = 0 of those models is never used. Overflow: see C160."
  },
  {
   "property": "C125",
   "status": "partial",
   "theorems": [
    "Verif.Hermite.SE3.C125_evaluate",
    "Verif.Hermite.SE3.C125_fit_partial",
    "Verif.Hermite.SE3.C125_accuracy",
    "Verif.Hermite.SE3.C125_refuted"
   ],
   "note": "False when poses are more than a quarter turn apart: calculateSlope looks two knots ahead, takes the short way round, and the curve turns backwards at the knot (for every axis and every step between a quarter turn and half a turn, with a logarithm that returns the shortest rotation). Proved under that guard, for logarithms that invert the exponential below half a turn."
  },
  {
   "property": "C126",
   "status": "proved",
   "theorems": [
    "Verif.Hermite.SE3.C126_speed",
    "Verif.Hermite.SE3.C126_fit",
    "Verif.Hermite.SE3.C126_accuracy"
   ],
   "note": "For logarithms that return the shortest rotation."
  },
  {
   "property": "C127",
   "status": "proved",
   "theorems": [
    "Verif.Discrete.C127_pace",
    "Verif.Discrete.C127_discrete",
    "Verif.Discrete.C127_slerp",
    "Verif.Discrete.C127_fit"
   ],
   "note": "Under the contract Discrete.Measured of the distance; instances pose3_measured_angle, pose3_measured_dist, se2_measured_heading, se2_measured_dist, so3_measured, line_measured."
  },
  {
   "property": "C128",
   "status": "proved",
   "theorems": [
    "Verif.Container.C128_calls",
    "Verif.Container.C128_reads",
    "Verif.Container.C128_placed",
    "Verif.Container.C128_history"
   ],
   "note": "Undefined lists the calls."
  },
  {
   "property": "C129",
   "status": "proved",
   "theorems": [
    "Verif.Discrete.C129_calls",
    "Verif.Discrete.C129_reads",
    "Verif.Discrete.C129_counter"
   ],
   "note": "Undefined and Accepted list the calls."
  },
  {
   "property": "C130",
   "status": "proved",
   "theorems": [
    "Verif.Hermite.C130_e3_fit",
    "Verif.Hermite.C130_e3_periodic",
    "Verif.Hermite.C130_e3_reads",
    "Verif.Hermite.C130_se3_fit",
    "Verif.Hermite.C130_se3_periodic",
    "Verif.Hermite.C130_se3_reads",
    "Verif.Hermite.C130_policy",
    "Verif.Hermite.C130_policy_many",
    "Verif.Hermite.C130_refit"
   ],
   "note": "Ends, Stuck, Later and Forward are the specification."
  },
  {
   "property": "C131",
   "status": "proved",
   "theorems": [
    "Verif.PolyCurve.C131_scalar",
    "Verif.PolyCurve.C131_vector"
   ],
   "note": "Short is the specification of running out of values."
  },
  {
   "property": "C132",
   "status": "proved",
   "theorems": [
    "Verif.Composition.C132_reads",
    "Verif.Composition.C132_either_order",
    "Verif.Composition.C132_extend",
    "Verif.Composition.C132_fold",
    "Verif.Composition.C132_times",
    "Verif.Composition.C132_edit",
    "Verif.Composition.C132_replace",
    "Verif.Composition.C132_modify"
   ],
   "note": "Reaches, Hollow, Span, Aligned, Grows and Overflows are the specification."
  },
  {
   "property": "C133",
   "status": "partial",
   "theorems": [
    "Verif.Print.C133_shows_partial",
    "Verif.Print.C133_refuted",
    "Verif.Print.C133_ends",
    "Verif.Print.C133_composition",
    "Verif.Print.C133_hermite",
    "Verif.Print.C133_pose_hermite",
    "Verif.Print.C133_blind_refuted",
    "Verif.Print.C133_scalar"
   ],
   "note": "False of the code: printing a curve without knots is undefined behaviour, SlerpSE3Curve aborts with two or more knots, CubicHermiteSE3Curve shows none of its knots. Proved: exactly how every call ends, and what is shown, for every class."
  },
  {
   "property": "C134",
   "status": "partial",
   "theorems": [
    "Verif.PolyCurve.C134_left",
    "Verif.PolyCurve.C134_refuted",
    "Verif.PolyCurve.C134_unchanged_partial",
    "Verif.PolyCurve.C134_recovers"
   ],
   "note": "False of the code: a fit that throws has already set the time at which the curve begins. Proved: this is the only change, it is harmless exactly when the first new time is the old one, and every later fit ends as if the failed one had not been tried."
  },
  {
   "property": "C135",
   "status": "partial",
   "theorems": [
    "Verif.Container.C135_reproduces_partial",
    "Verif.Container.C135_straight_refuted",
    "Verif.Container.C135_loose_refuted",
    "Verif.Container.C135_open_refuted"
   ],
   "note": "False of the code for orders 1 and 2 (only straight motions come out), for order 4 with other than three knots and order 5 with more than two (the equations leave the answer to the solver, and for every time between knots some solver meeting the contract misses). Proved: order 3 with any knots, order 4 with three, order 5 with two, and what comes out otherwise."
  },
  {
   "property": "C136",
   "status": "partial",
   "theorems": [
    "Verif.Hermite.E3.C136_error",
    "Verif.Hermite.E3.C136_reproduces_partial",
    "Verif.Hermite.E3.C136_refuted"
   ],
   "note": "False of the code when the knots are not equidistant: the velocity at an inner knot is off by the acceleration times half the difference of its two gaps. Proved: the exact error everywhere in terms of the errors at the knots, none for equidistant knots."
  },
  {
   "property": "C137",
   "status": "partial",
   "theorems": [
    "Verif.Ros.C137_length",
    "Verif.Ros.C137_unit_partial",
    "Verif.Ros.C137_refuted"
   ],
   "note": "False of the code: fromMessage neither checks nor normalises the quaternions. Proved: the answer always has the length of the quaternion at the beginning of the segment, so it is a rotation exactly when that one is."
  },
  {
   "property": "C138",
   "status": "partial",
   "theorems": [
    "Verif.Spline.C138_copies_partial",
    "Verif.Spline.C138_refuted",
    "Verif.Spline.C138_fit_options_refuted",
    "Verif.Spline.C138_fit_coefficients",
    "Verif.Spline.C138_flag_refuted"
   ],
   "note": "False of the code: the constructors from options leave didEvaluateCoeffs_ uninitialised, and addSpline moves the spline, which reads it; so fitCurve from a list of options is undefined behaviour for every non-empty list. The flag says which constructor was used and nothing else."
  },
  {
   "property": "C139",
   "status": "proved",
   "theorems": [
    "Verif.Qr.C139_least",
    "Verif.Qr.C139_superposition"
   ],
   "note": "In exact real arithmetic. The algorithm is written from the documentation of Eigen, whose source is not in the repository. Verif.Qr.solver is the instance of the contract Spline.Solver, Verif.Qr.solver_superposes that of Qr.Superposes."
  },
  {
   "property": "C140",
   "status": "partial",
   "theorems": [
    "Verif.PolyCurve.C140_reproduces_partial",
    "Verif.PolyCurve.C140_near_partial",
    "Verif.PolyCurve.C140_vector_partial",
    "Verif.PolyCurve.C140_refuted"
   ],
   "note": "False of fitCurve(times, values) for the orders 3, 4 and 5: the curve stands still at both ends, so every motion that moves there is missed arbitrarily close to the ends. Proved for the overload with end derivatives: exact in the determined cases of C135, near for order 3 and any motion."
  },
  {
   "property": "C141",
   "status": "proved",
   "theorems": [
    "Verif.Qr.C141_offset",
    "Verif.Qr.C141_scalar",
    "Verif.Qr.C141_vector",
    "Verif.Qr.C141_refuted"
   ],
   "note": "Of solvers meeting Qr.Superposes and Qr.Basic; Qr.solver, the algorithm of the code in exact arithmetic, meets both. C141_refuted: that the solver solves solvable systems is not enough for order 5 with three or more knots, whatever the data."
  },
  {
   "property": "C142",
   "status": "partial",
   "theorems": [
    "Verif.Qr.C142_scaled_partial",
    "Verif.Qr.C142_stops",
    "Verif.Qr.C142_passes",
    "Verif.Qr.C142_refuted",
    "Verif.Qr.C142_vector"
   ],
   "note": "False of order 5 with three knots: with the solver of the code (Qr.solver, exact arithmetic) two segments of durations 3 and 4 meet at rest whatever the data, so a motion with constant speed comes to a stop at the middle knot; in a unit twice as long the same fit is the motion. Proved in the cases in which the equations determine the fit: orders 1 to 3, order 4 with three knots, order 5 with two."
  },
  {
   "property": "C143",
   "status": "partial",
   "theorems": [
    "Verif.Manager.C143_passes",
    "Verif.Manager.C143_exact",
    "Verif.Manager.C143_resolves",
    "Verif.Manager.C143_missing_key_refuted",
    "Verif.Manager.C143_reports_bad_move",
    "Verif.Manager.C143_reports_reused_key",
    "Verif.Manager.C143_copy",
    "Verif.Manager.C143_copy_written"
   ],
   "note": "The last sentence is false of the code: the entry found for the key is read before it is compared with end(), so a missing key is undefined behaviour instead of a report (C143_missing_key_refuted). The check does not notice either that a copied manager refers to the knots of its source (C143_copy)."
  },
  {
   "property": "C144",
   "status": "proved",
   "theorems": [
    "Verif.Discrete.C144_ranges",
    "Verif.Discrete.C144_heading",
    "Verif.Discrete.C144_straight",
    "Verif.Discrete.C144_centre",
    "Verif.Discrete.C144_range_grows",
    "Verif.Discrete.C144_even"
   ],
   "note": "With the exponential and logarithm of the plane written out (se2Maps), in exact arithmetic; the ranges and the transformation of points stand for the gtsam functions the helpers call, without their Jacobians."
  },
  {
   "property": "C145",
   "status": "proved",
   "theorems": [
    "Verif.Csv.C145_ragged",
    "Verif.Csv.C145_ragged_timetime",
    "Verif.Csv.C145_blank_line"
   ],
   "note": "Which column is taken for the time is the subject of C46."
  },
  {
   "property": "C146",
   "status": "proved",
   "theorems": [
    "Verif.Rounding.C146_monotone",
    "Verif.Rounding.C146_segment",
    "Verif.Rounding.C146_fit",
    "Verif.Rounding.C146_container"
   ],
   "note": "Rounding as in C95-C101: to nearest, no overflow; for the bounds no underflow either. At the end of a segment the value read need not be the value of the knot, see C97_line_refuted."
  },
  {
   "property": "C147",
   "status": "partial",
   "theorems": [
    "Verif.Qr.C147_reversed_partial",
    "Verif.Qr.C147_there",
    "Verif.Qr.C147_hither",
    "Verif.Qr.C147_refuted"
   ],
   "note": "Proved where the equations determine the fit: order 1, 2, 3, order 4 with three knots, order 5 with two. False of quintic curves with three knots: out in one second and home in two, the curve passes the turning point with velocity 40/27 of the distance, the data played backwards with -15/28 of it (C147_refuted, with the modelled column-pivoted QR solver)."
  },
  {
   "property": "C148",
   "status": "proved",
   "theorems": [
    "Verif.Rounding.C148_segment",
    "Verif.Rounding.C148_container",
    "Verif.Rounding.C148_stuck",
    "Verif.Rounding.C148_step",
    "Verif.Rounding.C148_fit",
    "Verif.Rounding.C148_line"
   ],
   "note": "Durations, coefficients and knots are numbers; the time, and for a container in play its members, may be NaN. link_atTimeN, link_advanceN and link_positionN show that on numbers the model is that of the other properties."
  },
  {
   "property": "C149",
   "status": "proved",
   "theorems": [
    "Verif.Map.C149_insert",
    "Verif.Map.C149_number",
    "Verif.Map.C149_nan",
    "Verif.Map.C149_alone"
   ],
   "note": "The tree searches are those of libstdc++ (bits/stl_tree.h), which is not part of the repository; rebalancing, which keeps the order, is not modelled. The facts about NaN say what that implementation does; the C++ standard leaves them open."
  },
  {
   "property": "C150",
   "status": "partial",
   "theorems": [
    "Verif.Rounding.C150_nearest",
    "Verif.Rounding.C150_exact",
    "Verif.Rounding.C150_expression",
    "Verif.Rounding.C150_refuted"
   ],
   "note": "That the knot returned is the nearest is false in double (C150_refuted); what holds instead is C150_nearest, and C150_exact says that nothing is lost where the two distances are representable."
  },
  {
   "property": "C151",
   "status": "proved",
   "theorems": [
    "Verif.Map.C151_dropped",
    "Verif.Map.C151_new",
    "Verif.Map.C151_first"
   ],
   "note": "On the tree model of std::map (C149), balanced into an arbitrary shape after every insertion. The behaviour at NaN is that of libstdc++; the C++ standard leaves it open."
  },
  {
   "property": "C152",
   "status": "proved",
   "theorems": [
    "Verif.Rounding.C152_knots",
    "Verif.Rounding.C152_between",
    "Verif.Rounding.C152_near",
    "Verif.Rounding.C152_expression",
    "Verif.Rounding.C152_early"
   ],
   "note": "Only the arithmetic of times is rounded; the group operations, exponential and logarithm are exact (contracts ExpLog and, for the distance, Measured)."
  },
  {
   "property": "C153",
   "status": "partial",
   "theorems": [
    "Verif.Rounding.C153_accepts",
    "Verif.Rounding.C153_refuses",
    "Verif.Rounding.C153_end_partial",
    "Verif.Rounding.C153_double_partial",
    "Verif.Rounding.C153_exact",
    "Verif.Rounding.C153_refuted"
   ],
   "note": "That getMaxTime is the last knot time is false in double (C153_refuted) and proved when the differences of the times are representable (C153_exact); in general it is proved up to the stated error."
  },
  {
   "property": "C154",
   "status": "proved",
   "theorems": [
    "Verif.Map.C154_time",
    "Verif.Map.C154_knot",
    "Verif.Map.C154_number",
    "Verif.Map.C154_discrete",
    "Verif.Map.C154_hermite"
   ],
   "note": "The tree searches are those of libstdc++ (see C149)."
  },
  {
   "property": "C155",
   "status": "partial",
   "theorems": [
    "Verif.Rounding.C155_discrete",
    "Verif.Rounding.C155_finite_partial",
    "Verif.Rounding.C155_hermite_refuted"
   ],
   "note": "False of the Hermite curves (C155_hermite_refuted) and of slerp curves after a knot at minus infinity. Proved for the discrete curve, for slerp curves before a knot at infinity, and for the segments of a Hermite curve between knots at numbers."
  },
  {
   "property": "C156",
   "status": "proved",
   "theorems": [
    "Verif.PolyCurve.C156_scalar",
    "Verif.PolyCurve.C156_vector",
    "Verif.PolyCurve.C156_options"
   ],
   "note": "Nothing is assumed of the solver but the residual of its answers to the systems solved. The jumps inside are bounded by C116."
  },
  {
   "property": "C157",
   "status": "partial",
   "theorems": [
    "Verif.Composition.C157_stored",
    "Verif.Composition.C157_held_partial",
    "Verif.Composition.C157_refuted"
   ],
   "note": "What is stored is proved for all sampling ratios. That the correction is held between measurements is false in the middle of a sampling period (C157_refuted) and proved otherwise."
  },
  {
   "property": "C158",
   "status": "partial",
   "theorems": [
    "Verif.Rounding.C158_acceleration",
    "Verif.Rounding.C158_refuted"
   ],
   "note": "The absolute bound is proved. A relative bound is false (C158_refuted)."
  },
  {
   "property": "C159",
   "status": "partial",
   "theorems": [
    "Verif.Rounding.C159_nearest",
    "Verif.Rounding.C159_representable",
    "Verif.Rounding.C159_agrees",
    "Verif.Rounding.C159_position",
    "Verif.Rounding.C159_velocity",
    "Verif.Rounding.C159_refuted"
   ],
   "note": "The bounds of C106 without an additional term are false near zero (C159_refuted); with it they are proved, for velocities if the knots are at most 2^1000 apart."
  },
  {
   "property": "C160",
   "status": "partial",
   "theorems": [
    "Verif.Rounding.C160_position_partial",
    "Verif.Rounding.C160_velocity_partial",
    "Verif.Rounding.C160_acceleration_partial",
    "Verif.Rounding.C160_evaluate_partial",
    "Verif.Rounding.C160_fit_partial",
    "Verif.Rounding.C160_short_refuted",
    "Verif.Rounding.C160_refuted"
   ],
   "note": "False near the limits of the range (C160_short_refuted for all curves with knots at most 2^-1024 apart, C160_refuted for large numbers). Proved under explicit bounds, which are not sharp."
  },
  {
   "property": "C161",
   "status": "partial",
   "theorems": [
    "Verif.Rounding.C161_follows",
    "Verif.Rounding.C161_clock",
    "Verif.Rounding.C161_steps",
    "Verif.Rounding.C161_end_partial",
    "Verif.Rounding.C161_refuted",
    "Verif.Rounding.C161_step_refuted"
   ],
   "note": "False is that the end is reported exactly when the stored duration is reached (C161_refuted); proved up to the stated fraction. C161_step_refuted shows that the guard of C161_follows cannot be relaxed to that of C27."
  },
  {
   "property": "C162",
   "status": "proved",
   "theorems": [
    "Verif.Composition.C162_pace",
    "Verif.Composition.C162_radius",
    "Verif.Composition.C162_fold",
    "Verif.Composition.C162_times",
    "Verif.Composition.C162_fold_discrete",
    "Verif.Composition.C162_times_discrete",
    "Verif.Composition.C162_no_times"
   ],
   "note": "\u03ba is 1 for attitudes and for positions in space, \u03c0/2 for positions in the plane (C127). Lever instances: pose3_lever, se2_lever."
  },
  {
   "property": "C163",
   "status": "proved",
   "theorems": [
    "Verif.Rounding.C163_read",
    "Verif.Rounding.C163_played",
    "Verif.Rounding.C163_curve",
    "Verif.Rounding.C163_near"
   ],
   "note": "The times are computed with subnormal numbers (ieee), the polynomials in C163_curve and C163_near without underflow (double), as in C114. The step has to be shorter than half of every segment, see C161_step_refuted."
  },
  {
   "property": "C164",
   "status": "proved",
   "theorems": [
    "Verif.Container.C164_shows",
    "Verif.Container.C164_keeps_up",
    "Verif.Container.C164_one_by_one",
    "Verif.Container.C164_catches_up",
    "Verif.Container.C164_stuck"
   ],
   "note": "In exact arithmetic. This completes C27, whose guard (no step longer than a segment) is replaced by what happens for every sequence of steps."
  },
  {
   "property": "C165",
   "status": "proved",
   "theorems": [
    "Verif.Hermite.C165_ease",
    "Verif.Hermite.E3.C165_between",
    "Verif.Hermite.SE3.C165_between",
    "Verif.Hermite.SE3.C165_attitude",
    "Verif.PolyCurve.C165_ease5",
    "Verif.PolyCurve.C165_cubic",
    "Verif.PolyCurve.C165_quintic",
    "Verif.PolyCurve.C165_vector",
    "Verif.PolyCurve.C165_monotone",
    "Verif.PolyCurve.C165_refuted"
   ],
   "note": "In exact arithmetic. E3: for a fresh curve (the E3 fit does not clear). Scalar orders 1 and 2: straight lines, C65; order 4 with two knots leaves the answer to the solver (C135). C165_refuted: in double the Hermite curve from 5 to 6 dips below 5."
  },
  {
   "property": "C166",
   "status": "partial",
   "theorems": [
    "Verif.Hermite.E3.C166_rising_partial",
    "Verif.Hermite.E3.C166_three_times_partial",
    "Verif.Hermite.E3.C166_three"
   ],
   "note": "False of the code for data whose rises are too unequal (C166_three gives the exact condition for three points at equal steps). Proved under explicit conditions on the ratios. In exact arithmetic, for a fresh curve. Falling data: the same with the coordinate negated; positions of CubicHermiteSE3Curve: C123."
  },
  {
   "property": "C167",
   "status": "partial",
   "theorems": [
    "Verif.PolyCurve.C167_hermite",
    "Verif.PolyCurve.C167_rising_partial",
    "Verif.PolyCurve.C167_three"
   ],
   "note": "The first two sentences are proved (C167_hermite). Rising data give a rising curve is false of the code for data whose rises are too unequal (C167_three gives the exact condition for three points at equal steps); C167_rising_partial has the guard on the slopes. In exact arithmetic, for every solver that solves the equations."
  },
  {
   "property": "C168",
   "status": "proved",
   "theorems": [
    "Verif.PolyCurve.C168_rate",
    "Verif.PolyCurve.C168_halves",
    "Verif.PolyCurve.C168_reach"
   ],
   "note": "In exact arithmetic, for every solver that solves the equations. Order 3 only: with order 5 the requirements leave the solver a choice (C88), so no such bound can hold of the positions between the knots."
  },
  {
   "property": "C169",
   "status": "proved",
   "theorems": [
    "Verif.PolyCurve.C169_rate",
    "Verif.PolyCurve.C169_space",
    "Verif.PolyCurve.C169_near"
   ],
   "note": "In exact arithmetic; the Hermite curve is fresh (its fit does not clear, C39)."
  },
  {
   "property": "C170",
   "status": "proved",
   "theorems": [
    "Verif.PolyCurve.C170_limits",
    "Verif.PolyCurve.C170_space",
    "Verif.PolyCurve.C170_poses",
    "Verif.PolyCurve.C170_attained"
   ],
   "note": "In exact arithmetic; the vector curve is fresh (its fit does not clear, C39). At a knot between two segments the acceleration reported is that of the later one."
  },
  {
   "property": "C171",
   "status": "proved",
   "theorems": [
    "Verif.PolyCurve.C171_motion",
    "Verif.PolyCurve.C171_poses",
    "Verif.PolyCurve.C171_equal"
   ],
   "note": "In exact arithmetic; the vector curve is fresh (its fit does not clear, C39). The attitude of pose curves: C126. At unequal steps the third power is false already for constant acceleration (C136_refuted)."
  },
  {
   "property": "C172",
   "status": "proved",
   "theorems": [
    "Verif.PolyCurve.C172_motion",
    "Verif.PolyCurve.C172_smooth"
   ],
   "note": "In exact arithmetic, for every solver that solves the equations. The velocity is compared at the samples."
  },
  {
   "property": "C173",
   "status": "proved",
   "theorems": [
    "Verif.PolyCurve.C173_velocity",
    "Verif.PolyCurve.C173_limits",
    "Verif.PolyCurve.C173_motion"
   ],
   "note": "In exact arithmetic, for every solver that solves the equations. The bounds 24 R and 5/2 M h are not claimed to be the least."
  },
  {
   "property": "C174",
   "status": "proved",
   "theorems": [
    "Verif.PolyCurve.C174_pieces",
    "Verif.PolyCurve.C174_refine",
    "Verif.PolyCurve.C174_hermite_refuted"
   ],
   "note": "In exact arithmetic, for every solver that solves the equations. That the Hermite curve changes is shown by one refinement."
  },
  {
   "property": "C175",
   "status": "proved",
   "theorems": [
    "Verif.PolyCurve.C175_cut",
    "Verif.PolyCurve.C175_join",
    "Verif.PolyCurve.C175_hermite_cut"
   ],
   "note": "In exact arithmetic, for every solver that solves the equations."
  },
  {
   "property": "C176",
   "status": "proved",
   "theorems": [
    "Verif.PolyCurve.C176_acceleration",
    "Verif.PolyCurve.C176_attained",
    "Verif.PolyCurve.C176_motion"
   ],
   "note": "In exact arithmetic, for every solver that solves the equations. That the factor 3 is the least is shown for the first statement, not for samples of a motion."
  },
  {
   "property": "C177",
   "status": "proved",
   "theorems": [
    "Verif.PolyCurve.C177_acceleration",
    "Verif.PolyCurve.C177_uneven_refuted"
   ],
   "note": "In exact arithmetic. The ratio enters only for the segments next to the one at hand."
  },
  {
   "property": "C178",
   "status": "proved",
   "theorems": [
    "Verif.PolyCurve.C178_convex",
    "Verif.PolyCurve.C178_exact"
   ],
   "note": "In exact arithmetic. For more than one segment the condition is sufficient; that it is necessary is shown for one segment."
  },
  {
   "property": "C179",
   "status": "proved",
   "theorems": [
    "Verif.PolyCurve.C179_hermite",
    "Verif.PolyCurve.C179_velocity",
    "Verif.PolyCurve.C179_both",
    "Verif.PolyCurve.C179_converse_refuted"
   ],
   "note": "In exact arithmetic. The comparison is for equal steps; its converse is refuted."
  },
  {
   "property": "C180",
   "status": "proved",
   "theorems": [
    "Verif.PolyCurve.C180_scalar",
    "Verif.PolyCurve.C180_hermite"
   ],
   "note": "In exact arithmetic. C178 and C179 say when the accelerations are not negative."
  }
 ]
}