{
 "claims": [
  {
   "property": "C01",
   "status": "proved",
   "theorems": [
    "Celest.Schedule.C01_every_window_serves_its_own_request",
    "Celest.Schedule.C01_every_window_feasible"
   ],
   "note": "Any history of add_request/generate calls, any parameters and draws: a returned window serves a submitted request."
  },
  {
   "property": "C02",
   "status": "partial",
   "theorems": [
    "Celest.Schedule.C02_insertion_partial",
    "Celest.Schedule.C02_removal_partial",
    "Celest.Schedule.C02_one_iteration_partial",
    "Celest.Schedule.C02_no_overlap_partial",
    "Celest.Schedule.C02_overlap_possible",
    "Celest.Schedule.C02_at_most_two_partial"
   ],
   "note": "False in general: kernel-checked run of generate whose output contains overlapping observations. Proved: the output after at most one iteration is pairwise disjoint (the refutation has two); removal never creates overlaps, and insertion only with the request in the last row; and after any history and any number of iterations at most two observations are under way at the same instant."
  },
  {
   "property": "C03",
   "status": "proved",
   "theorems": [
    "Celest.Schedule.C03_at_most_one_window_per_request",
    "Celest.Schedule.C03_requests_preserved",
    "Celest.Schedule.C03_operators_preserve_requests",
    "Celest.Schedule.C01_every_window_serves_its_own_request"
   ],
   "note": "The returned windows match distinct submissions one-to-one; every operator and every history preserves the submitted requests up to window order."
  },
  {
   "property": "C04",
   "status": "proved",
   "theorems": [
    "Celest.Schedule.C04_counter_exact",
    "Celest.Schedule.C04_operators_keep_counter",
    "Celest.Schedule.C04_raw_unschedule_breaks_counter"
   ],
   "note": "Through all operators and histories reachable in the API; calling unschedule_request directly on an unscheduled request breaks it (separate theorem)."
  },
  {
   "property": "C05",
   "status": "partial",
   "theorems": [
    "Celest.Schedule.C05_visits_all_but_last_partial",
    "Celest.Schedule.C05_never_visits_all"
   ],
   "note": "False: the last request is never visited. Exact statement of what is visited proved."
  },
  {
   "property": "C06",
   "status": "partial",
   "theorems": [
    "Celest.Schedule.C06_conflict_exact_partial",
    "Celest.Schedule.C06_last_request_ignored",
    "Celest.Schedule.C06_last_request_never_seen"
   ],
   "note": "False for the last request, in every consistent handler (C06_last_request_never_seen); exact for all others."
  },
  {
   "property": "C07",
   "status": "partial",
   "theorems": [
    "Celest.Schedule.C07_removes_exactly_partial",
    "Celest.Schedule.C07_conflict_removal_partial",
    "Celest.Schedule.C07_conflict_removal_mixed_raises",
    "Celest.Schedule.C07_conflict_removal_uniform_partial"
   ],
   "note": "Proved for random, priority and opportunity removal. Conflict removal raises on every mixture of scheduled and unscheduled requests; otherwise exact."
  },
  {
   "property": "C08",
   "status": "proved",
   "theorems": [
    "Celest.Schedule.C08_priority_removal_order",
    "Celest.Schedule.C08_opportunity_removal_order"
   ],
   "note": "Order of priority and opportunity removal."
  },
  {
   "property": "C09",
   "status": "proved",
   "theorems": [
    "Celest.Schedule.C09_insertion_only_adds"
   ],
   "note": "All three insertion operators."
  },
  {
   "property": "C10",
   "status": "partial",
   "theorems": [
    "Celest.Schedule.C10_request_sorts_partial",
    "Celest.Schedule.C10_rise_sort_partial",
    "Celest.Schedule.C10_window_conflict_sort_partial",
    "Celest.Schedule.C10_window_tie_raises",
    "Celest.Schedule.C10_conflict_sort_partial",
    "Celest.Schedule.C10_conflict_sort_not_stable",
    "Celest.Schedule.C07_conflict_removal_mixed_raises"
   ],
   "note": "Proved for priority, opportunity and rise-time sorts. Conflict-degree sorts: sorted when they return, but raise on mixtures / ties and are not stable."
  },
  {
   "property": "C11",
   "status": "partial",
   "theorems": [
    "Celest.Schedule.C11_overlap_exact_iff_partial",
    "Celest.Schedule.C11_not_symmetric",
    "Celest.Schedule.C11_touching_windows",
    "Celest.Schedule.C11_conflict_degree_is_mean_partial"
   ],
   "note": "False in general: exact iff-characterisation of the pairs for which it holds, and refutations."
  },
  {
   "property": "C12",
   "status": "proved",
   "theorems": [
    "Celest.Schedule.C12_initial_schedule_conflict_free",
    "Celest.Schedule.C12_initial_schedule_feasible"
   ],
   "note": ""
  },
  {
   "property": "C13",
   "status": "proved",
   "theorems": [
    "Celest.Alns.C13_result_is_best",
    "Celest.Alns.C13_never_worse_than_start"
   ],
   "note": "For the generic search over any state type and operators."
  },
  {
   "property": "C14",
   "status": "proved",
   "theorems": [
    "Celest.Alns.C14_stops_exactly_when_complete",
    "Celest.Alns.C14_trivial_searches"
   ],
   "note": ""
  },
  {
   "property": "C15",
   "status": "proved",
   "theorems": [
    "Celest.Alns.C15_weights_stay_positive",
    "Celest.Alns.C15_probabilities_are_a_distribution",
    "Celest.Alns.C15_fails_at_one",
    "Celest.Alns.C15_selection_never_fails",
    "Celest.Alns.C15_zero_weight_at_one",
    "Celest.Alns.C15_selected_iff"
   ],
   "note": "Proved for every significance in [0,1), in every state a search can reach, also of runs that fail later. Beyond the statement: at the documented end point 1 it fails (C15_fails_at_one, C15_zero_weight_at_one)."
  },
  {
   "property": "C16",
   "status": "partial",
   "theorems": [
    "Celest.Alns.C16_better_always_accepted_partial",
    "Celest.Alns.C16_accept_rule_partial",
    "Celest.Alns.C16_monotone_partial",
    "Celest.Alns.C16_fails_iff",
    "Celest.Alns.C16_temperature_positive_partial",
    "Celest.Alns.C16_cooling_partial"
   ],
   "note": "Rule proved for negative current cost and positive temperature; divides by zero at cost zero (exact iff)."
  },
  {
   "property": "C17",
   "status": "partial",
   "theorems": [
    "Celest.Alns.C17_scores_partial",
    "Celest.Alns.C17_better_score_never_awarded",
    "Celest.Alns.C17_credit_partial",
    "Celest.Alns.C17_sequence_partial"
   ],
   "note": "The \"better\" score is unreachable; the other three are awarded as documented."
  },
  {
   "property": "C18",
   "status": "partial",
   "theorems": [
    "Celest.Schedule.C18_cost_and_completeness_partial",
    "Celest.Schedule.C18_last_request_ignored"
   ],
   "note": "False for the last request; exact formula proved."
  },
  {
   "property": "C19",
   "status": "partial",
   "theorems": [
    "Celest.Schedule.C19_dominant_request_served_partial",
    "Celest.Schedule.C19_lone_request_never_scheduled",
    "Celest.Schedule.C19_default_start_fits_iff"
   ],
   "note": "False: a lone request is never returned. Proved: with at least one other request a feasible request is served, by whatever generate returns, if its priority exceeds the sum of the others (C19_dominant_request_served_partial, any number of iterations and draws). The geometric condition of the default start is characterised exactly."
  },
  {
   "property": "C20",
   "status": "partial",
   "theorems": [
    "Celest.Schedule.C20_conflict_removal_raises_generally",
    "Celest.Schedule.C20_outcomes_partial",
    "Celest.Schedule.C20_zero_iterations_partial",
    "Celest.Schedule.C20_no_requests_partial",
    "Celest.Schedule.C20_raises_when_nothing_schedulable",
    "Celest.Schedule.C20_conflict_removal_raises",
    "Celest.Schedule.C20_numeric_look_angle_raises"
   ],
   "note": "False: three independent causes of exceptions proved, each for a whole class of request lists (C20_conflict_removal_raises_generally: any starting schedule that serves some requests but not all before the last, with a quarter of all first draws). Proved: only TypeError or ZeroDivisionError are possible for plain requests, none with zero iterations."
  },
  {
   "property": "C21",
   "status": "proved",
   "theorems": [
    "Celest.Schedule.C21_range_and_peak",
    "Celest.Schedule.C21_symmetric_and_monotone",
    "Celest.Schedule.C21_default_quality",
    "Celest.Schedule.C21_degenerate_window"
   ],
   "note": ""
  },
  {
   "property": "C22",
   "status": "proved",
   "theorems": [
    "Celest.Schedule.C22_bisection",
    "Celest.Schedule.C22_needs_samples",
    "Celest.Windows.C22_generated_windows"
   ],
   "note": "Under the condition that rise and set times are samples; otherwise IndexError (separate theorem). Windows of generate_vtws meet the condition when the first sample is not visible."
  },
  {
   "property": "C23",
   "status": "partial",
   "theorems": [
    "Celest.Windows.C23_windows_are_maximal_runs_partial",
    "Celest.Windows.C23_rejected_arguments_partial",
    "Celest.Windows.C23_samples_in_windows_partial",
    "Celest.Windows.C23_first_run_in_no_window"
   ],
   "note": "Windows and maximal runs match one to one in every call that returns; a call returns when at least one sample qualifies (otherwise IndexError, C25). Samples in windows: exact when the first sample is not visible; false otherwise, since the window of the first run rises at the last sample (C23_first_run_in_no_window)."
  },
  {
   "property": "C24",
   "status": "partial",
   "theorems": [
    "Celest.Windows.C24_windows_ordered_disjoint_partial",
    "Celest.Windows.C24_first_sample_visible"
   ],
   "note": "False when the first sample is visible (general refutation); proved otherwise."
  },
  {
   "property": "C25",
   "status": "partial",
   "theorems": [
    "Celest.Windows.C25_no_visible_sample_raises",
    "Celest.Windows.C25_never_returns_empty"
   ],
   "note": "False: refuted for every scene without a visible sample (IndexError), and no call returns an empty collection."
  },
  {
   "property": "C26",
   "status": "proved",
   "theorems": [
    "Celest.Windows.C26_collection_homogeneous"
   ],
   "note": ""
  },
  {
   "property": "C27",
   "status": "partial",
   "theorems": [
    "Celest.Windows.C27_complete_loops_partial",
    "Celest.Windows.C27_stale_after_break",
    "Celest.Windows.C27_nested_never_ends",
    "Celest.Windows.C27_indexing_partial"
   ],
   "note": "False after a loop left early and for nested loops (general refutations); proved for histories of additions and completed loops."
  },
  {
   "property": "C28",
   "status": "partial",
   "theorems": [
    "Celest.Units.C28_conversion_partial",
    "Celest.Units.C28_multiples_ignored"
   ],
   "note": "Proved for formulas without numeric multiples and without divisions by a compound unit sharing a unit with the dividend. False for numeric multiples (general refutation) and for the quotients refuted under C33."
  },
  {
   "property": "C29",
   "status": "proved",
   "theorems": [
    "Celest.Units.C29_round_trip_and_compose"
   ],
   "note": "For all units built by unit arithmetic, including numeric multiples."
  },
  {
   "property": "C30",
   "status": "partial",
   "theorems": [
    "Celest.Units.C30_dimension_safety_partial",
    "Celest.Units.C30_formulas_partial",
    "Celest.Units.C30_quotient_counterexample"
   ],
   "note": "Proved with respect to the exponents the unit object lists; with respect to the formula it fails for the quotients of C33 (counterexample) and is proved for the rest."
  },
  {
   "property": "C31",
   "status": "partial",
   "theorems": [
    "Celest.Units.C31_named_units_partial",
    "Celest.Units.C31_same_shape_partial",
    "Celest.Units.C31_order_matters",
    "Celest.Units.C31_cancelled_dimension"
   ],
   "note": "False: refuted for every product of two units of different dimensions taken in two orders, and for every quotient of two different units of one dimension. Proved for named units and for compound units of equal shape."
  },
  {
   "property": "C32",
   "status": "proved",
   "theorems": [
    "Celest.Units.C32_product_exponents",
    "Celest.Units.C32_dimensionless_factor"
   ],
   "note": ""
  },
  {
   "property": "C33",
   "status": "partial",
   "theorems": [
    "Celest.Units.C33_quotient_exponents",
    "Celest.Units.C33_quotient_partial",
    "Celest.Units.C33_self_quotient"
   ],
   "note": "False: exact exponents of every quotient are proved; they differ from the claim whenever a compound divisor shares a unit with the dividend. A compound unit over itself doubles its exponents."
  },
  {
   "property": "C34",
   "status": "partial",
   "theorems": [
    "Celest.Units.C34_power_exponents_partial",
    "Celest.Units.C34_zeroth_power_named_partial",
    "Celest.Units.C34_zeroth_power_compound"
   ],
   "note": "Exponents proved for all units and integers; the zeroth power of a compound unit keeps zero powers and has no plain dimension string (general refutation)."
  },
  {
   "property": "C35",
   "status": "partial",
   "theorems": [
    "Celest.Units.C35_product_partial",
    "Celest.Units.C35_size_is_factor",
    "Celest.Units.C35_quotient_partial",
    "Celest.Units.C35_ratio_of_compounds"
   ],
   "note": "Products proved; quotients proved outside the quotients of C33; ratios of quantities in compound units of one dimension get the squared unit (general refutation)."
  },
  {
   "property": "C36",
   "status": "partial",
   "theorems": [
    "Celest.Units.C36_sums_partial",
    "Celest.Units.C36_commutative_associative_partial",
    "Celest.Units.C36_multiples",
    "Celest.Units.C36_plain_numbers"
   ],
   "note": "Proved with sizes from the listed exponents; false for numeric multiples (general refutation)."
  },
  {
   "property": "C37",
   "status": "partial",
   "theorems": [
    "Celest.Units.C37_order_of_values_partial",
    "Celest.Units.C37_total_order_partial",
    "Celest.Units.C37_multiples"
   ],
   "note": "Order laws proved for all units; agreement with values fails for numeric multiples (general refutation)."
  },
  {
   "property": "C38",
   "status": "partial",
   "theorems": [
    "Celest.Units.C38_quantities_partial",
    "Celest.Units.C38_other_operands",
    "Celest.Units.C38_arrays"
   ],
   "note": "False for operands that are not quantities and for arrays (general refutations); proved between scalar quantities."
  },
  {
   "property": "C39",
   "status": "partial",
   "theorems": [
    "Celest.Units.C39_copy_converts_alike_partial",
    "Celest.Units.C39_copy_does_not_cancel"
   ],
   "note": "False for unit arithmetic (general refutation); proved for text, dimension and conversion."
  },
  {
   "property": "C40",
   "status": "partial",
   "theorems": [
    "Celest.Units.C40_multiple_of_named_partial",
    "Celest.Units.C40_compound_definition"
   ],
   "note": "False for compound definitions (general refutation); proved for multiples of named units."
  },
  {
   "property": "C41",
   "status": "partial",
   "theorems": [
    "Celest.Calendar.C41_date_iff",
    "Celest.Calendar.C41_gregorian_date_partial",
    "Celest.Calendar.C41_consecutive_days_partial",
    "Celest.Calendar.C41_first_of_march",
    "Celest.Calendar.C41_centennial_years"
   ],
   "note": "False: exact condition proved (if and only if). 1582-9999: right outside March-May of centennial common years; in those, right exactly once the lag is over, and before that the day before, with a 29 February, is returned (C41_centennial_years)."
  },
  {
   "property": "C42",
   "status": "partial",
   "theorems": [
    "Celest.Calendar.C42_elementwise_partial",
    "Celest.Calendar.C42_early_date_in_array"
   ],
   "note": "False: any array of two or more with an instant before day 2291161 raises (general refutation). Proved for arrays wholly after it."
  },
  {
   "property": "C43",
   "status": "partial",
   "theorems": [
    "Celest.Calendar.C43_ordinal_partial",
    "Celest.Calendar.C43_advances_partial",
    "Celest.Calendar.C43_centennial_years",
    "Celest.Calendar.C43_day_of_year_exactly"
   ],
   "note": "False in centennial common years; the result is given exactly for every date 1582-9999 (C43_day_of_year_exactly)."
  },
  {
   "property": "C44",
   "status": "partial",
   "theorems": [
    "Celest.TimeScale.C44_range_partial",
    "Celest.TimeScale.C44_longitude_partial",
    "Celest.TimeScale.C44_full_turn_partial",
    "Celest.TimeScale.C44_gast_partial",
    "Celest.TimeScale.C44_gast_negative",
    "Celest.TimeScale.C44_gast_leaves_every_day",
    "Celest.TimeScale.C44_gast_by_node"
   ],
   "note": "All proved except the range of GAST, which is refuted on every day within ten thousand years of 2000 (C44_gast_leaves_every_day: every day has a sidereal midnight, where GAST is negative or, shortly before, 24 or more, unless the equation of the equinoxes vanishes at that very instant; C44_gast_by_node: by the sign of the sine of the node); GAST range proved away from midnight."
  },
  {
   "property": "C45",
   "status": "proved",
   "theorems": [
    "Celest.TimeScale.C45_uniform_rotation"
   ],
   "note": ""
  },
  {
   "property": "C46",
   "status": "proved",
   "theorems": [
    "Celest.Frames.C46_round_trip"
   ],
   "note": ""
  },
  {
   "property": "C47",
   "status": "proved",
   "theorems": [
    "Celest.Frames.C47_rotations",
    "Celest.Frames.C47_sequence"
   ],
   "note": ""
  },
  {
   "property": "C48",
   "status": "proved",
   "theorems": [
    "Celest.Frames.C48_lvlh_frame",
    "Celest.Frames.C48_scale_invariant"
   ],
   "note": ""
  },
  {
   "property": "C49",
   "status": "proved",
   "theorems": [
    "Celest.Frames.C49_off_nadir_angle",
    "Celest.Frames.C49_points_at_target_partial",
    "Celest.Frames.C49_body_axis_mirrored",
    "Celest.Frames.C49_nadir",
    "Celest.Frames.C49_points_at_target",
    "Celest.Frames.C49_needs_yaw"
   ],
   "note": "Proved for every target closer to the centre of the Earth than the satellite; the _partial theorem covers other targets off two directions. Also: all three angles are needed, and read as body axes the third axis points at the mirror image."
  },
  {
   "property": "C50",
   "status": "proved",
   "theorems": [
    "Celest.Frames.C50_ellipsoid",
    "Celest.Frames.C50_two_polar_axes"
   ],
   "note": ""
  },
  {
   "property": "C51",
   "status": "partial",
   "theorems": [
    "Celest.Frames.C51_longitude_partial",
    "Celest.Frames.C51_latitude_partial",
    "Celest.Frames.C51_latitude_not_returned"
   ],
   "note": "False for the latitude: refuted for every latitude off the equator and poles (it becomes the geocentric one). Longitude proved."
  },
  {
   "property": "C52",
   "status": "partial",
   "theorems": [
    "Celest.Frames.C52_converges_partial",
    "Celest.Frames.C52_error_bound_partial",
    "Celest.Frames.C52_equatorial_altitude",
    "Celest.Frames.C52_equatorial_error",
    "Celest.Frames.C52_fixed_point_partial",
    "Celest.Frames.C52_height_unique",
    "Celest.Frames.C52_first_guess_or_accurate_partial",
    "Celest.Frames.C52_wrong_in_the_south",
    "Celest.Frames.C52_low_north_partial",
    "Celest.Frames.C52_single_north_partial",
    "Celest.Frames.C52_altitudes_of_the_api"
   ],
   "note": "False: refuted for every array of positions between the equator and 36 degrees south, where each altitude returned is the first guess (distance from the centre less the geometric mean of the axes), too high by more than 10.6 - 22 sin^2 km of the geocentric latitude, so by 2.6 to 11 km (C52_wrong_in_the_south; on the equator itself C52_equatorial_altitude). Proved: for every array the altitudes are either all first guesses or all within 1.01 km of the true heights; within 1.01 km for arrays at low northern latitudes and within 1.02 km for any single northern position (1.2 degrees or more from the equator, up to 48000 km from the centre); never more than 11 km off; the iterates converge to the true height, which is a fixed point; and the height of a position outside the ellipsoid is unique."
  },
  {
   "property": "C53",
   "status": "partial",
   "theorems": [
    "Celest.Frames.C53_ranges_partial",
    "Celest.Frames.C53_defined_partial",
    "Celest.Frames.C53_extremes_partial",
    "Celest.Frames.C53_zenith_below_90"
   ],
   "note": "Ranges and exact zero/90 conditions proved; the zenith is geocentric, so elevation 90 at the geographic zenith is refuted for every station off equator and poles; azimuth is NaN at the equator."
  },
  {
   "property": "C54",
   "status": "partial",
   "theorems": [
    "Celest.Frames.C54_north_reversed",
    "Celest.Frames.C54_east_partial"
   ],
   "note": "False: in the southern hemisphere north is reported beyond 90 degrees and east as exactly 270 (general refutations). East proved in the northern hemisphere."
  },
  {
   "property": "C55",
   "status": "proved",
   "theorems": [
    "Celest.Frames.C55_distance"
   ],
   "note": ""
  },
  {
   "property": "C56",
   "status": "partial",
   "theorems": [
    "Celest.Frames.C56_requested_frame_partial",
    "Celest.Frames.C56_identity_partial",
    "Celest.Frames.C56_via_itrs_partial",
    "Celest.Frames.C56_not_implemented",
    "Celest.Frames.C56_times_partial",
    "Celest.Frames.C56_itrs_and_back"
   ],
   "note": "Proved for targets GCRS, ITRS, WGS84 and AzEl; requests for LVLH or attitude return NotImplemented, conversion to WGS84 is subject to the altitude loop ending, and a geographic position taken to ITRS and back changes its latitude (general refutation, C56_itrs_and_back)."
  },
  {
   "property": "C57",
   "status": "partial",
   "theorems": [
    "Celest.Frames.C57_accepted",
    "Celest.Frames.C57_consistent_partial",
    "Celest.Frames.C57_inconsistent_accepted"
   ],
   "note": "False: exact acceptance condition proved; unequal lengths are accepted as soon as two neighbours agree (general refutation)."
  },
  {
   "property": "C58",
   "status": "partial",
   "theorems": [
    "Celest.Frames.C58_bare_numbers_checked",
    "Celest.Frames.C58_degrees_partial",
    "Celest.Frames.C58_other_units"
   ],
   "note": "Exactly: the bare numbers are checked as if they were degrees, whatever the unit (C58_bare_numbers_checked). So proved in degrees and refuted for every other unit."
  },
  {
   "property": "C59",
   "status": "proved",
   "theorems": [
    "Celest.Text.C59_save_succeeds_iff",
    "Celest.Text.C59_saved_text",
    "Celest.Text.C59_table_reads_back",
    "Celest.Text.C59_number_format"
   ],
   "note": "For every writer, table and file system; plus a round trip for a reader who splits lines and tabs."
  },
  {
   "property": "C60",
   "status": "partial",
   "theorems": [
    "Celest.Text.C60_aligned_iff",
    "Celest.Text.C60_nonnegative_aligned_partial",
    "Celest.Text.C60_negative_misaligned"
   ],
   "note": "False (general refutation for negative numbers); exact condition proved, and alignment for nonnegative quantities."
  },
  {
   "property": "C61",
   "status": "partial",
   "theorems": [
    "Celest.Text.C61_old_content_lost",
    "Celest.Text.C61_failed_table_save",
    "Celest.Text.C61_other_files_untouched_partial"
   ],
   "note": "False: what a failed save leaves is characterised exactly. Proved: other files are untouched."
  },
  {
   "property": "C62",
   "status": "proved",
   "theorems": [
    "Celest.Text.C62_file_names"
   ],
   "note": ""
  },
  {
   "property": "C63",
   "status": "partial",
   "theorems": [
    "Celest.Text.C63_sexagesimal_partial",
    "Celest.Text.C63_sixty_seconds",
    "Celest.Text.C63_hemispheres_partial"
   ],
   "note": "Seconds can read 60.00 (characterised); everything else proved."
  },
  {
   "property": "C64",
   "status": "partial",
   "theorems": [
    "Celest.Units.C64_integer_arrays",
    "Celest.Units.C64_elementwise_partial"
   ],
   "note": "False for integer arrays (general refutation); proved for float arrays."
  },
  {
   "property": "C65",
   "status": "partial",
   "theorems": [
    "Celest.Schedule.C65_insertion_records_window_partial",
    "Celest.Schedule.C65_scheduler_index_right_partial",
    "Celest.Schedule.C65_index_goes_stale"
   ],
   "note": "False after minimum-conflict insertion re-sorts the windows of an already scheduled request (counterexample). Proved for every single insertion and for the other operators."
  },
  {
   "property": "C66",
   "status": "partial",
   "theorems": [
    "Celest.Schedule.C66_last_never_removed",
    "Celest.Schedule.C66_others_can_be_removed_partial"
   ],
   "note": "False: the last request of the list is never removed unless all are (general refutation). Proved for every other request."
  },
  {
   "property": "C67",
   "status": "proved",
   "theorems": [
    "Celest.Schedule.C67_insertion_exhaustive",
    "Celest.Schedule.C67_initial_schedule_maximal"
   ],
   "note": ""
  },
  {
   "property": "C68",
   "status": "proved",
   "theorems": [
    "Celest.Schedule.C68_greedy_serves_high_priority_first",
    "Celest.Schedule.C68_minimum_opportunity_first",
    "Celest.Schedule.C68_initial_schedule_serves_high_priority_first"
   ],
   "note": ""
  },
  {
   "property": "C69",
   "status": "partial",
   "theorems": [
    "Celest.Schedule.C69_windows_have_no_attitude",
    "Celest.Schedule.C69_saving_a_schedule_always_raises",
    "Celest.Windows.C69_windows_with_attitude_read_back_partial"
   ],
   "note": "False: saving what generate returned raises for every history and every result. Proved: after any history of a collection, observation windows that carry an attitude are saved in order of addition with their own start, duration, location and first attitude."
  },
  {
   "property": "C70",
   "status": "proved",
   "theorems": [
    "Celest.Frames.C70_angles_add_up",
    "Celest.Frames.C70_sine_rule",
    "Celest.Frames.C70_above_horizon_iff",
    "Celest.Frames.C70_visible_consequences"
   ],
   "note": ""
  },
  {
   "property": "C71",
   "status": "proved",
   "theorems": [
    "Celest.Frames.C71_accepted_frames",
    "Celest.Frames.C71_inertial_geometry",
    "Celest.Frames.C71_same_satellite"
   ],
   "note": ""
  },
  {
   "property": "C72",
   "status": "partial",
   "theorems": [
    "Celest.Frames.C72_mismatch_accepted",
    "Celest.Frames.C72_attitude_per_instant_partial",
    "Celest.Frames.C72_instants_mixed"
   ],
   "note": "False: position and velocity of different times are accepted and combined sample by sample (general refutation). Proved when the times agree."
  },
  {
   "property": "C73",
   "status": "partial",
   "theorems": [
    "Celest.TimeScale.C73_lmst_near_gmst_plus_longitude_partial",
    "Celest.TimeScale.C73_apparent_minus_mean_partial",
    "Celest.TimeScale.C73_lmst_uses_true_sun_partial",
    "Celest.TimeScale.C73_lmst_is_not_gmst_plus_longitude",
    "Celest.TimeScale.C73_lmst_error_is_equation_of_time",
    "Celest.TimeScale.C73_wrong_whenever_equation_of_time"
   ],
   "note": "False for mean sidereal time, from 1900 to 2100 at every longitude whenever the equation of time exceeds 8 seconds; the apparent minus mean difference, the formula computed, and that the error from 1900 to 2100 is the equation of time (to 8 seconds, so at most 19 minutes) are proved."
  },
  {
   "property": "C74",
   "status": "partial",
   "theorems": [
    "Celest.Frames.C74_no_velocity",
    "Celest.Frames.C74_saved_columns_partial"
   ],
   "note": "False: every satellite without velocity raises. Proved for satellites with velocity."
  },
  {
   "property": "C75",
   "status": "proved",
   "theorems": [
    "Celest.Frames.C75_altitude_returns",
    "Celest.Frames.C75_conversion_returns",
    "Celest.Frames.C75_at_most_four_passes"
   ],
   "note": "Strengthened: the loop ends after at most four passes for arrays of any length (C75_at_most_four_passes)."
  },
  {
   "property": "C76",
   "status": "partial",
   "theorems": [
    "Celest.Frames.C76_altitude_depends_on_companions",
    "Celest.Frames.C76_order_irrelevant_partial",
    "Celest.Frames.C76_bounded_dependence_partial",
    "Celest.Frames.C76_every_southern_altitude_depends"
   ],
   "note": "False: for every array of positions between the equator and 36 degrees south every altitude changes by more than 1.5 km when high northern positions are added (C76_every_southern_altitude_depends), on the equator by more than 10 km. Proved: the order of the array is irrelevant, and companions cannot change an altitude by more than 22 km."
  },
  {
   "property": "C77",
   "status": "partial",
   "theorems": [
    "Celest.Windows.C77_stricter_windows_within_partial",
    "Celest.Windows.C77_stricter_window_outside"
   ],
   "note": "Holds when the first sample is not visible under the looser condition; refuted generally otherwise (the pass under way at the first sample gets a wrapped-around rise time)."
  },
  {
   "property": "C78",
   "status": "proved",
   "theorems": [
    "Celest.Windows.C78_day_night_disjoint",
    "Celest.Windows.C78_lighting_respected"
   ],
   "note": ""
  },
  {
   "property": "C79",
   "status": "partial",
   "theorems": [
    "Celest.Windows.C79_contains_only_visible_partial",
    "Celest.Windows.C79_covers_partial",
    "Celest.Windows.C79_first_pass_not_covered"
   ],
   "note": "Proved: windows that rise before they set contain only visible samples, and all visible samples are covered if the first sample is not visible. Refuted: a pass under way at the first sample is not covered."
  },
  {
   "property": "C80",
   "status": "proved",
   "theorems": [
    "Celest.Schedule.C80_second_generation_unaffected",
    "Celest.Schedule.C80_generations_unaffected"
   ],
   "note": ""
  },
  {
   "property": "C81",
   "status": "partial",
   "theorems": [
    "Celest.Schedule.C81_planned_observations_kept_partial",
    "Celest.Schedule.C81_search_cancels",
    "Celest.Schedule.C81_improvement_forgotten"
   ],
   "note": "Proved for generations without search iterations; false with them (a search can cancel a planned observation; what a search gained is forgotten by the next call)."
  },
  {
   "property": "C82",
   "status": "proved",
   "theorems": [
    "Celest.TimeScale.C82_nutation_bounded"
   ],
   "note": ""
  },
  {
   "property": "C83",
   "status": "proved",
   "theorems": [
    "Celest.TimeScale.C83_equation_of_time_this_century",
    "Celest.TimeScale.C83_equation_of_time"
   ],
   "note": ""
  },
  {
   "property": "C84",
   "status": "proved",
   "theorems": [
    "Celest.TimeScale.C84_sun_right_ascension",
    "Celest.TimeScale.C84_near_longitude"
   ],
   "note": ""
  },
  {
   "property": "C85",
   "status": "proved",
   "theorems": [
    "Celest.Frames.C85_sidereal_time_is_rotation_plus_precession"
   ],
   "note": ""
  },
  {
   "property": "C86",
   "status": "partial",
   "theorems": [
    "Celest.Frames.C86_not_identity_at_J2000",
    "Celest.Frames.C86_not_standard_sequence",
    "Celest.Frames.C86_sequence_partial",
    "Celest.Frames.C86_displacement",
    "Celest.Frames.C86_displacement_large"
   ],
   "note": "False: at J2000 it is a rotation by 5.2 arcseconds, and at every instant from 2000 to 2100 it differs from the standard sequence (zeta has the wrong sign): the two are apart by 2 sin(zeta) times the distance from the polar axis, from 2020 on more than 0.0044 of it (C86_displacement, C86_displacement_large). Proved: it is that sequence with the sign of zeta reversed; the pole moves by theta. In the whole conversion the sign makes up for the Earth rotation angle used in place of sidereal time: see C134."
  },
  {
   "property": "C87",
   "status": "partial",
   "theorems": [
    "Celest.Frames.C87_equinox_leaves_ecliptic",
    "Celest.Frames.C87_pole_displacement_partial"
   ],
   "note": "False whenever the nutation in longitude is not zero (the middle rotation is about the second instead of the third axis). Proved: the pole is displaced by exactly the nutation in longitude, less than 19 arcseconds."
  },
  {
   "property": "C88",
   "status": "proved",
   "theorems": [
    "Celest.Windows.C88_windows_geometric",
    "Celest.Windows.C88_windows_complete",
    "Celest.Windows.C88_unit_and_frame_irrelevant"
   ],
   "note": "The solar ephemeris is an arbitrary function; zenith is the direction from the centre of the Earth, as in the code (see C53)."
  },
  {
   "property": "C89",
   "status": "partial",
   "theorems": [
    "Celest.Units.C89_defined_unit_converts_partial",
    "Celest.Units.C89_compound_of_new_name_unusable",
    "Celest.Units.C89_arithmetic_lists_unit",
    "Celest.Units.C89_new_base_unit_unusable",
    "Celest.Units.C89_reused_name_not_converted"
   ],
   "note": "Proved: alone, such a unit converts with the defined factor both ways. False: any product, quotient or power containing a unit whose name is not in the dimension table has no dimension, so nothing can be done with it; the same for a new base unit; a unit reusing a name is treated as the unit of that name."
  },
  {
   "property": "C90",
   "status": "proved",
   "theorems": [
    "Celest.Units.C90_names_keep_meaning"
   ],
   "note": ""
  },
  {
   "property": "C91",
   "status": "partial",
   "theorems": [
    "Celest.Units.C91_exact_conversions_partial",
    "Celest.Units.C91_foot_and_yard_wrong",
    "Celest.Units.C91_radian_partial"
   ],
   "note": "Foot (0.305 m) and yard (0.914 m) are wrong for every nonzero value; all other units of length, time and angle are exact, the radian to 1e-13."
  },
  {
   "property": "C92",
   "status": "partial",
   "theorems": [
    "Celest.Frames.C92_cartesian_reads_back_partial",
    "Celest.Frames.C92_wgs84_reads_back_partial",
    "Celest.Frames.C92_azel_reads_back_partial",
    "Celest.Frames.C92_attitude_reads_back_partial",
    "Celest.Frames.C92_mismatched_lengths_lost"
   ],
   "note": "Proved for every object whose arrays have one common nonzero length. False otherwise: the constructors accept arrays of different lengths (C57) and empty arrays, and saving those raises and leaves only the title."
  },
  {
   "property": "C93",
   "status": "partial",
   "theorems": [
    "Celest.Frames.C93_to_numpy_partial",
    "Celest.Frames.C93_wgs84_never_converts"
   ],
   "note": "Proved for all frames with one unit. False for WGS84: every unit raises, since angles and height cannot share one."
  },
  {
   "property": "C94",
   "status": "proved",
   "theorems": [
    "Celest.Frames.C94_ground_repr_injective"
   ],
   "note": "str on floats is a parameter, assumed injective and free of commas."
  },
  {
   "property": "C95",
   "status": "proved",
   "theorems": [
    "Celest.Windows.C95_visible_windows_read_back",
    "Celest.Windows.C95_generated_windows_read_back"
   ],
   "note": "str on floats is a parameter."
  },
  {
   "property": "C96",
   "status": "partial",
   "theorems": [
    "Celest.Windows.C96_satellite_reads_back_partial",
    "Celest.Windows.C96_inertial_input_partial",
    "Celest.Windows.C96_unequal_samples_lost"
   ],
   "note": "Proved for satellites with as many velocity samples as positions, at least one. False otherwise: satellites without velocity cannot be saved (C74), and unequal numbers of samples are accepted but saving raises and leaves only the title."
  },
  {
   "property": "C97",
   "status": "proved",
   "theorems": [
    "Celest.Units.C97_operations_change_nothing",
    "Celest.Units.C97_results_are_independent"
   ],
   "note": "Element-wise array division by zero is left open."
  },
  {
   "property": "C98",
   "status": "partial",
   "theorems": [
    "Celest.Units.C98_constructor_shares_array",
    "Celest.Units.C98_other_arrays_partial"
   ],
   "note": "False: the constructor keeps the array it is given, so for every array and every different number assigned the quantity changes. Proved: assignments to other arrays never change a quantity."
  },
  {
   "property": "C99",
   "status": "partial",
   "theorems": [
    "Celest.Units.C99_sum_elementwise_partial",
    "Celest.Units.C99_product_elementwise_partial",
    "Celest.Units.C99_quotient_elementwise_partial",
    "Celest.Units.C99_difference_elementwise_partial",
    "Celest.Units.C99_number_elementwise_partial",
    "Celest.Units.C99_unary_elementwise_partial",
    "Celest.Units.C99_lengths_must_match",
    "Celest.Units.C99_integer_arrays",
    "Celest.Units.C99_order_of_arrays"
   ],
   "note": "Proved for sums, differences, products, quotients, negation, conversion, ==, < and > with float arrays on the converted side. False: integer arrays raise TypeError when a conversion is needed; <=, >= and != raise on arrays; dividing by a zero element does not raise as it does for numbers."
  },
  {
   "property": "C100",
   "status": "proved",
   "theorems": [
    "Celest.Schedule.Rounded.C100_exact_arithmetic",
    "Celest.Schedule.Rounded.C100_windows_feasible_up_to_rounding",
    "Celest.Schedule.Rounded.C100_python_floats"
   ],
   "note": "For any monotone rounding with bounded relative error, and for binary64. No overflow, underflow or NaN."
  },
  {
   "property": "C101",
   "status": "partial",
   "theorems": [
    "Celest.Schedule.Rounded.C101_conflict_test_up_to_rounding_partial",
    "Celest.Schedule.Rounded.C101_initial_schedule_nearly_conflict_free_partial",
    "Celest.Schedule.Rounded.C101_no_overlap_partial",
    "Celest.Schedule.Rounded.C101_python_floats_partial",
    "Celest.Schedule.Rounded.C101_exact_disjointness_lost",
    "Celest.Schedule.Rounded.C101_one_iteration_partial",
    "Celest.Schedule.Rounded.C101_one_iteration_python_floats_partial",
    "Celest.Schedule.Rounded.C101_at_most_two_partial",
    "Celest.Schedule.Rounded.C101_at_most_two_python_floats_partial"
   ],
   "note": "Proved: the conflict test is right up to rounding, and the schedules after at most one search iteration overlap by at most 150 microseconds. False with two iterations and more, even without rounding (C02); but after any history and any number of iterations at no instant do more than two observations have over 150 microseconds to go. Exact disjointness is lost: two observations can overlap by more than 10 microseconds."
  },
  {
   "property": "C102",
   "status": "proved",
   "theorems": [
    "Celest.Units.Rounded.C102_exact_arithmetic",
    "Celest.Units.Rounded.C102_conversion_error",
    "Celest.Units.Rounded.C102_round_trip",
    "Celest.Units.Rounded.C102_order_kept",
    "Celest.Units.Rounded.C102_sum_error",
    "Celest.Units.Rounded.C102_python_floats",
    "Celest.Units.Rounded.C102_round_trip_inexact"
   ],
   "note": "For any monotone rounding with bounded relative error, and for binary64 with the factors of the package rounded. float ** int is a parameter, assumed within two roundings. No overflow, underflow or NaN. The tolerance is needed: 3 km in cm and back is more than 3."
  },
  {
   "property": "C103",
   "status": "partial",
   "theorems": [
    "Celest.Units.Rounded.C103_exactly_one_partial",
    "Celest.Units.Rounded.C103_apart_partial",
    "Celest.Units.Rounded.C103_equality_not_symmetric",
    "Celest.Units.Rounded.C103_order_contradicts_itself"
   ],
   "note": "Proved: exactly one of <, ==, > holds, and all comparisons are right from both sides when the values differ by more than the rounding of a conversion. False for closer values: 1 mi == 63360 inch but not conversely, and two quantities can each be less than the other."
  },
  {
   "property": "C104",
   "status": "partial",
   "theorems": [
    "Celest.Frames.C104_values_partial",
    "Celest.Frames.C104_operations_change_nothing_partial",
    "Celest.Frames.C104_converted_is_apart_partial",
    "Celest.Frames.C104_same_frame_shares",
    "Celest.Frames.C104_constructor_shares"
   ],
   "note": "Proved for conversions to another frame and satellites made of GCRS positions, over all programs. False: converted to its own frame a position is returned itself, Satellite keeps an ITRS position itself, and constructors keep the arrays given; then assigning any other number changes the other object."
  },
  {
   "property": "C105",
   "status": "partial",
   "theorems": [
    "Celest.Frames.C105_dates_never_change_partial",
    "Celest.Frames.C105_julian_shares",
    "Celest.Frames.C105_constructor_partial",
    "Celest.Frames.C105_length_partial"
   ],
   "note": "Proved for all programs that do not take time.julian.data of the object. False otherwise: that is the object's own array, and assigning any other number to it changes the dates."
  },
  {
   "property": "C106",
   "status": "proved",
   "theorems": [
    "Celest.Planning.C106_observations_see_their_targets",
    "Celest.Planning.C106_may_begin_out_of_view",
    "Celest.Planning.C106_requests_held",
    "Celest.Planning.C106_observations_geometric"
   ],
   "note": "Over sampled scenes of any ordered type, and in the geometry of the inertial frame for a satellite with GCRS positions. Says nothing between samples: C106_may_begin_out_of_view shows an observation that begins while its target is not yet in view."
  },
  {
   "property": "C107",
   "status": "proved",
   "theorems": [
    "Celest.Planning.C107_refused_iff",
    "Celest.Planning.C107_refused_with",
    "Celest.Planning.C107_refused_requests_do_not_matter"
   ],
   "note": "All histories; the exceptions are told apart."
  },
  {
   "property": "C108",
   "status": "proved",
   "theorems": [
    "Celest.Planning.Rounded.C108_float_observations_see_their_targets"
   ],
   "note": "binary64 rounding of every operation of scheduling; elevations exact."
  },
  {
   "property": "C109",
   "status": "proved",
   "theorems": [
    "Celest.Calendar.Rounded.C109_python_floats_exact",
    "Celest.Calendar.Rounded.C109_datetime",
    "Celest.Calendar.Rounded.C109_gregorian_datetime_partial",
    "Celest.Calendar.Rounded.C109_ordinal_partial",
    "Celest.Calendar.Rounded.C109_times_keep_order"
   ],
   "note": "binary64 rounding of every constant and operation; timedelta rounds to whole microseconds, ties to even, as CPython does. The two theorems ending in _partial say the dates are right, outside the defects of C41 and C43; the property itself compares with exact arithmetic and is proved in full."
  },
  {
   "property": "C110",
   "status": "proved",
   "theorems": [
    "Celest.TimeScale.C110_periods",
    "Celest.TimeScale.C110_longitudes",
    "Celest.TimeScale.C110_tropical_year_and_month",
    "Celest.TimeScale.C110_precession"
   ],
   "note": "Periods and epochs are the published values of Meeus, rounded."
  },
  {
   "property": "C111",
   "status": "proved",
   "theorems": [
    "Celest.TimeScale.C111_kepler",
    "Celest.TimeScale.C111_equation_of_time"
   ],
   "note": "The ellipse is in the specification (trueAnomaly); Kepler's equation is solvable (kepler_solvable)."
  },
  {
   "property": "C112",
   "status": "proved",
   "theorems": [
    "Celest.TimeScale.C112_true_hour_angle"
   ],
   "note": ""
  },
  {
   "property": "C113",
   "status": "proved",
   "theorems": [
    "Celest.Planning.C113_observations",
    "Celest.Windows.C113_rate",
    "Celest.Windows.C113_windows",
    "Celest.Windows.C113_passes_found"
   ],
   "note": "Passes are found if the first sample is not visible (otherwise see C24, C79)."
  },
  {
   "property": "C114",
   "status": "proved",
   "theorems": [
    "Celest.Frames.C114_rotation",
    "Celest.Frames.C114_distances",
    "Celest.Frames.C114_round_trip",
    "Celest.Frames.C114_error",
    "Celest.Frames.C114_round_trip_binary64"
   ],
   "note": "For every machine that meets Machine.Accurate (roundings, sine, cosine, sums of three products, 3 by 3 inverse); binary64 is shown to. The computation of the angles is left open and enters as their error."
  },
  {
   "property": "C115",
   "status": "partial",
   "theorems": [
    "Celest.Frames.C115_elevation_partial",
    "Celest.Frames.C115_nan_only_at_zenith_partial",
    "Celest.Frames.C115_zenith_nan",
    "Celest.Windows.C115_windows_partial",
    "Celest.Windows.C115_windows_found_partial",
    "Celest.Windows.C115_zenith_splits_pass"
   ],
   "note": "Proved: the error bounds, and that the elevation is NaN only within a hundred-thousandth of a degree of zenith or nadir. False at the zenith: there it can be NaN, and a pass through the zenith then gets two windows."
  },
  {
   "property": "C116",
   "status": "proved",
   "theorems": [
    "Celest.Frames.C116_error",
    "Celest.Frames.C116_millimetres"
   ],
   "note": "For every machine that meets Setup (Machine.Accurate and powers to one unit in the last place, u at least 2^-53 because of the decimals of the radian); double precision is shown to."
  },
  {
   "property": "C117",
   "status": "partial",
   "theorems": [
    "Celest.Windows.C117_elevation_partial",
    "Celest.Windows.C117_windows_partial",
    "Celest.Windows.C117_windows_found_partial"
   ],
   "note": "Proved: the error bound, that the elevation is NaN only within 0.000015 degrees of zenith or nadir, windows contain only visible samples, and samples clear of the zenith are found. False at the zenith, as in C115. Satellites and Sun at least 100 km from the station and at most 500 times as far from the centre of the Earth as from the station."
  },
  {
   "property": "C118",
   "status": "proved",
   "theorems": [
    "Celest.Planning.Rounded.C118_observations",
    "Celest.Planning.Rounded.C118_every_instant"
   ],
   "note": "Requests with deadlines, durations and pointing costs in the ranges of C108 (Reasonable), positions as in C117 (Resolved)."
  },
  {
   "property": "C119",
   "status": "proved",
   "theorems": [
    "Celest.Windows.C119_windows_are_passes",
    "Celest.Windows.C119_crossings"
   ],
   "note": "If no pass is under way at the first sample (otherwise see C24, C79). Set times can be the last sample if the pass goes on after it."
  },
  {
   "property": "C120",
   "status": "partial",
   "theorems": [
    "Celest.Windows.C120_distance_partial",
    "Celest.Windows.C120_distance_centimetre_partial",
    "Celest.Windows.C120_look_angle_partial",
    "Celest.Windows.C120_overhead_nan"
   ],
   "note": "Proved for the distance for every inertial position, instant between 1900 and 2100 and location; for the look angle whenever it comes out as a number, with NaN confined to within 0.000015 degrees of directly overhead or directly opposite. Refuted: that it always comes out as a number; a satellite exactly overhead has look angle NaN in double precision (C120_overhead_nan)."
  },
  {
   "property": "C121",
   "status": "proved",
   "theorems": [
    "Celest.Frames.C121_at_most_four_passes",
    "Celest.Frames.C121_two_millimetres",
    "Celest.Frames.C121_error"
   ],
   "note": "Positions are taken in kilometres; the mean of an array is assumed to be off by at most a tenth of its largest entry, which holds for sums in any order of up to 10^14 entries."
  },
  {
   "property": "C122",
   "status": "partial",
   "theorems": [
    "Celest.Text.C122_completed_partial",
    "Celest.Text.C122_interrupted_partial",
    "Celest.Text.C122_both_lost",
    "Celest.Text.C122_save_again_partial",
    "Celest.Text.C122_truncated_table"
   ],
   "note": "False: opening the file empties it, so every save can lose the old content before any of the new is there (general refutation), and a table can be cut so that a complete table of its first rows is left (general refutation). Proved: exactly the old content and the initial parts of the new text can be left; other files are untouched; uninterrupted saves leave what the atomic model leaves, whatever the buffering; saving again repairs the file after any history of interrupted saves."
  },
  {
   "property": "C123",
   "status": "partial",
   "theorems": [
    "Celest.Text.C123_same_text_partial",
    "Celest.Text.C123_mixture"
   ],
   "note": "Proved when all processes save the same text, for any number of processes and all interleavings. False otherwise: for any two texts the shorter followed by the rest of the longer can be left (general refutation)."
  },
  {
   "property": "C124",
   "status": "partial",
   "theorems": [
    "Celest.Frames.C124_error_partial",
    "Celest.Frames.C124_ten_microseconds_partial",
    "Celest.Frames.C124_range_partial",
    "Celest.Frames.C124_twenty_four"
   ],
   "note": "The error bounds are proved for all nine time scales. The range is false: 24 hours is returned at midnight just west of Greenwich (general refutation); proved: never negative and never more than 24 hours. GAST is not reduced (C44, C45) and has no range."
  },
  {
   "property": "C125",
   "status": "partial",
   "theorems": [
    "Celest.Units.Frac.C125_integer_powers_partial",
    "Celest.Units.Frac.C125_conversion_partial",
    "Celest.Units.Frac.C125_powers_partial",
    "Celest.Units.Frac.C125_integer_float_clash",
    "Celest.Units.Frac.C125_power_of_power_partial",
    "Celest.Units.Frac.C125_product_of_powers_partial",
    "Celest.Units.Frac.C125_root_undone_partial",
    "Celest.Units.Frac.C125_rounded_sum"
   ],
   "note": "False: `n ** k` and `n ** float(k)` do not convert into each other (ValueError, for every integer k other than -1, 0, 1), so `(m ** 1.5) ** 2` is no `m ** 3`; rounded exponents differ, so `m ** 0.1 * m ** 0.2` is no `m ** 0.3`. Proved: a conversion that returns is right and relates equal dimensions (exact exponent arithmetic, formulas as in C28); for powers of named units, powers of powers and products of powers, exactly when conversion returns, and its factor, for every rounding; with integer powers the model is the one of C28-C34."
  },
  {
   "property": "C126",
   "status": "proved",
   "theorems": [
    "Celest.Frames.C126_angles",
    "Celest.Frames.C126_aim",
    "Celest.Frames.C126_lvlh"
   ],
   "note": "Double precision with correctly rounded operations (or any arithmetic, sine, cosine, tangent, arcsine, arctan2 within the stated relative errors). No overflow; the Earth rotation angles may be as wrong as the machine makes them, since target and satellite are turned by the same matrix."
  },
  {
   "property": "C127",
   "status": "partial",
   "theorems": [
    "Celest.Frames.C127_itrs_there_and_back_partial",
    "Celest.Frames.C127_never_returned",
    "Celest.Frames.C127_gcrs_there_and_back_partial"
   ],
   "note": "False: no position off the equatorial plane comes back (the geocentric latitude is read as a geodetic one). Proved for every array: same number of positions, same times, same meridian, moved towards the equator by at least 42.69 sin(psi) cos(psi) km (21 km at 45 degrees) and at most 45 km; for GCRS by as much as for ITRS."
  },
  {
   "property": "C128",
   "status": "proved",
   "theorems": [
    "Celest.Frames.C128_direction",
    "Celest.Frames.C128_from_wgs84",
    "Celest.Frames.C128_there_and_back",
    "Celest.Frames.C128_gcrs_to_wgs84"
   ],
   "note": "C128_from_wgs84, C128_direction, C128_gcrs_to_wgs84, C128_there_and_back: composition of the rounded conversions (C116), the rounded altitude (C121) and the rounded geographic formulae; heights compared through the Lipschitz bound of the height above the ellipsoid."
  },
  {
   "property": "C129",
   "status": "partial",
   "theorems": [
    "Celest.Text.C129_sexagesimal_partial",
    "Celest.Text.C129_only_short_of_whole_minutes",
    "Celest.Text.C129_minute_too_many",
    "Celest.Text.C129_doubling",
    "Celest.Text.C129_exact",
    "Celest.Text.C129_location_partial",
    "Celest.Text.C129_same_text_partial"
   ],
   "note": "False: 4.35 degrees is shown as 04 degrees 21 minutes 60.00 seconds, an arcminute (1.85 km) too large; exactly the angles for which x*60 rounds up to a whole number and x*3600 stays below sixty times that number (C129_sexagesimal_partial, C129_minute_too_many), all of them less than a billionth of an arcsecond short of a whole arcminute, closed under doubling. Everything else proved: the minutes never reach 60, no minute is skipped, the text is uniquely readable, equal texts mean equal locations."
  },
  {
   "property": "C130",
   "status": "proved",
   "theorems": [
    "Celest.Frames.C130_azimuth",
    "Celest.Frames.C130_nan_only_at_meridian",
    "Celest.Frames.C130_double",
    "Celest.Frames.C130_due_east",
    "Celest.Windows.C130_from_gcrs"
   ],
   "note": "C130_azimuth, C130_nan_only_at_meridian, C130_double, C130_due_east, C130_from_gcrs: relative error of the radius, the tangent and the projection, angles of slightly wrong vectors, and the sign of the computed triple product."
  },
  {
   "property": "C131",
   "status": "partial",
   "theorems": [
    "Celest.Frames.C131_rate",
    "Celest.Frames.C131_stored_velocity_wrong",
    "Celest.Frames.C131_inertial_attitude_partial",
    "Celest.Frames.C131_earth_fixed_roll"
   ],
   "note": "False: velocities are only rotated. C131_rate: what the rate of change of the ITRS position is; C131_stored_velocity_wrong: every stored velocity is off by the speed of the rotation of the Earth; C131_earth_fixed_roll: the same motion given in the ITRS frame is pointed with a wrong roll. C131_inertial_attitude_partial: a satellite given in the GCRS frame is pointed with respect to its inertial motion."
  },
  {
   "property": "C132",
   "status": "partial",
   "theorems": [
    "Celest.Units.C132_text_says_one_value",
    "Celest.Units.C132_exactly_when",
    "Celest.Units.C132_shows_value_partial",
    "Celest.Units.C132_powers_counted_twice",
    "Celest.Units.C132_squares_wrong",
    "Celest.Units.C132_same_text_same_value_partial",
    "Celest.Units.C132_same_text_not_alike"
   ],
   "note": "False: a power of a unit prints the factor of the unit as well as the unit, so 2 km times 3 km prints as 6.0 1000000.0 km2 (C132_powers_counted_twice, C132_squares_wrong); C132_exactly_when says for which units the text is right and C132_shows_value_partial for which formulas. A text has one reading (C132_text_says_one_value). Same text, same value: C132_same_text_same_value_partial; but one of two quantities with the same text may be convertible and the other not (C132_same_text_not_alike)."
  },
  {
   "property": "C133",
   "status": "partial",
   "theorems": [
    "Celest.Frames.C133_returns_partial",
    "Celest.Frames.C133_first_guess_for_all",
    "Celest.Frames.C133_polar_altitude_too_low",
    "Celest.Frames.C133_companions_spoiled",
    "Celest.Frames.C133_below_the_surface"
   ],
   "note": "False: NaN from the division by zero makes the loop condition false, so in an array of at most 500 positions every altitude is the first guess (C133_first_guess_for_all); over the pole that is more than 10.6 km too low (C133_polar_altitude_too_low), accurate altitudes of companions become wrong by more than 2.6 km (C133_companions_spoiled); in long arrays the polar altitude can be -6399 km (C133_below_the_surface). Proved: the computation ends with one number for each position (C133_returns_partial). Exact arithmetic apart from the double next to a right angle."
  },
  {
   "property": "C134",
   "status": "partial",
   "theorems": [
    "Celest.Frames.C134_near_standard_reduction_partial",
    "Celest.Frames.C134_near_standard_reduction_back_partial",
    "Celest.Frames.C134_not_the_standard_reduction"
   ],
   "note": "Proved to an accuracy: within 0.00042 + 0.00023 n^2 radians n centuries from J2000, n at most 1, in both directions. Not exact: at J2000 the position over the mean pole differs (C134_not_the_standard_reduction)."
  },
  {
   "property": "C135",
   "status": "partial",
   "theorems": [
    "Celest.Frames.C135_obliquity_decreased_twice",
    "Celest.Frames.C135_not_the_obliquity_of_date",
    "Celest.Frames.C135_close_to_the_obliquity_of_date_partial"
   ],
   "note": "False: the decrease of the obliquity is subtracted a second time, 46.84 arcseconds a century (C135_obliquity_decreased_twice), so the matrix is another one at every instant but J2000 at which there is nutation in longitude (C135_not_the_obliquity_of_date). Proved: no vector moves by more than 4.3e-8 of its length for it."
  },
  {
   "property": "C136",
   "status": "partial",
   "theorems": [
    "Celest.Frames.C136_elevation_partial",
    "Celest.Frames.C136_azimuth_north_partial",
    "Celest.Frames.C136_azimuth_south",
    "Celest.Frames.C136_zenith_low",
    "Celest.Frames.C136_east_skewed"
   ],
   "note": "Proved to an accuracy: elevations are within 0.2 degrees at every latitude, azimuths within 0.2 degrees divided by the cosine of the elevation in the northern hemisphere; in the southern hemisphere the azimuth is off by half a turn to the same accuracy (C136_azimuth_south). Not exact: the zenith is up to 0.19 degrees too low (C136_zenith_low), and a satellite due east above the horizon has an azimuth below 90 degrees (C136_east_skewed). Directions above 88.8 degrees of elevation are left out for the azimuth."
  },
  {
   "property": "C137",
   "status": "partial",
   "theorems": [
    "Celest.Windows.C137_windows_partial",
    "Celest.Windows.C137_windows_found_partial",
    "Celest.Planning.Rounded.C137_observations_partial",
    "Celest.Windows.C137_missed",
    "Celest.Windows.C137_too_early"
   ],
   "note": "Proved up to 0.2 degrees, in double precision from inertial positions to windows and to observations after any history of calls. Not exact (general refutations in exact arithmetic): north of a station in the northern hemisphere satellites above the mask by up to 0.19 degrees times the sine of twice the latitude are in no window (C137_missed), south of it windows begin below the mask (C137_too_early)."
  },
  {
   "property": "C138",
   "status": "partial",
   "theorems": [
    "Celest.Frames.C138_attitude_numbers_partial",
    "Celest.Frames.C138_closer_targets_partial",
    "Celest.Frames.C138_geostationary",
    "Celest.Schedule.C138_without_gaps_partial",
    "Celest.Schedule.C138_lost_after_gap",
    "Celest.Schedule.C138_placed_partial",
    "Celest.Schedule.C138_angle_not_reached"
   ],
   "note": "Proved: the attitude is three numbers, or three NaN exactly if the stored velocity is parallel to the position or zero (as for a geostationary satellite given in ITRS) or the target is at or straight above the satellite. With gaps the start of an observation is still a sample inside the window with a known pitch on the side of the rise. False in general, refuted for every series: with an unknown pitch at the rise time the window is lost however the pitch behaves (C138_lost_after_gap), and with an unknown pitch at the set time the search answers although the angle is never reached (C138_angle_not_reached)."
  },
  {
   "property": "C139",
   "status": "partial",
   "theorems": [
    "Celest.Frames.C139_one_fifteenth",
    "Celest.Frames.C139_sidereal_time_partial",
    "Celest.Frames.C139_five_arcseconds"
   ],
   "note": "False for the returned quantity: it carries the unit arcsecond but counts seconds of time, so the angle is one fifteenth of the true one at every instant (C139_one_fifteenth), short by more than five arcseconds two thirds of the time (C139_five_arcseconds). Proved: apparent sidereal time is mean sidereal time plus the true angle, the right ascension of the mean equinox, to a millionth of an arcsecond."
  },
  {
   "property": "C140",
   "status": "partial",
   "theorems": [
    "Celest.Windows.C140_windows_known_partial",
    "Celest.Windows.C140_windows_complete_partial",
    "Celest.Windows.C140_look_angles_lost",
    "Celest.Windows.C140_attitudes_partial",
    "Celest.Windows.C140_no_look_angle_partial",
    "Celest.Windows.C140_pass_split",
    "Celest.Windows.C140_other_passes_unaffected_partial",
    "Celest.Windows.C140_no_new_windows_partial"
   ],
   "note": "Proved: windows are the known samples above the mask, cut at gaps; passes without gaps keep their windows, none are added; requests without look angle are placed as usual; attitudes are numbers where position and velocity are known and turn nadir onto the line of sight. The converse (every known sample in view is in a window) needs a series that does not begin during a pass, as for C79. False: a window that follows a gap rises at the missing sample and takes no request with a look angle, ever (C140_look_angles_lost, C140_pass_split)."
  },
  {
   "property": "C141",
   "status": "partial",
   "theorems": [
    "Celest.Windows.C141_north_partial",
    "Celest.Windows.C141_south",
    "Celest.Windows.C141_nan_partial"
   ],
   "note": "C141_north_partial: from the northern hemisphere right to 0.2 degrees divided by the cosine of the elevation and 0.0002 degrees, modulo full turns and without exceptions at the meridian. C141_nan_partial: NaN only due north or south, up to the same error. False in the southern hemisphere: off by half a turn (C141_south); and not exact, see C136."
  },
  {
   "property": "C142",
   "status": "partial",
   "theorems": [
    "Celest.Windows.C142_repr_partial",
    "Celest.Windows.C142_str_partial",
    "Celest.Windows.C142_window_repr_partial",
    "Celest.Windows.C142_window_str_partial",
    "Celest.Windows.C142_visible_reads_partial",
    "Celest.Windows.C142_observation_reads_partial",
    "Celest.Windows.C142_visible_labels_partial",
    "Celest.Windows.C142_angles_not_shown",
    "Celest.Windows.C142_equal_attitudes_shown_differently",
    "Celest.Windows.C142_location_not_shown"
   ],
   "note": "Number, order, kind, times, durations and attitude objects are identified, locations up to a hundredth of an arcsecond (C142_repr_partial, C142_str_partial, C142_window_repr_partial, C142_window_str_partial). False: nearby locations are shown alike (C142_location_not_shown), the angles of an attitude are not shown (C142_angles_not_shown), and equal windows are shown differently if their attitudes are two objects (C142_equal_attitudes_shown_differently). str on floats is a parameter, assumed injective and free of commas and spaces."
  },
  {
   "property": "C143",
   "status": "partial",
   "theorems": [
    "Celest.Alns.Rounded.C143_never_worse_partial",
    "Celest.Alns.Rounded.C143_cold_search_raises",
    "Celest.Alns.Rounded.C143_destroy_weights_vanish",
    "Celest.Alns.Rounded.C143_repair_weights_vanish",
    "Celest.Alns.Rounded.C143_long_search_partial",
    "Celest.Schedule.Rounded.C143_generate_raises_unless_complete"
   ],
   "note": "Never worse holds under any rounding (C143_never_worse_partial). Returning holds for coefficients above 0.5, decays of at most 0.49 and costs of at most -1 (C143_long_search_partial). False otherwise: when the temperature is halved or more at every pass it underflows to zero and the acceptance test divides by it (C143_cold_search_raises; for Scheduler.generate with 1076 + 20 n iterations, C143_generate_raises_unless_complete), and with a decay of at least 0.5 the weights of rejected operators underflow to zero and the probabilities divide by their sum (C143_destroy_weights_vanish, C143_repair_weights_vanish). sum, math.exp and math.log(0.5) are parameters; overflow is not modelled."
  },
  {
   "property": "C144",
   "status": "partial",
   "theorems": [
    "Celest.Windows.C144_windows_partial",
    "Celest.Windows.C144_windows_found_partial",
    "Celest.Windows.C144_missed",
    "Celest.Planning.Rounded.C144_observations_partial"
   ],
   "note": "Proved up to 0.2 degrees plus 0.06 degrees times the ratio of the distances from the centre of the Earth and from the station, in double precision from inertial positions to windows and to observations after any history of calls; the converse if the satellite is clearly below the mask at the first sample, as for C117. Not exact (general refutation in exact arithmetic): satellites above the mask due north of a station in the northern hemisphere, by the standard reduction, are in no window (C144_missed)."
  },
  {
   "property": "C145",
   "status": "partial",
   "theorems": [
    "Celest.Windows.C145_aim_partial",
    "Celest.Windows.C145_aim_rounded_partial",
    "Celest.Windows.C145_distance_partial",
    "Celest.Windows.C145_look_angle_partial",
    "Celest.Windows.C145_misses",
    "Celest.Windows.C145_distance_short"
   ],
   "note": "Proved up to 0.00065 of the distance of the target from the centre of the Earth (about 4.2 km), in double precision for states given in ITRS plus 1.6e-8 of the distance of the satellite under the hypotheses of C126, and for look angles up to 0.0585 degrees times the ratio of the distances of the target from the centre of the Earth and from the satellite. Not exact (general refutations): on 1 January 2000 at noon no satellite more than 0.06 degrees above the horizon of a target at the North Pole looks at the target (C145_misses), and the distance is too short for every satellite that celest puts in the direction of the target from the centre of the Earth (C145_distance_short)."
  }
 ]
}