{
 "claims": [
  {
   "property": "C01",
   "status": "partial",
   "theorems": [
    "NavFuse.Props.C01_date_partial",
    "NavFuse.Props.C01_dec31_fails"
   ],
   "note": "Proved for every timestamp that does not fall on a 31 December. Missing: 31 December, where the code reads daysOfMonth[12]; the refutation exhibits that."
  },
  {
   "property": "C02",
   "status": "partial",
   "theorems": [
    "NavFuse.Props.C02_defined_partial",
    "NavFuse.Props.C02_witness_fails"
   ],
   "note": "Exact set of timestamps on which the call is defined; the full statement is refuted by a 31 December and by timestamps at or before -1 day."
  },
  {
   "property": "C03",
   "status": "partial",
   "theorems": [
    "NavFuse.Props.C03_negative_fails"
   ],
   "note": "Refuted. The theorem says what happens on every negative timestamp instead (undefined behaviour, or 1970-01-01 with non-positive time fields)."
  },
  {
   "property": "C04",
   "status": "proved",
   "theorems": [
    "NavFuse.Props.C04_appends_six",
    "NavFuse.Props.C04_refused"
   ],
   "note": ""
  },
  {
   "property": "C05",
   "status": "proved",
   "theorems": [
    "NavFuse.Props.C05_seconds_exact",
    "NavFuse.Props.C05_date_exact"
   ],
   "note": "At rounded reals, for every rounding that is monotone and keeps every number of 53 significant bits."
  },
  {
   "property": "C06",
   "status": "proved",
   "theorems": [
    "NavFuse.Props.C06_day_counter"
   ],
   "note": ""
  },
  {
   "property": "C07",
   "status": "proved",
   "theorems": [
    "NavFuse.Props.C07_timestamp_mjd"
   ],
   "note": ""
  },
  {
   "property": "C08",
   "status": "proved",
   "theorems": [
    "NavFuse.Props.C08_order"
   ],
   "note": ""
  },
  {
   "property": "C09",
   "status": "partial",
   "theorems": [
    "NavFuse.Props.C09_accept_partial",
    "NavFuse.Props.C09_real_dates_fails",
    "NavFuse.Props.C09_nan_fails"
   ],
   "note": "The accepted set is characterised exactly; it differs from the real dates (31 February, day 0, month 0 accepted; seconds in (59,60) refused; NaN accepted)."
  },
  {
   "property": "C10",
   "status": "proved",
   "theorems": [
    "NavFuse.Props.C10_parse"
   ],
   "note": ""
  },
  {
   "property": "C11",
   "status": "proved",
   "theorems": [
    "NavFuse.Props.C11_failed_load"
   ],
   "note": ""
  },
  {
   "property": "C12",
   "status": "partial",
   "theorems": [
    "NavFuse.Props.C12_rows_read_partial",
    "NavFuse.Props.C12_read_only_fails"
   ],
   "note": "Holds when the file can be opened for reading and writing (each column of the table is then the list of the numbers of that column of the data lines); refuted for a file that can only be read."
  },
  {
   "property": "C13",
   "status": "proved",
   "theorems": [
    "NavFuse.Props.C13_lookup"
   ],
   "note": ""
  },
  {
   "property": "C14",
   "status": "proved",
   "theorems": [
    "NavFuse.Props.C14_between"
   ],
   "note": ""
  },
  {
   "property": "C15",
   "status": "partial",
   "theorems": [
    "NavFuse.Props.C15_lookup_partial",
    "NavFuse.Props.C15_short_row_fails",
    "NavFuse.Props.C15_lookup_characterised",
    "NavFuse.Props.C15_characterised"
   ],
   "note": "Holds when every data row has the DAT column; refuted by a file with a short row. Exact: the lookup of row i is safe iff more than i lines have the TAI-UTC column and the row interpolated towards exists; with a new whole day on the last line, all lookups are safe iff every line with a day has all eleven columns."
  },
  {
   "property": "C16",
   "status": "proved",
   "theorems": [
    "NavFuse.Props.C16_pure"
   ],
   "note": ""
  },
  {
   "property": "C17",
   "status": "proved",
   "theorems": [
    "NavFuse.Props.C17_rotation"
   ],
   "note": ""
  },
  {
   "property": "C18",
   "status": "proved",
   "theorems": [
    "NavFuse.Props.C18_transpose",
    "NavFuse.Props.C18_inverse"
   ],
   "note": ""
  },
  {
   "property": "C19",
   "status": "proved",
   "theorems": [
    "NavFuse.Props.C19_reduction",
    "NavFuse.Props.C19_bounded"
   ],
   "note": ""
  },
  {
   "property": "C20",
   "status": "proved",
   "theorems": [
    "NavFuse.Props.C20_ned_untouched",
    "NavFuse.Props.C20_j2000_untouched"
   ],
   "note": ""
  },
  {
   "property": "C21",
   "status": "proved",
   "theorems": [
    "NavFuse.Props.C21_bitwise_transpose",
    "NavFuse.Props.C21_inverse_rotations"
   ],
   "note": ""
  },
  {
   "property": "C22",
   "status": "proved",
   "theorems": [
    "NavFuse.Props.C22_range_check",
    "NavFuse.Props.C22_nan_accepted"
   ],
   "note": "Includes that NaN passes the check, as the statement says."
  },
  {
   "property": "C23",
   "status": "proved",
   "theorems": [
    "NavFuse.Props.C23_tangent_frame"
   ],
   "note": ""
  },
  {
   "property": "C24",
   "status": "proved",
   "theorems": [
    "NavFuse.Props.C24_altitude_along_normal",
    "NavFuse.Props.C24_injective"
   ],
   "note": ""
  },
  {
   "property": "C25",
   "status": "partial",
   "theorems": [
    "NavFuse.Props.C25_round_trip_partial",
    "NavFuse.Props.C25_equator_exact",
    "NavFuse.Props.C25_pole_fails",
    "NavFuse.Props.C25_altitude_fails"
   ],
   "note": "Proved off the poles and down to 100 km below the ellipsoid within an explicit error bound (Bowring's single step is not exact, and the code's b differs from a(1-f)); exact at the equator. Refuted at the poles (NaN altitude) and as an exact statement at altitude."
  },
  {
   "property": "C26",
   "status": "partial",
   "theorems": [
    "NavFuse.Props.C26_characterised",
    "NavFuse.Props.C26_longitude",
    "NavFuse.Props.C26_range_partial",
    "NavFuse.Props.C26_centre_fails"
   ],
   "note": "Longitude always; latitude everywhere outside an explicit ellipsoid of 43 km around the Earth's centre. Refuted at a point inside it; C26_characterised determines the exact set of positions."
  },
  {
   "property": "C27",
   "status": "partial",
   "theorems": [
    "NavFuse.Props.C27_characterised",
    "NavFuse.Props.C27_mirror_partial",
    "NavFuse.Props.C27_centre_fails",
    "NavFuse.Props.C27_rotation"
   ],
   "note": "Mirror symmetry except on the equatorial disc of radius e^2 a (43 km) around the centre; refuted on all of it (C27_characterised: if and only if). Rotation symmetry always."
  },
  {
   "property": "C28",
   "status": "proved",
   "theorems": [
    "NavFuse.Props.C28_dcm_is_rotation",
    "NavFuse.Props.C28_direction_only",
    "NavFuse.Props.C28_finite",
    "NavFuse.Props.C28_zero_quaternion_nan"
   ],
   "note": ""
  },
  {
   "property": "C29",
   "status": "partial",
   "theorems": [
    "NavFuse.Props.C29_irregular_fails",
    "NavFuse.Props.C29_characterised",
    "NavFuse.Props.C29_round_trip_partial",
    "NavFuse.Props.C29_recovers_quaternion_partial",
    "NavFuse.Props.C29_quarter_turn_fails"
   ],
   "note": "Proved when the largest of the first three squared components is unique, or the fourth component is non-zero (the code's strict comparisons). On every other rotation matrix all four components are NaN with success (C29_irregular_fails, C29_characterised), for example for a quarter turn about x."
  },
  {
   "property": "C30",
   "status": "partial",
   "theorems": [
    "NavFuse.Props.C30_rotation_vector_partial",
    "NavFuse.Props.C30_zero_vector_fails"
   ],
   "note": "Proved for every non-zero rotation vector; refuted for zero (0/0)."
  },
  {
   "property": "C31",
   "status": "partial",
   "theorems": [
    "NavFuse.Props.C31_round_trip_never_fails",
    "NavFuse.Props.C31_zero_vector_partial",
    "NavFuse.Props.C31_round_trip_negates_fails",
    "NavFuse.Props.C31_round_trip_up_to_sign_partial"
   ],
   "note": "The round trip returns the negated vector (above the cut-off) or zero (below it), so no non-zero vector survives; proved up to the sign above the cut-off, and refuted as stated. Zero survives only because two faults cancel."
  },
  {
   "property": "C32",
   "status": "proved",
   "theorems": [
    "NavFuse.Props.C32_rotation_vector_reproduces_dcm",
    "NavFuse.Props.C32_cutoff_error"
   ],
   "note": "Includes the error bound for the small-angle cut-off."
  },
  {
   "property": "C33",
   "status": "proved",
   "theorems": [
    "NavFuse.Props.C33_quaternion_product",
    "NavFuse.Props.C33_dcm_composition"
   ],
   "note": ""
  },
  {
   "property": "C34",
   "status": "proved",
   "theorems": [
    "NavFuse.Props.C34_euler_is_rotation",
    "NavFuse.Props.C34_periodic",
    "NavFuse.Props.C34_finite"
   ],
   "note": ""
  },
  {
   "property": "C35",
   "status": "partial",
   "theorems": [
    "NavFuse.Props.C35_forward_axis_fails",
    "NavFuse.Props.C35_maps_ned_to_body_partial",
    "NavFuse.Props.C35_characterised",
    "NavFuse.Props.C35_level_characterised"
   ],
   "note": "The matrix is the transpose of the documented one: refuted as stated, proved for the NED-to-body direction. Exactly the identity and the half turns come out right (C35_characterised)."
  },
  {
   "property": "C36",
   "status": "partial",
   "theorems": [
    "NavFuse.Props.C36_angles_round_trip_partial",
    "NavFuse.Props.C36_westerly_heading_fails",
    "NavFuse.Props.C36_matrix_round_trip_partial",
    "NavFuse.Props.C36_matrix_characterised",
    "NavFuse.Props.C36_angles_characterised"
   ],
   "note": "Headings in [0, pi) that are not refused; refuted for every westerly heading. Both the matrix and the angle form are decided exactly (C36_matrix_characterised, C36_angles_characterised)."
  },
  {
   "property": "C37",
   "status": "partial",
   "theorems": [
    "NavFuse.Props.C37_rejection_partial",
    "NavFuse.Props.C37_heading_east_fails",
    "NavFuse.Props.C37_nan_accepted_fails"
   ],
   "note": "Exact rejection set; refuted that it is only gimbal lock (heading east is refused, NaN is accepted)."
  },
  {
   "property": "C38",
   "status": "proved",
   "theorems": [
    "NavFuse.Props.C38_attitude_dimensions"
   ],
   "note": ""
  },
  {
   "property": "C39",
   "status": "proved",
   "theorems": [
    "NavFuse.Props.C39_antisymmetric",
    "NavFuse.Props.C39_cross_product",
    "NavFuse.Props.C39_linear"
   ],
   "note": ""
  },
  {
   "property": "C40",
   "status": "proved",
   "theorems": [
    "NavFuse.Props.C40_sizes",
    "NavFuse.Props.C40_classical_rk4",
    "NavFuse.Props.C40_finite"
   ],
   "note": "The tableau is an independent definition in Spec; finiteness of the result is proved at XR."
  },
  {
   "property": "C41",
   "status": "proved",
   "theorems": [
    "NavFuse.Props.C41_consistent"
   ],
   "note": ""
  },
  {
   "property": "C42",
   "status": "proved",
   "theorems": [
    "NavFuse.Props.C42_stationary",
    "NavFuse.Props.C42_stationary_real"
   ],
   "note": ""
  },
  {
   "property": "C43",
   "status": "proved",
   "theorems": [
    "NavFuse.Props.C43_kinematics"
   ],
   "note": ""
  },
  {
   "property": "C44",
   "status": "partial",
   "theorems": [
    "NavFuse.Props.C44_zero_dt_fails",
    "NavFuse.Props.C44_nonzero_dt_partial"
   ],
   "note": "Refuted for dt = 0 (every result is NaN); for dt \u2260 0 and zero increments a resting state is unchanged."
  },
  {
   "property": "C45",
   "status": "proved",
   "theorems": [
    "NavFuse.Props.C45_inverse_square",
    "NavFuse.Props.C45_rotation_equivariant",
    "NavFuse.Props.C45_centre_is_nan"
   ],
   "note": ""
  },
  {
   "property": "C46",
   "status": "proved",
   "theorems": [
    "NavFuse.Props.C46_ellipsoid_bounds",
    "NavFuse.Props.C46_bounds_attained",
    "NavFuse.Props.C46_symmetry"
   ],
   "note": ""
  },
  {
   "property": "C47",
   "status": "proved",
   "theorems": [
    "NavFuse.Props.C47_decreasing"
   ],
   "note": ""
  },
  {
   "property": "C48",
   "status": "proved",
   "theorems": [
    "NavFuse.Props.C48_orthonormal"
   ],
   "note": ""
  },
  {
   "property": "C49",
   "status": "partial",
   "theorems": [
    "NavFuse.Props.C49_zero_increment_fails",
    "NavFuse.Props.C49_never_recovers_fails",
    "NavFuse.Props.C49_small_increment_partial"
   ],
   "note": "Refuted: the zero increment turns the attitude into NaN for ever. The partial theorem gives the limit for small increments."
  },
  {
   "property": "C50",
   "status": "proved",
   "theorems": [
    "NavFuse.Props.C50_single_axis"
   ],
   "note": ""
  },
  {
   "property": "C51",
   "status": "proved",
   "theorems": [
    "NavFuse.Props.C51_time_bookkeeping",
    "NavFuse.Props.C51_initialize_time"
   ],
   "note": ""
  },
  {
   "property": "C52",
   "status": "proved",
   "theorems": [
    "NavFuse.Props.C52_integrate_before_initialize",
    "NavFuse.Props.C52_initialized_always_succeeds",
    "NavFuse.Props.C52_time_overflow"
   ],
   "note": ""
  },
  {
   "property": "C53",
   "status": "proved",
   "theorems": [
    "NavFuse.Props.Comp.C53_getters",
    "NavFuse.Props.Comp.C53_sizes"
   ],
   "note": ""
  },
  {
   "property": "C54",
   "status": "proved",
   "theorems": [
    "NavFuse.Props.Comp.C54_removes_errors",
    "NavFuse.Props.Comp.C54_affine"
   ],
   "note": ""
  },
  {
   "property": "C55",
   "status": "partial",
   "theorems": [
    "NavFuse.Props.Comp.C55_zero_errors_fails",
    "NavFuse.Props.Comp.C55_unit_scale_factors_partial",
    "NavFuse.Props.Comp.C55_characterised"
   ],
   "note": "Refuted: a zero scale factor multiplies by zero. Holds with unit scale factors; and only with those, zero bias and zero misalignment (C55_characterised)."
  },
  {
   "property": "C56",
   "status": "proved",
   "theorems": [
    "NavFuse.Props.Comp.C56_needs_calibration"
   ],
   "note": ""
  },
  {
   "property": "C57",
   "status": "proved",
   "theorems": [
    "NavFuse.Props.Align.C57_coarse_alignment"
   ],
   "note": "At XR (so that no division by zero is hidden) with the ideal readings of a stationary body."
  },
  {
   "property": "C58",
   "status": "proved",
   "theorems": [
    "NavFuse.Props.Align.C58_degenerate"
   ],
   "note": ""
  },
  {
   "property": "C59",
   "status": "proved",
   "theorems": [
    "NavFuse.Props.Align.C59_predict_sizes",
    "NavFuse.Props.Align.C59_azimuth_sizes",
    "NavFuse.Props.Align.C59_velocity_sizes"
   ],
   "note": ""
  },
  {
   "property": "C60",
   "status": "partial",
   "theorems": [
    "NavFuse.Props.Align.C60_characterised",
    "NavFuse.Props.Align.C60_biases_lost_fails",
    "NavFuse.Props.Align.C60_returns_rate_partial"
   ],
   "note": "Refuted: the biases are set to zero by one prediction. The partial theorem says the prediction returns F x and F P F', i.e. the rate. C60_characterised: with the constants of the Earth the prediction keeps the state exactly when it is zero, and the biases exactly when they are zero."
  },
  {
   "property": "C61",
   "status": "proved",
   "theorems": [
    "NavFuse.Props.Align.C61_azimuth",
    "NavFuse.Props.Align.C61_velocity"
   ],
   "note": ""
  },
  {
   "property": "C62",
   "status": "proved",
   "theorems": [
    "NavFuse.Props.Pva.C62_inertial"
   ],
   "note": ""
  },
  {
   "property": "C63",
   "status": "proved",
   "theorems": [
    "NavFuse.Props.Pva.C63_ecef",
    "NavFuse.Props.Pva.C63_no_rotation"
   ],
   "note": ""
  },
  {
   "property": "C64",
   "status": "partial",
   "theorems": [
    "NavFuse.Props.Pva.C64_spec_is_navigation",
    "NavFuse.Props.Pva.C64_ned_jacobian_partial",
    "NavFuse.Props.Pva.C64_f59_fails",
    "NavFuse.Props.Pva.C64_ned_forcing"
   ],
   "note": "Every entry except F(4,8); that entry is refuted. Jacobian proved by differentiation of the navigation equations."
  },
  {
   "property": "C65",
   "status": "proved",
   "theorems": [
    "NavFuse.Props.Pva.C65_inertial_sizes",
    "NavFuse.Props.Pva.C65_ecef_sizes",
    "NavFuse.Props.Pva.C65_ned_sizes"
   ],
   "note": ""
  },
  {
   "property": "C66",
   "status": "proved",
   "theorems": [
    "NavFuse.Props.C66_unweighted_is_minimiser"
   ],
   "note": "For every LinSolver satisfying its contract."
  },
  {
   "property": "C67",
   "status": "proved",
   "theorems": [
    "NavFuse.Props.C67_weighted_is_minimiser",
    "NavFuse.Props.C67_weight_scaling",
    "NavFuse.Props.C67_unit_weights"
   ],
   "note": "For every LinSolver satisfying its contract."
  },
  {
   "property": "C68",
   "status": "partial",
   "theorems": [
    "NavFuse.Props.C68_characterised",
    "NavFuse.Props.C68_reported_cost_unweighted_partial",
    "NavFuse.Props.C68_weighted_cost_fails"
   ],
   "note": "Refuted with a witness; what is reported is half the unweighted residual. Exactly (C68_characterised): right for all measurements iff weighted and unweighted squares agree on all residuals with H'W r = 0."
  },
  {
   "property": "C69",
   "status": "proved",
   "theorems": [
    "NavFuse.Props.C69_consistent_data"
   ],
   "note": ""
  },
  {
   "property": "C70",
   "status": "proved",
   "theorems": [
    "NavFuse.Props.C70_unweighted_sizes",
    "NavFuse.Props.C70_weighted_sizes",
    "NavFuse.Props.C70_nonlinear_rejects"
   ],
   "note": ""
  },
  {
   "property": "C71",
   "status": "partial",
   "theorems": [
    "NavFuse.Props.C71_shipped_solver_partial",
    "NavFuse.Props.C71_placeholder_fails"
   ],
   "note": "Refuted: the placeholder model leaves the prediction empty, so the first loop body has a size mismatch. The partial theorem describes all runs as shipped."
  },
  {
   "property": "C72",
   "status": "partial",
   "theorems": [
    "NavFuse.Props.C72_unweighted_last_step",
    "NavFuse.Props.C72_weighted_last_step",
    "NavFuse.Props.C72_exit_condition_real",
    "NavFuse.Props.C72_linear_model_two_rounds",
    "NavFuse.Props.C72_equal_starts_fails"
   ],
   "note": "The exit condition and the linear case are proved; refuted for equal starting points, where the loop body never runs and the starting point is returned."
  },
  {
   "property": "C73",
   "status": "partial",
   "theorems": [
    "NavFuse.Props.C73_gauss_newton_cycle_fails",
    "NavFuse.Props.C73_negative_tolerance_fails",
    "NavFuse.Props.C73_contracting_terminates_partial"
   ],
   "note": "Refuted by a cycling model and by a negative tolerance; proved for contracting models."
  },
  {
   "property": "C74",
   "status": "proved",
   "theorems": [
    "NavFuse.Props.C74_predict_covariance",
    "NavFuse.Props.C74_predict_consistent"
   ],
   "note": ""
  },
  {
   "property": "C75",
   "status": "proved",
   "theorems": [
    "NavFuse.Props.C75_update_covariance"
   ],
   "note": "For every LinSolver satisfying its contract (also C76-C80, C85, C86)."
  },
  {
   "property": "C76",
   "status": "proved",
   "theorems": [
    "NavFuse.Props.C76_joseph_short_forms"
   ],
   "note": ""
  },
  {
   "property": "C77",
   "status": "proved",
   "theorems": [
    "NavFuse.Props.C77_update_consistent_and_optimal"
   ],
   "note": ""
  },
  {
   "property": "C78",
   "status": "proved",
   "theorems": [
    "NavFuse.Props.C78_update_is_map_estimate"
   ],
   "note": ""
  },
  {
   "property": "C79",
   "status": "proved",
   "theorems": [
    "NavFuse.Props.C79_sequential_eq_batch",
    "NavFuse.Props.C79_order_independent"
   ],
   "note": ""
  },
  {
   "property": "C80",
   "status": "proved",
   "theorems": [
    "NavFuse.Props.C80_covariance_health"
   ],
   "note": ""
  },
  {
   "property": "C81",
   "status": "proved",
   "theorems": [
    "NavFuse.Props.C81_predict_sizes",
    "NavFuse.Props.C81_update_sizes",
    "NavFuse.Props.C81_ukfPredict_sizes",
    "NavFuse.Props.C81_ukfUpdate_sizes"
   ],
   "note": ""
  },
  {
   "property": "C82",
   "status": "proved",
   "theorems": [
    "NavFuse.Props.C82_predict_alias",
    "NavFuse.Props.C82_update_alias",
    "NavFuse.Props.C82_ukfPredict_alias",
    "NavFuse.Props.C82_ukfUpdate_alias",
    "NavFuse.Props.C82_update_in_place"
   ],
   "note": "The memory of the calls is modelled as a store of vectors and matrices; parameters are addresses and may coincide."
  },
  {
   "property": "C83",
   "status": "proved",
   "theorems": [
    "NavFuse.Props.C83_ukf_predict_moments",
    "NavFuse.Props.C83_ukf_predict_equivariant",
    "NavFuse.Props.C83_ukf_predict_linear"
   ],
   "note": ""
  },
  {
   "property": "C84",
   "status": "partial",
   "theorems": [
    "NavFuse.Props.C84_negative_centre_weight_fails",
    "NavFuse.Props.C84_ukf_predict_psd_partial",
    "NavFuse.Props.C84_symmetric_points_partial",
    "NavFuse.Props.C84_characterised"
   ],
   "note": "Refuted for a negative centre weight; proved for non-negative weights and for symmetric sigma points around the mean. Exactly (C84_characterised): for weights summing to one the prediction is a covariance for all sigma points iff no weight is negative."
  },
  {
   "property": "C85",
   "status": "proved",
   "theorems": [
    "NavFuse.Props.C85_ukf_update_linear"
   ],
   "note": ""
  },
  {
   "property": "C86",
   "status": "proved",
   "theorems": [
    "NavFuse.Props.C86_ukf_update_contracts",
    "NavFuse.Props.C86_ukf_update_psd"
   ],
   "note": ""
  },
  {
   "property": "C87",
   "status": "partial",
   "theorems": [
    "NavFuse.Props.C87_characterised",
    "NavFuse.Props.C87_ut1_tai_partial",
    "NavFuse.Props.C87_leap_second_fails"
   ],
   "note": "Proved for every rectangular table when both rows carry the same TAI-UTC, with the exact value in general (interpolation plus the elapsed part of the day times the leap); refuted across a leap second. C87_characterised: interpolated correctly iff at the start of a day or without a leap between the rows."
  },
  {
   "property": "C88",
   "status": "proved",
   "theorems": [
    "NavFuse.Props.C88_iau"
   ],
   "note": ""
  },
  {
   "property": "C89",
   "status": "proved",
   "theorems": [
    "NavFuse.Props.C89_gmst"
   ],
   "note": ""
  },
  {
   "property": "C90",
   "status": "proved",
   "theorems": [
    "NavFuse.Props.C90_runge_kutta_step",
    "NavFuse.Props.C90_at_rest"
   ],
   "note": ""
  },
  {
   "property": "C91",
   "status": "partial",
   "theorems": [
    "NavFuse.Props.Nav.C91_characterised",
    "NavFuse.Props.C91_inertially_fixed_partial",
    "NavFuse.Props.C91_stationary_attitude_drifts_fails"
   ],
   "note": "Refuted: the attitude is propagated without Earth and transport rate. The partial theorem says the attitude is kept relative to inertial space. Exactly (C91_characterised): it is kept over a step iff the Earth makes whole turns in it."
  },
  {
   "property": "C92",
   "status": "partial",
   "theorems": [
    "NavFuse.Props.Nav.C92_characterised",
    "NavFuse.Props.C92_initial_attitude_partial",
    "NavFuse.Props.C92_initial_attitude_fails"
   ],
   "note": "Refuted (transpose); the partial theorem identifies the stored matrix. Exactly the identity and the half turns are stored correctly (C92_characterised)."
  },
  {
   "property": "C93",
   "status": "proved",
   "theorems": [
    "NavFuse.Props.C93_reinitialise"
   ],
   "note": ""
  },
  {
   "property": "C94",
   "status": "proved",
   "theorems": [
    "NavFuse.Props.Align.C94_rotation_iff_consistent"
   ],
   "note": ""
  },
  {
   "property": "C95",
   "status": "proved",
   "theorems": [
    "NavFuse.Props.Align.C95_biases_never_estimated"
   ],
   "note": ""
  },
  {
   "property": "C96",
   "status": "proved",
   "theorems": [
    "NavFuse.Props.RunInv.C96_run_consistent_and_optimal"
   ],
   "note": ""
  },
  {
   "property": "C97",
   "status": "proved",
   "theorems": [
    "NavFuse.Props.C97_any_inverse_covariance",
    "NavFuse.Props.C97_any_inverse_run",
    "NavFuse.Props.C97_any_inverse_honest"
   ],
   "note": ""
  },
  {
   "property": "C98",
   "status": "proved",
   "theorems": [
    "NavFuse.Props.C98_gauss_markov"
   ],
   "note": ""
  },
  {
   "property": "C99",
   "status": "proved",
   "theorems": [
    "NavFuse.Props.C99_recursive_eq_batch"
   ],
   "note": ""
  },
  {
   "property": "C100",
   "status": "proved",
   "theorems": [
    "NavFuse.Props.C100_newton"
   ],
   "note": ""
  },
  {
   "property": "C101",
   "status": "proved",
   "theorems": [
    "NavFuse.Props.C101_constant_rate"
   ],
   "note": ""
  },
  {
   "property": "C102",
   "status": "proved",
   "theorems": [
    "NavFuse.Props.C102_order_four"
   ],
   "note": ""
  },
  {
   "property": "C103",
   "status": "proved",
   "theorems": [
    "NavFuse.Props.C103_converges"
   ],
   "note": ""
  },
  {
   "property": "C104",
   "status": "proved",
   "theorems": [
    "NavFuse.Props.C104_first_order",
    "NavFuse.Props.C104_no_better",
    "NavFuse.Strapdown.NavFuse.Props.C104_call",
    "NavFuse.Strapdown.NavFuse.Props.C104_call_no_better"
   ],
   "note": ""
  },
  {
   "property": "C105",
   "status": "proved",
   "theorems": [
    "NavFuse.Props.C105_converges",
    "NavFuse.Strapdown.NavFuse.Props.C105_run"
   ],
   "note": ""
  },
  {
   "property": "C106",
   "status": "proved",
   "theorems": [
    "NavFuse.Props.C106_midnight_exact",
    "NavFuse.Props.C106_error",
    "NavFuse.Props.C106_order"
   ],
   "note": ""
  },
  {
   "property": "C107",
   "status": "proved",
   "theorems": [
    "NavFuse.Props.C107_monotone"
   ],
   "note": ""
  },
  {
   "property": "C108",
   "status": "proved",
   "theorems": [
    "NavFuse.Props.C108_cautious_is_honest"
   ],
   "note": ""
  },
  {
   "property": "C109",
   "status": "proved",
   "theorems": [
    "NavFuse.Props.C109_innovations_white"
   ],
   "note": ""
  },
  {
   "property": "C110",
   "status": "proved",
   "theorems": [
    "NavFuse.Props.C110_attitude_drift"
   ],
   "note": ""
  },
  {
   "property": "C111",
   "status": "proved",
   "theorems": [
    "NavFuse.Props.C111_run_finite"
   ],
   "note": "No rounding; Eigen's LU is modelled from the published source."
  },
  {
   "property": "C112",
   "status": "partial",
   "theorems": [
    "NavFuse.Props.C112_every_singular_fails",
    "NavFuse.Props.C112_characterised",
    "NavFuse.Props.C112_update_finite_partial",
    "NavFuse.Props.C112_singular_fails",
    "NavFuse.Props.C112_never_recovers_fails"
   ],
   "note": "Proved whenever the innovation covariance is invertible. Refuted for every singular one: no entry of either output is a number and the call reports success (C112_every_singular_fails, C112_characterised), and NaN outputs stay for ever."
  },
  {
   "property": "C113",
   "status": "partial",
   "theorems": [
    "NavFuse.Props.C113_ldlt_minimiser_partial",
    "NavFuse.Props.C113_weighted_minimiser_partial",
    "NavFuse.Props.C113_ldlt_any_rank_partial",
    "NavFuse.Props.C113_always_finite",
    "NavFuse.Props.C113_tiny_fails"
   ],
   "note": "Proved when H (weighted by W) does not shrink vectors below 2^-511; refuted for H = [2^-512]. Eigen's algorithms are modelled from the published source, which is not in the repository."
  },
  {
   "property": "C114",
   "status": "partial",
   "theorems": [
    "NavFuse.Props.C114_more_states_partial",
    "NavFuse.Props.C114_undetermined_fails"
   ],
   "note": "Refuted for every rank-deficient H with n <= m; only n > m is refused."
  },
  {
   "property": "C115",
   "status": "proved",
   "theorems": [
    "NavFuse.Props.C115_observed_is_known",
    "NavFuse.Props.C115_exact_data_converge",
    "NavFuse.Props.C115_unobserved_stays_unknown",
    "NavFuse.Props.C115_repeated_measurements",
    "NavFuse.Props.C115_mean_square"
   ],
   "note": ""
  },
  {
   "property": "C116",
   "status": "proved",
   "theorems": [
    "NavFuse.Props.Align.C116_alignment_errors"
   ],
   "note": ""
  },
  {
   "property": "C117",
   "status": "proved",
   "theorems": [
    "NavFuse.Props.C117_orthogonal"
   ],
   "note": ""
  },
  {
   "property": "C118",
   "status": "proved",
   "theorems": [
    "NavFuse.Props.C118_j2000_accuracy"
   ],
   "note": ""
  },
  {
   "property": "C119",
   "status": "partial",
   "theorems": [
    "NavFuse.Props.C119_orientation_partial",
    "NavFuse.Props.C119_fraction_fails",
    "NavFuse.Props.C119_succeeds"
   ],
   "note": "Proved within 1.3e-9 at whole seconds, and within that plus 7.3e-11 per microsecond elsewhere; refuted between whole seconds, where the Earth turns by what the dropped microseconds are worth."
  },
  {
   "property": "C120",
   "status": "proved",
   "theorems": [
    "NavFuse.Props.C120_forgets",
    "NavFuse.Props.C120_converges"
   ],
   "note": ""
  },
  {
   "property": "C121",
   "status": "proved",
   "theorems": [
    "NavFuse.Props.C121_units"
   ],
   "note": ""
  },
  {
   "property": "C122",
   "status": "proved",
   "theorems": [
    "NavFuse.Props.C122_mirror",
    "NavFuse.Props.C122_mirror_double",
    "NavFuse.Props.C122_mirror_XR",
    "NavFuse.Props.C122_equator"
   ],
   "note": ""
  },
  {
   "property": "C123",
   "status": "proved",
   "theorems": [
    "NavFuse.Props.C123_shift",
    "NavFuse.Props.C123_shift_XR",
    "NavFuse.Props.C123_clock"
   ],
   "note": ""
  },
  {
   "property": "C124",
   "status": "proved",
   "theorems": [
    "NavFuse.Props.C124_navigator_double",
    "NavFuse.Props.C124_hundred_seconds"
   ],
   "note": ""
  },
  {
   "property": "C125",
   "status": "proved",
   "theorems": [
    "NavFuse.Props.C125_navigator_doubles"
   ],
   "note": "Towards zero, IEEE 754 returns the largest finite double on overflow where the model has an infinity; the theorem shows that no overflow occurs, so the difference does not matter."
  },
  {
   "property": "C126",
   "status": "partial",
   "theorems": [
    "NavFuse.Props.C126_tiny_increment_fails",
    "NavFuse.Props.C126_increment_partial",
    "NavFuse.Props.C126_characterised"
   ],
   "note": "Refuted exactly for increments whose components all have a square of at most 2^-1075 (they underflow to 0/0 = NaN); proved for every other increment of up to 4 rad (C126_characterised says if and only if), with an error bound from 2^-537 rad."
  },
  {
   "property": "C127",
   "status": "partial",
   "theorems": [
    "NavFuse.Props.C127_handover_partial",
    "NavFuse.Props.C127_handover_fails",
    "NavFuse.Props.C127_easterly_fails"
   ],
   "note": "Proved for half of the upright attitudes (westerly headings of a level vehicle); refuted on the other half, where every call reports success and the stored attitude is turned by half a turn about the vertical body axis. The composition itself is not in the repository: all three headers name the matrix RB2N."
  },
  {
   "property": "C128",
   "status": "proved",
   "theorems": [
    "NavFuse.Props.C128_sensor_errors"
   ],
   "note": "Exact arithmetic (reals); the flight limits are those of C124, on the true run only. The bound is for errors up to about a metre (B at most 1)."
  },
  {
   "property": "C129",
   "status": "partial",
   "theorems": [
    "NavFuse.Props.C129_covariance_partial",
    "NavFuse.Props.C129_nonnegative_fails",
    "NavFuse.Props.C129_symmetry_fails"
   ],
   "note": "Refuted exactly (rounding to nearest, two states); the partial theorem bounds asymmetry and negative variance for whole runs in every rounding mode."
  },
  {
   "property": "C130",
   "status": "proved",
   "theorems": [
    "NavFuse.Props.C130_run"
   ],
   "note": "Any order in which Eigen adds up the products, without fused multiply-add. Finite gains are assumed, not derived, since inverse() is a black box."
  },
  {
   "property": "C131",
   "status": "proved",
   "theorems": [
    "NavFuse.Props.C131_mounting",
    "NavFuse.Props.C131_initialize"
   ],
   "note": "Exact on extended reals: finite increments with non-zero rotation (zero rotation gives NaN in both)."
  },
  {
   "property": "C132",
   "status": "proved",
   "theorems": [
    "NavFuse.Props.C132_runs_agree",
    "NavFuse.Props.C132_usual_points",
    "NavFuse.Props.C132_rule_exists"
   ],
   "note": "Exact arithmetic with a correct matrix inverse, covariances and positive definite measurement noise. The library does not choose sigma points; the rule is part of the calling program."
  },
  {
   "property": "C133",
   "status": "proved",
   "theorems": [
    "NavFuse.Props.C133_grows",
    "NavFuse.Props.C133_settles",
    "NavFuse.Props.C133_converges"
   ],
   "note": "Exact arithmetic with a correct matrix inverse. Boundedness is not assumed of the run but follows from some constant-gain estimator that keeps an uncertainty."
  },
  {
   "property": "C134",
   "status": "proved",
   "theorems": [
    "NavFuse.Props.C134_position",
    "NavFuse.Props.C134_geodetic",
    "NavFuse.Props.C134_round_trip"
   ],
   "note": "sin, cos, atan2 and pow are taken as faithfully rounded. Places within 64 m of the axis, next to the date line or more than 20 km below the ellipsoid are left out of the inverse conversion (C25, C26 say what happens there)."
  },
  {
   "property": "C135",
   "status": "proved",
   "theorems": [
    "NavFuse.Props.C135_calibrated",
    "NavFuse.Props.C135_residual"
   ],
   "note": "Exact arithmetic. The residual part inherits C128's assumptions on the flight and needs compensated angle increments that are not zero."
  },
  {
   "property": "C136",
   "status": "partial",
   "theorems": [
    "NavFuse.Props.C136_ecef2Lla",
    "NavFuse.Props.C136_lla2Ecef_partial",
    "NavFuse.Props.C136_simpleGravity",
    "NavFuse.Props.C136_dynamics",
    "NavFuse.Props.C136_rk4",
    "NavFuse.Props.C136_linear_partial",
    "NavFuse.Props.C136_weighted_partial",
    "NavFuse.Props.C136_nonlinear_partial",
    "NavFuse.Props.C136_weighted_nonlinear_partial",
    "NavFuse.Props.C136_lla2Ecef_in_place_fails",
    "NavFuse.Props.C136_linear_in_place_fails",
    "NavFuse.Props.C136_nonlinear_in_place_fails"
   ],
   "note": "True of ecef2Lla, simpleGravity, strapdownDynamics and strapdownRk4 for every sharing pattern. False of lla2Ecef (the components are written one after another and the angles are read again), of linear least squares (the cost is computed from the overwritten measurements) and of the iterative estimators (the loop never runs): proved with witnesses, and proved correct when the objects named in the `_partial` theorems differ."
  },
  {
   "property": "C137",
   "status": "partial",
   "theorems": [
    "NavFuse.Props.C137_dcm",
    "NavFuse.Props.C137_quaternion_partial",
    "NavFuse.Props.C137_round_trip_partial",
    "NavFuse.Props.C137_matrix_trip_partial",
    "NavFuse.Props.C137_near_quarter_turn_fails",
    "NavFuse.Props.C137_quarter_roll_fails"
   ],
   "note": "Matrix to quaternion needs the two largest squared components to differ by 2e-14. Without that it is false: for a turn about the first axis with a cosine below 2^-53, in particular for the matrix that euler2Dcm makes of a roll of M_PI/2, all three comparisons are decided against the large components by rounding and the result is NaN with success. Elementary functions are taken to be faithfully rounded."
  },
  {
   "property": "C138",
   "status": "partial",
   "theorems": [
    "NavFuse.Props.C138_dcm",
    "NavFuse.Props.C138_angles_partial",
    "NavFuse.Props.C138_round_trip_partial",
    "NavFuse.Props.C138_north_fails"
   ],
   "note": "Matrix to angles needs roll and pitch within a quarter turn, heading between 0 and pi, cos pitch >= 1e-3, cos roll >= 1e-5, |cos heading| >= 1e-5, sin heading >= 1e-10. At due north the claim is false: the level matrix off by 2^-47 in one entry gives a heading of 180 degrees with success. Elementary functions are taken to be faithfully rounded."
  },
  {
   "property": "C139",
   "status": "partial",
   "theorems": [
    "NavFuse.Props.C139_quaternion",
    "NavFuse.Props.C139_underflow_fails",
    "NavFuse.Props.C139_cutoff",
    "NavFuse.Props.C139_round_trip_partial",
    "NavFuse.Props.C139_half_turn_fails"
   ],
   "note": "The conversion back returns the negative of the rotation vector (C31), so the accuracy is proved up to that sign, for sin(angle/2) >= 1.1e-6 and cos(angle/2) >= 2e-5. False for rotation vectors whose squares underflow (NaN with success) and for some rotation vectors close to a half turn: (593, 102942, 0)/2^15 there and back gives NaN with success, because the computed length of the vector part exceeds one. Elementary functions are taken to be faithfully rounded, for the half-turn witness correctly rounded."
  },
  {
   "property": "C140",
   "status": "proved",
   "theorems": [
    "NavFuse.Props.CompDbl.C140_accuracy",
    "NavFuse.Props.CompDbl.C140_nan"
   ],
   "note": ""
  },
  {
   "property": "C141",
   "status": "proved",
   "theorems": [
    "NavFuse.Props.AlignDbl.C141_rounding",
    "NavFuse.Props.AlignDbl.C141_error_budget"
   ],
   "note": ""
  },
  {
   "property": "C142",
   "status": "proved",
   "theorems": [
    "NavFuse.Props.AlignDbl.C142_azimuth",
    "NavFuse.Props.C142_scalar_update"
   ],
   "note": ""
  },
  {
   "property": "C143",
   "status": "proved",
   "theorems": [
    "NavFuse.Props.C143_lookup",
    "NavFuse.Props.C143_monotone",
    "NavFuse.Props.C143_not_finite"
   ],
   "note": ""
  },
  {
   "property": "C144",
   "status": "proved",
   "theorems": [
    "NavFuse.Props.C144_predict",
    "NavFuse.Props.C144_update",
    "NavFuse.Props.C144_variance_floor"
   ],
   "note": ""
  },
  {
   "property": "C145",
   "status": "partial",
   "theorems": [
    "NavFuse.Props.C145_predict_partial",
    "NavFuse.Props.C145_update_partial",
    "NavFuse.Props.C145_symmetry_fails",
    "NavFuse.Props.C145_nonnegative_fails"
   ],
   "note": "False of the code in exact terms: (W a) b and (W b) a round differently, so the predicted covariance can be asymmetric (C145_symmetry_fails), and P - K S K^T with sigma points rounded to double can leave a negative variance (C145_nonnegative_fails). Proved: symmetry, nonnegativity of the prediction and no growth in the update, all up to the rounding bound of C144."
  },
  {
   "property": "C146",
   "status": "proved",
   "theorems": [
    "NavFuse.Props.Pva.C146_ned",
    "NavFuse.Props.Pva.C146_inertial",
    "NavFuse.Props.Pva.C146_ecef"
   ],
   "note": ""
  },
  {
   "property": "C147",
   "status": "proved",
   "theorems": [
    "NavFuse.Props.C147_solve",
    "NavFuse.Props.C147_inverse",
    "NavFuse.Props.C147_regular",
    "NavFuse.Props.C147_forward",
    "NavFuse.Props.C147_accurate"
   ],
   "note": ""
  },
  {
   "property": "C148",
   "status": "proved",
   "theorems": [
    "NavFuse.Props.C148_gain",
    "NavFuse.Props.C148_update"
   ],
   "note": ""
  },
  {
   "property": "C149",
   "status": "proved",
   "theorems": [
    "NavFuse.Props.C149_solve",
    "NavFuse.Props.C149_accurate",
    "NavFuse.Props.C149_lower_triangle"
   ],
   "note": ""
  },
  {
   "property": "C150",
   "status": "proved",
   "theorems": [
    "NavFuse.Props.C150_unweighted",
    "NavFuse.Props.C150_weighted"
   ],
   "note": ""
  },
  {
   "property": "C151",
   "status": "proved",
   "theorems": [
    "NavFuse.Props.C151_step",
    "NavFuse.Props.C151_quadratic",
    "NavFuse.Props.C151_weighted",
    "NavFuse.Props.C151_unweighted",
    "NavFuse.Props.C151_minimum"
   ],
   "note": ""
  },
  {
   "property": "C152",
   "status": "partial",
   "theorems": [
    "NavFuse.Props.C152_cost_partial",
    "NavFuse.Props.C152_cost_fails"
   ],
   "note": "Refuted: fitting x^2 to 4 the solver returns the perfect fit 2 and reports the cost 8 instead of 0, because ComputeCostFunction evaluates y - H x with the last Jacobian. The partial theorem says what J is on every successful run; it is right for linear functions."
  },
  {
   "property": "C153",
   "status": "proved",
   "theorems": [
    "NavFuse.Props.C153_round",
    "NavFuse.Props.C153_terminates"
   ],
   "note": ""
  },
  {
   "property": "C154",
   "status": "proved",
   "theorems": [
    "NavFuse.Props.C154_long_run",
    "NavFuse.Props.C154_random_walk"
   ],
   "note": ""
  },
  {
   "property": "C155",
   "status": "partial",
   "theorems": [
    "NavFuse.Props.Align.C155_collapse_fails",
    "NavFuse.Props.Align.C155_ignores_azimuth_fails",
    "NavFuse.Props.Align.C155_one_prediction_fails",
    "NavFuse.Props.Align.C155_honest_partial"
   ],
   "note": "Refuted: every prediction divides all reported variances by at least 10^4 whatever is measured (C155_collapse_fails), later azimuth measurements are ignored in the same proportion, and a single prediction declares an unknown azimuth error known exactly. Proved for alignments by measurements alone."
  },
  {
   "property": "C156",
   "status": "proved",
   "theorems": [
    "NavFuse.Props.Pva.C156_ecef",
    "NavFuse.Props.Pva.C156_inertial"
   ],
   "note": ""
  },
  {
   "property": "C157",
   "status": "proved",
   "theorems": [
    "NavFuse.Props.C157_frames",
    "NavFuse.Props.C157_refused"
   ],
   "note": "Dates on 31 December are excluded: the conversion of the date reads past a table there (C01)."
  },
  {
   "property": "C158",
   "status": "proved",
   "theorems": [
    "NavFuse.Props.C158_weighted",
    "NavFuse.Props.C158_unweighted",
    "NavFuse.Props.C158_nonlinear",
    "NavFuse.Props.C158_unweighted_nonlinear"
   ],
   "note": ""
  },
  {
   "property": "C159",
   "status": "proved",
   "theorems": [
    "NavFuse.Props.C159_coordinates",
    "NavFuse.Props.C159_order"
   ],
   "note": ""
  },
  {
   "property": "C160",
   "status": "proved",
   "theorems": [
    "NavFuse.Props.AlignDbl.C160_predict",
    "NavFuse.Props.AlignDbl.C160_velocity"
   ],
   "note": "Completes C142 (azimuth update). The bound of the velocity update grows with the square of the ratio of covariance to noise; it inherits the pivot growth of the general LU analysis (C147, C148)."
  },
  {
   "property": "C161",
   "status": "proved",
   "theorems": [
    "NavFuse.Props.C161_gain",
    "NavFuse.Props.C161_update",
    "NavFuse.Props.C161_floor"
   ],
   "note": "Composes C144 (sigma point sums and last steps) with C147 (inverse). Unlike the Joseph form of filterUpdate (C148) the covariance feels the error of the gain to first order."
  },
  {
   "property": "C162",
   "status": "proved",
   "theorems": [
    "NavFuse.Props.C162_round",
    "NavFuse.Props.C162_terminates"
   ],
   "note": "The weighted counterpart of C153; the smallness of the errors and the contraction factor are measured in the metric of the weights."
  },
  {
   "property": "C163",
   "status": "proved",
   "theorems": [
    "NavFuse.Props.C163_gravityNed",
    "NavFuse.Props.C163_ecef2Ned",
    "NavFuse.Props.C163_ned2Ecef",
    "NavFuse.Props.C163_nutation",
    "NavFuse.Props.C163_eop",
    "NavFuse.Props.C163_quaternion",
    "NavFuse.Props.C163_quaternion_same",
    "NavFuse.Props.C163_alignPredict",
    "NavFuse.Props.C163_alignAzimuth",
    "NavFuse.Props.C163_alignVelocity",
    "NavFuse.Props.C163_inertial",
    "NavFuse.Props.C163_ecef",
    "NavFuse.Props.C163_ned",
    "NavFuse.Props.C163_inertial_same"
   ],
   "note": "Complements C82 and C136. C163_inertial_same shows what happens with one object for both outputs, which the property excludes."
  },
  {
   "property": "C164",
   "status": "proved",
   "theorems": [
    "NavFuse.Props.C164_never",
    "NavFuse.Props.C164_last",
    "NavFuse.Props.C164_flag",
    "NavFuse.Props.C164_refuses",
    "NavFuse.Props.C164_rotation_keeps",
    "NavFuse.Props.C164_history",
    "NavFuse.Props.C164_rotation_refuses",
    "NavFuse.Props.C164_rotation_answers"
   ],
   "note": "Success of the whole load in the sense of its return value; C12 and C15 say what a successful load may still have missed."
  },
  {
   "property": "C165",
   "status": "proved",
   "theorems": [
    "NavFuse.Strapdown.NavFuse.Props.C165_run",
    "NavFuse.Props.C165_growth",
    "NavFuse.Props.C165_navigator"
   ],
   "note": "Inherent to free inertial navigation with height-dependent gravity, not an error of the code; complements the upper bound of C128."
  },
  {
   "property": "C166",
   "status": "proved",
   "theorems": [
    "NavFuse.Props.C166_bounded",
    "NavFuse.Props.C166_robust",
    "NavFuse.Props.C166_double",
    "NavFuse.Props.C166_tracker"
   ],
   "note": "C154 without its assumption on the exact run. For the two-state tracker the rounding bound of the estimate is weak (0.6 of measurements of size 1); that of the variances is 4e-5."
  },
  {
   "property": "C167",
   "status": "partial",
   "theorems": [
    "NavFuse.Strapdown.NavFuse.Props.C167_run_fails",
    "NavFuse.Props.C167_drives_off_fails",
    "NavFuse.Props.C167_ten_minutes_fails",
    "NavFuse.Props.C167_rates_relative_to_ned_partial",
    "NavFuse.Props.C167_everywhere_fails"
   ],
   "note": "The consequence of C91 in numbers. Fails for every altitude and attitude on the equator: the computed velocity east is at least 3.4e-4 t^2 m/s, more than 120 m/s and 24 km after ten minutes. What holds: with rates relative to north-east-down that do not tilt the vehicle the state never changes. C167_everywhere_fails: the same effect at every latitude off the poles, every altitude up to 20 km and every attitude, from the very first moment (velocity east more than 3.3e-4 cos(lat) T\u00b2 m/s after the time T)."
  },
  {
   "property": "C168",
   "status": "proved",
   "theorems": [
    "NavFuse.Props.C168_grows_poleward",
    "NavFuse.Props.C168_mixed_derivatives",
    "NavFuse.Props.C168_closed_loop"
   ],
   "note": "The meridian radius of curvature, the work along a meridian and along a vertical, and the work of the loop are specified as integrals of the components that gravityNed returns. The bound 1.1e-3 is two percent of the largest rate, 0.053."
  },
  {
   "property": "C169",
   "status": "proved",
   "theorems": [
    "NavFuse.Props.C169_fictitious_forces_do_no_work",
    "NavFuse.Props.C169_energy_balance",
    "NavFuse.Props.C169_energy_of_a_flight"
   ],
   "note": "Solutions are curves whose derivative is what strapdownDynamics returns; that whole runs of the navigator follow them is C105. The two meridian radii in the code (from b, and from the flattening) are shown to agree to a centimetre."
  },
  {
   "property": "C170",
   "status": "proved",
   "theorems": [
    "NavFuse.Props.C170_rates_agree"
   ],
   "note": "The remaining 9e-12 rad/s is the precession of the equinox, against which sidereal time is counted (7.1e-12), and the rounding of wE."
  },
  {
   "property": "C171",
   "status": "proved",
   "theorems": [
    "NavFuse.Props.C171_level_flight"
   ],
   "note": ""
  },
  {
   "property": "C172",
   "status": "partial",
   "theorems": [
    "NavFuse.Props.C172_date_line_fails",
    "NavFuse.Props.C172_eastbound_partial",
    "NavFuse.Props.C172_wrapped_partial"
   ],
   "note": "Violated: C172_date_line_fails (one exact reading on the 180th meridian is enough, at every latitude, altitude and eastward speed). Proved instead: C172_eastbound_partial decides for every level eastbound flight when the position is accepted (exactly until the longitude counted on from the start passes pi), and C172_wrapped_partial shows that reducing the longitude by whole turns before the conversion gives the right point and axes. Missing: flights over a pole, where the latitude leaves its range too."
  },
  {
   "property": "C173",
   "status": "proved",
   "theorems": [
    "NavFuse.Props.C173_models_agree"
   ],
   "note": ""
  },
  {
   "property": "C174",
   "status": "proved",
   "theorems": [
    "NavFuse.Props.C174_changing_rates",
    "NavFuse.Props.C174_no_better",
    "NavFuse.Props.C174_drifts_away"
   ],
   "note": "C174_changing_rates: upper bound for all motions; C174_no_better: the order of one call cannot be improved; C174_drifts_away: on a coning body the errors accumulate until an entry of the attitude is wrong by one half, at every call rate of at least 10 Hz."
  },
  {
   "property": "C175",
   "status": "proved",
   "theorems": [
    "NavFuse.Props.C175_lla2Ecef",
    "NavFuse.Props.C175_ned2Ecef",
    "NavFuse.Props.C175_ecef2Ned",
    "NavFuse.Props.C175_simpleGravity",
    "NavFuse.Props.C175_gravityNed",
    "NavFuse.Props.C175_euler2Dcm",
    "NavFuse.Props.C175_dcm2Euler",
    "NavFuse.Props.C175_dcmFromQuaternion",
    "NavFuse.Props.C175_quaternionFromDcm",
    "NavFuse.Props.C175_quaternionFromRotationVec",
    "NavFuse.Props.C175_rotationVecFromQuaternion",
    "NavFuse.Props.C175_quaternionEquivalent",
    "NavFuse.Props.C175_applyErrors",
    "NavFuse.Props.C175_coarseAlignment",
    "NavFuse.Props.C175_navigator",
    "NavFuse.Props.C175_ecef2Lla_characterised",
    "NavFuse.Props.C175_longitude_range",
    "NavFuse.Props.C175_j2kProduct",
    "NavFuse.Props.C175_filterPredict"
   ],
   "note": "Proved at the instance SZ (exact reals with NaN, infinities and signed zeros). Gives the range of C26 with signs: the longitude lies in [-pi, pi] and is -pi exactly if y is a negative zero and x has its sign bit set."
  },
  {
   "property": "C176",
   "status": "proved",
   "theorems": [
    "NavFuse.Props.C176_attitude_from_gyroscopes_only"
   ],
   "note": "Strapdown::updateAttitude reads only the previous attitude and the gyroscope sample; the induction carries equality of the stored attitude, all other fields of the two objects are free."
  },
  {
   "property": "C177",
   "status": "partial",
   "theorems": [
    "NavFuse.Props.C177_late_sample_refused_fails",
    "NavFuse.Props.C177_newer_sample_partial"
   ],
   "note": "Violated: no comparison of time stamps exists. Every earlier or equal stamp (up to the overflow of C52) is accepted with success, the stored time goes backwards and the attitude takes the turn again (C177_late_sample_refused_fails). An equal stamp also makes position and velocity NaN (C44). Proved part: a newer sample is accepted and time advances."
  },
  {
   "property": "C178",
   "status": "proved",
   "theorems": [
    "NavFuse.Props.C178_gyroscope",
    "NavFuse.Props.C178_accelerometer",
    "NavFuse.Props.C178_lost_for_good"
   ],
   "note": "Generalises C49_never_recovers_fails: no value of the state or of later samples is assumed. That initialize restores the navigator is C93."
  },
  {
   "property": "C179",
   "status": "proved",
   "theorems": [
    "NavFuse.Props.C179_predictions_merge",
    "NavFuse.Props.C179_updates_commute"
   ],
   "note": "Exact reals; measurement noises positive definite, initial covariance any positive semidefinite matrix."
  },
  {
   "property": "C180",
   "status": "partial",
   "theorems": [
    "NavFuse.Props.C180_at_the_pole_fails",
    "NavFuse.Props.C180_next_to_the_pole_fails",
    "NavFuse.Props.C180_away_from_the_poles_partial"
   ],
   "note": "Violated: the longitude rate divides by cos(lat). At a pole of the exact arithmetic one call makes all velocities non-finite with success, also for a vehicle at rest (C180_at_the_pole_fails), for good by C178. In double precision cos(M_PI/2) is 6.1e-17 instead of 0; there one metre per second east gives a northward acceleration of more than 10^9 m/s^2 (C180_next_to_the_pole_fails, evaluated in exact reals at that latitude). Proved part: the bound 2V(2 Omega + V/(6300 km cos lat))."
  },
  {
   "property": "C181",
   "status": "proved",
   "theorems": [
    "NavFuse.Props.C181_no_jumps"
   ],
   "note": "C181_no_jumps: both bounds in the operator norm, about getCurrentEop and j2kProduct over the reals. Leap seconds are excluded by the hypothesis that TAI-UTC is the same at both instants; what happens there is C87."
  },
  {
   "property": "C182",
   "status": "proved",
   "theorems": [
    "NavFuse.Props.Pva.C182_gravity_gradient",
    "NavFuse.Props.Pva.C182_schuler",
    "NavFuse.Props.Pva.C182_period"
   ],
   "note": "C182_gravity_gradient (the gradient is the derivative of simpleGravity in every direction), C182_schuler (all solutions), C182_period. The matrix is held constant, i.e. position and specific force of the vehicle do not change."
  },
  {
   "property": "C183",
   "status": "proved",
   "theorems": [
    "NavFuse.Props.C183_unscented_mean",
    "NavFuse.Props.C183_covariance_is_not_exact"
   ],
   "note": "C183_unscented_mean for random states on finite probability spaces; C183_covariance_is_not_exact shows why the statement is about the mean only (the squared state +-1 has variance 0, three points of centre weight 2/3 report 2), which is a limit of the method and not of this code."
  },
  {
   "property": "C184",
   "status": "proved",
   "theorems": [
    "NavFuse.Props.C184_there_and_back"
   ],
   "note": "C184_there_and_back in exact arithmetic with NaN and infinities; geodetic_exists gives the geodetic coordinates by the intermediate value theorem, back_core bounds the error by that of Bowring's step. On the axis itself the altitude is NaN (C25_pole_fails), close to it the bound grows like 1/p."
  },
  {
   "property": "C185",
   "status": "proved",
   "theorems": [
    "NavFuse.Props.C185_residual_shrinks",
    "NavFuse.Props.C185_between"
   ],
   "note": "C185_residual_shrinks and, for one measured number, C185_between. The inverse is any correct one."
  },
  {
   "property": "C186",
   "status": "proved",
   "theorems": [
    "NavFuse.Props.Align.C186_mounting",
    "NavFuse.Props.Align.C186_reversed_sensors_unnoticed"
   ],
   "note": "C186_mounting; C186_reversed_sensors_unnoticed shows that reversed sensor axes produce a plausible but wrong attitude and the value true. Arithmetic is exact and total (X): the inverse is evaluated, not assumed."
  },
  {
   "property": "C187",
   "status": "proved",
   "theorems": [
    "NavFuse.Props.Pva.C187_same_errors"
   ],
   "note": "C187_same_errors, an equivalence. C63_no_rotation is the case O = 0."
  },
  {
   "property": "C188",
   "status": "partial",
   "theorems": [
    "NavFuse.Props.Align.C188_resting_errors_partial",
    "NavFuse.Props.Align.C188_heading_sign_fails",
    "NavFuse.Props.Align.C188_nedErrorDynamics_right"
   ],
   "note": "C188_resting_errors_partial: seven of the eight components agree and the heading is off by 2 tan(lat)/r v_east. C188_heading_sign_fails: away from the equator the claim is false for every state with an east velocity error. C188_nedErrorDynamics_right: the other error model of the code has the sign of the equations."
  },
  {
   "property": "C189",
   "status": "partial",
   "theorems": [
    "NavFuse.Props.Align.C189_azimuth_characterised_partial",
    "NavFuse.Props.Align.C189_careful_caller_partial",
    "NavFuse.Props.Align.C189_full_turn_fails",
    "NavFuse.Props.Align.C189_across_north_fails"
   ],
   "note": "C189_azimuth_characterised_partial says exactly when the claim holds; C189_full_turn_fails refutes it for every state and covariance with an uncertain heading, C189_across_north_fails for azimuths close to north."
  },
  {
   "property": "C190",
   "status": "partial",
   "theorems": [
    "NavFuse.Props.Align.C190_tilted_azimuth_partial",
    "NavFuse.Props.Align.C190_pitched_fails"
   ],
   "note": "C190_tilted_azimuth_partial: the first-order movement at every attitude, zero for a level vehicle. C190_pitched_fails: not zero for some tilts at every pitched attitude. The matrix H = (0 0 1 0 ...) is a modelling choice that is exact only for level vehicles. Tilts are those of the error equations of C156 and C188."
  },
  {
   "property": "C191",
   "status": "partial",
   "theorems": [
    "NavFuse.Props.Align.C191_documented_noise_characterised_partial",
    "NavFuse.Props.Align.C191_overconfident_fails",
    "NavFuse.Props.Align.C191_velocity_overconfident_fails"
   ],
   "note": "C191_documented_noise_characterised_partial: equivalences; C191_overconfident_fails: refuted for every uncertain heading and dtAz < 1; C191_velocity_overconfident_fails: the same for velocities (sigVel, whose unit the header does not give) and every state correlated with a level velocity error. The reading of sigAz is that of include/inertial/initialization.hpp:76; if it were meant as a density the documentation is wrong."
  },
  {
   "property": "C192",
   "status": "proved",
   "theorems": [
    "NavFuse.Props.Comp.C192_four_readings",
    "NavFuse.Props.Comp.C192_three_not_enough"
   ],
   "note": "C192_four_readings: injectivity of the parameters; C192_three_not_enough: sharpness, next to the compensator without errors."
  },
  {
   "property": "C193",
   "status": "proved",
   "theorems": [
    "NavFuse.Props.C193_total_information",
    "NavFuse.Props.C193_averaging"
   ],
   "note": "C193_total_information: general; C193_averaging: N equal sensors against their mean."
  },
  {
   "property": "C194",
   "status": "partial",
   "theorems": [
    "NavFuse.Props.C194_more_data",
    "NavFuse.Props.C194_weighted_more_data_partial",
    "NavFuse.Props.C194_weighted_cost_falls_fails"
   ],
   "note": "C194_more_data: unweighted, exact; C194_weighted_more_data_partial: the weighted cost and the estimate; C194_weighted_cost_falls_fails: the reported cost, witness with three numbers. Consequence of C68."
  },
  {
   "property": "C195",
   "status": "partial",
   "theorems": [
    "NavFuse.Props.C195_zero_weight_partial",
    "NavFuse.Props.C195_cost_fails",
    "NavFuse.Props.C195_nan_fails"
   ],
   "note": "C195_zero_weight_partial: the estimate, and what the cost is; C195_cost_fails: the reported cost grows unless the removed values agree with the estimate; C195_nan_fails: NaN (extended reals)."
  },
  {
   "property": "C196",
   "status": "proved",
   "theorems": [
    "NavFuse.Props.Align.C196_units",
    "NavFuse.Props.Align.C196_scale_factors"
   ],
   "note": "C196_units: arbitrary readings; C196_scale_factors: exact conditions for a rotation and for the right one. Extends C94, C116 and C186."
  },
  {
   "property": "C197",
   "status": "proved",
   "theorems": [
    "NavFuse.Props.C197_uncoupled"
   ],
   "note": "C197_uncoupled: by induction over the calls, exact arithmetic, arbitrary solver; run_succeeds shows that the separate runs always succeed."
  },
  {
   "property": "C198",
   "status": "partial",
   "theorems": [
    "NavFuse.Props.C198_infinite_noise_fails",
    "NavFuse.Props.C198_infinite_prior_fails",
    "NavFuse.Props.C198_large_noise_partial",
    "NavFuse.Props.C198_large_prior_partial"
   ],
   "note": "False with infinities: C198_infinite_noise_fails and C198_infinite_prior_fails (in double arithmetic with infinities and NaN, for every solver, no entry of the resulting covariance is a number, and the call reports success). What holds are the limits of growing finite variances: C198_large_noise_partial, C198_large_prior_partial."
  },
  {
   "property": "C199",
   "status": "proved",
   "theorems": [
    "NavFuse.Props.C199_nearest",
    "NavFuse.Props.C199_climb"
   ],
   "note": "C199_nearest: strict minimum, by the convexity of the ellipsoid; below the surface down to the smallest radius of curvature. C199_climb: consequence for two points. Extends C24."
  },
  {
   "property": "C200",
   "status": "proved",
   "theorems": [
    "NavFuse.Props.C200_covariance",
    "NavFuse.Props.C200_superposition"
   ],
   "note": "C200_covariance: every scalar arithmetic and solver; C200_superposition: real numbers, every solver."
  },
  {
   "property": "C201",
   "status": "proved",
   "theorems": [
    "NavFuse.Props.C201_covariance",
    "NavFuse.Props.C201_offset",
    "NavFuse.Props.C201_weights_needed"
   ],
   "note": "C201_covariance: every arithmetic and solver. C201_offset: real numbers, every solver. C201_weights_needed: a concrete case with weights of sum two (variance -1/3)."
  },
  {
   "property": "C202",
   "status": "proved",
   "theorems": [
    "NavFuse.Props.C202_unweighted",
    "NavFuse.Props.C202_weighted",
    "NavFuse.Props.C202_characterised"
   ],
   "note": "C202_unweighted, C202_weighted: arithmetic with infinities and NaN (without rounding and overflow), every solver; C202_characterised: exact condition with Eigen's LDLT. A weight matrix that is not finite is not covered by the first part, since the cost does not contain it (C68)."
  }
 ]
}