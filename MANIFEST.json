{
 "claims": [
  {
   "property": "C01",
   "status": "proved",
   "theorems": [
    "Welleng.Props.C01_top_down_tiling",
    "Welleng.Props.C01_complete_when_reached"
   ],
   "note": "Any class, any keyword arguments, any number of calls; numbering, tiling, no section lost, completeness flag set when the bottom is reached."
  },
  {
   "property": "C02",
   "status": "proved",
   "theorems": [
    "Welleng.Props.C02_bottom_up_tiling"
   ],
   "note": "As C01 for bottom-up strings."
  },
  {
   "property": "C03",
   "status": "partial",
   "theorems": [
    "Welleng.Props.C03_rejected_call_mutates",
    "Welleng.Props.C03_rejected_keeps_flag_partial",
    "Welleng.Props.C03_poisoned_forever"
   ],
   "note": "False of the code: C03_rejected_call_mutates gives witnesses for both methods, C03_poisoned_forever a lasting consequence. What holds (flag and settings unchanged) is C03_rejected_keeps_flag_partial."
  },
  {
   "property": "C04",
   "status": "proved",
   "theorems": [
    "Welleng.Props.C04_build",
    "Welleng.Props.C04_depth",
    "Welleng.Props.C04_stack_meaning",
    "Welleng.Props.C04_top_down_string_raises"
   ],
   "note": "For strings built bottom-up from positive lengths with no piece added after completion; C04_stack_meaning spells out the result, C04_top_down_string_raises covers strings without stored lengths."
  },
  {
   "property": "C05",
   "status": "proved",
   "theorems": [
    "Welleng.Props.C05_dogleg_is_angle_between_tangents"
   ],
   "note": "Over the reals."
  },
  {
   "property": "C06",
   "status": "proved",
   "theorems": [
    "Welleng.Props.C06_step_is_arc_end",
    "Welleng.Props.C06_arc_exists",
    "Welleng.Props.C06_straight"
   ],
   "note": "Circular arc specified by its Frenet equations in Spec/Geometry; existence and uniqueness of the end point."
  },
  {
   "property": "C07",
   "status": "proved",
   "theorems": [
    "Welleng.Props.C07_displacement_le_md",
    "Welleng.Props.C07_every_station_has_position",
    "Welleng.Props.C07_succeeds_iff"
   ],
   "note": "For non-decreasing depths; also success condition and one position per station."
  },
  {
   "property": "C08",
   "status": "proved",
   "theorems": [
    "Welleng.Props.C08_split_step",
    "Welleng.Props.C08_insert_station",
    "Welleng.Props.C08_interpolated_point_on_arc"
   ],
   "note": "For intervals of positive length and dogleg below pi (at pi the arc is not determined and the code divides by sin pi)."
  },
  {
   "property": "C09",
   "status": "proved",
   "theorems": [
    "Welleng.Props.C09_causal",
    "Welleng.Props.C09_translation",
    "Welleng.Props.C09_common_prefix"
   ],
   "note": ""
  },
  {
   "property": "C10",
   "status": "proved",
   "theorems": [
    "Welleng.Props.C10_rotation"
   ],
   "note": ""
  },
  {
   "property": "C11",
   "status": "proved",
   "theorems": [
    "Welleng.Props.C11_getVec_is_unit_tangent",
    "Welleng.Props.C11_angles_round_trip",
    "Welleng.Props.C11_vertical_inclination",
    "Welleng.Props.C11_vector_round_trip"
   ],
   "note": "Both axis orders; also vector -> angles -> vector for every non-zero vector."
  },
  {
   "property": "C12",
   "status": "proved",
   "theorems": [
    "Welleng.Props.C12_nev_xyz_inverse"
   ],
   "note": ""
  },
  {
   "property": "C13",
   "status": "proved",
   "theorems": [
    "Welleng.Props.C13_transform_is_rotation",
    "Welleng.Props.C13_round_trip",
    "Welleng.Props.C13_preserves",
    "Welleng.Props.C13_cov_of_vec"
   ],
   "note": "Both directions, matrices and vectors; also determinant."
  },
  {
   "property": "C14",
   "status": "proved",
   "theorems": [
    "Welleng.Props.C14_inverse",
    "Welleng.Props.C14_strictly_decreasing",
    "Welleng.Props.C14_scalar_vs_array"
   ],
   "note": "Also shows the scalar/array disagreement at radius 0."
  },
  {
   "property": "C15",
   "status": "partial",
   "theorems": [
    "Welleng.Props.C15_round_trip_partial",
    "Welleng.Props.C15_sign_lost_below_one_degree",
    "Welleng.Props.C15_row_is_normalised",
    "Welleng.Props.C15_row_round_trip"
   ],
   "note": "False of the code strictly between -1 and 0 degrees (C15_sign_lost_below_one_degree); holds everywhere else, and every normalised row survives the other round trip."
  },
  {
   "property": "C16",
   "status": "proved",
   "theorems": [
    "Welleng.Props.C16_azimuths_consistent",
    "Welleng.Props.C16_consistent_unique",
    "Welleng.Props.C16_reentry",
    "Welleng.Props.C16_constructed_nonvertical"
   ],
   "note": "The vertical-station exception is C56."
  },
  {
   "property": "C17",
   "status": "partial",
   "theorems": [
    "Welleng.Props.C17_position_difference",
    "Welleng.Props.C17_tables_agree_partial",
    "Welleng.Props.C17_start_xyz_counted_twice",
    "Welleng.Props.C17_grid_scale_factor_only_in_one_table"
   ],
   "note": "False of the code when start_xyz is non-zero or the grid scale factor is not one (negations proved for every survey); equal otherwise."
  },
  {
   "property": "C18",
   "status": "proved",
   "theorems": [
    "Welleng.Props.C18_none_beyond_end",
    "Welleng.Props.C18_bracket",
    "Welleng.Props.C18_clamp_above",
    "Welleng.Props.C18_reproduces_stations"
   ],
   "note": "Depths strictly increasing, doglegs below pi; also clamping at or above the first station."
  },
  {
   "property": "C19",
   "status": "proved",
   "theorems": [
    "Welleng.Props.C19_remove_duplicates",
    "Welleng.Props.C19_needs_two_stations"
   ],
   "note": "For any key (rounded depth) function; also nothing at a new depth is lost, and the error branch for fewer than two rows."
  },
  {
   "property": "C20",
   "status": "proved",
   "theorems": [
    "Welleng.Props.C20_splice",
    "Welleng.Props.C20_depths_ordered_and_complete"
   ],
   "note": "Depths, inclinations, azimuths, covariances and radii; the remaining inputs are C57."
  },
  {
   "property": "C21",
   "status": "partial",
   "theorems": [
    "Welleng.Props.C21_count_and_originals",
    "Welleng.Props.C21_inserted_station_half_way",
    "Welleng.Props.C21_depths_ordered_partial",
    "Welleng.Props.C21_inserted_station_overshoots",
    "Welleng.Props.C21_zero_noise_straight"
   ],
   "note": "Count and original depths proved for every survey; order is false of the code when the half sweep exceeds pi (C21_inserted_station_overshoots) and NaN for zero noise on a straight interval; proved otherwise."
  },
  {
   "property": "C22",
   "status": "partial",
   "theorems": [
    "Welleng.Props.C22_starts_at_zero",
    "Welleng.Props.C22_projection_partial",
    "Welleng.Props.C22_bounded_by_horizontal_path",
    "Welleng.Props.C22_planar_well_partial",
    "Welleng.Props.C22_sign_flips_across_north",
    "Welleng.Props.C22_kickoff_from_vertical"
   ],
   "note": "False of the code across north and when kicking off from vertical (two witness families). Proved: equals the projection whenever each leg points along its mean azimuth, in particular for wells in one vertical plane; bounded by the horizontal path length for every survey."
  },
  {
   "property": "C23",
   "status": "proved",
   "theorems": [
    "Welleng.Props.C23_source_cov",
    "Welleng.Props.C23_any_source_cov",
    "Welleng.Props.C23_total_cov"
   ],
   "note": "Symmetric positive semidefinite for every single source and for the total, any tool model."
  },
  {
   "property": "C24",
   "status": "proved",
   "theorems": [
    "Welleng.Props.C24_partition"
   ],
   "note": ""
  },
  {
   "property": "C25",
   "status": "proved",
   "theorems": [
    "Welleng.Props.C25_magnitude_squared",
    "Welleng.Props.C25_magnitude_squared_formula"
   ],
   "note": "Every built-in source function and every formula term."
  },
  {
   "property": "C26",
   "status": "partial",
   "theorems": [
    "Welleng.Props.C26_partials_lower_partial",
    "Welleng.Props.C26_partials_upper",
    "Welleng.Props.C26_first_interval_wrong"
   ],
   "note": "False of the code at the first interval for models that are not rev4 (C26_first_interval_wrong: the north inclination partial is doubled). Everywhere else the table is the derivative of the balanced-tangential step."
  },
  {
   "property": "C27",
   "status": "proved",
   "theorems": [
    "Welleng.Props.C27_fused_table"
   ],
   "note": ""
  },
  {
   "property": "C28",
   "status": "partial",
   "theorems": [
    "Welleng.Props.C28_modes_contribute_partial",
    "Welleng.Props.C28_well_mode_fails"
   ],
   "note": "False of the code for the well-by-well mode (C28_well_mode_fails: the model cannot be loaded); the other modes contribute."
  },
  {
   "property": "C29",
   "status": "proved",
   "theorems": [
    "Welleng.Props.C29_accepts_exactly_arithmetic",
    "Welleng.Props.C29_effects",
    "Welleng.Props.C29_json_unshadowed"
   ],
   "note": "The validator accepts exactly the arithmetic formulas, and evaluating one with the bindings of the JSON path only does arithmetic and calls listed functions."
  },
  {
   "property": "C30",
   "status": "proved",
   "theorems": [
    "Welleng.Props.C30_boundary_positive",
    "Welleng.Props.C30_sf_masd_eou",
    "Welleng.Props.C30_monotone_geometry",
    "Welleng.Props.C30_monotone_sigma",
    "Welleng.Props.C30_overlap_sigma_raises_sf"
   ],
   "note": "Also shown: with overlapping bores more uncertainty raises SF (C30_overlap_sigma_raises_sf), so the overlap condition is needed."
  },
  {
   "property": "C31",
   "status": "proved",
   "theorems": [
    "Welleng.Props.C31_root_defined",
    "Welleng.Props.C31_direction",
    "Welleng.Props.C31_symmetric",
    "Welleng.Props.C31_bounded",
    "Welleng.Props.C31_interpolated"
   ],
   "note": "Largest axis is stated as a bound on the variance in every direction. Includes interpolated covariances."
  },
  {
   "property": "C32",
   "status": "partial",
   "theorems": [
    "Welleng.Props.C32_zero_at_kop",
    "Welleng.Props.C32_cov_below_kop_partial",
    "Welleng.Props.C32_regular_source",
    "Welleng.Props.C32_negative_variance",
    "Welleng.Props.C32_given_cov_not_restarted",
    "Welleng.Props.C32_ref_sigma"
   ],
   "note": "False of the code in two ways: given covariances are not restarted (C32_given_cov_not_restarted), and a random source can leave a negative variance (C32_negative_variance). Zero at the kick-off point is proved for every error model; non-negativity when random non-depth sources are proportional at the kick-off station, which C32_regular_source shows for sources without a depth part."
  },
  {
   "property": "C33",
   "status": "proved",
   "theorems": [
    "Welleng.Props.C33_watertight"
   ],
   "note": "For every ring count and size."
  },
  {
   "property": "C34",
   "status": "partial",
   "theorems": [
    "Welleng.Props.C34_never_oriented"
   ],
   "note": "False of the code for every size (C34_never_oriented)."
  },
  {
   "property": "C35",
   "status": "proved",
   "theorems": [
    "Welleng.Props.C35_curve_hold_reaches_target",
    "Welleng.Props.C35_straight_ahead"
   ],
   "note": "All unit start directions, radii > 0 and targets (a ahead, b>0 to the side, b != 2R) outside the turning circle; exact real arithmetic. The excluded diameter case is C73."
  },
  {
   "property": "C36",
   "status": "proved",
   "theorems": [
    "Welleng.Props.C36_single_curve_reaches_target",
    "Welleng.Props.C36_radius_unique",
    "Welleng.Props.C36_radius_largest"
   ],
   "note": "Exact real arithmetic; a target level with the start (a = 0) is excluded because the code then evaluates tan(pi/2)."
  },
  {
   "property": "C37",
   "status": "proved",
   "theorems": [
    "Welleng.Props.C37_accepted_iff",
    "Welleng.Props.C37_overspecified_rejected",
    "Welleng.Props.C37_method"
   ],
   "note": "decide over the whole finite input space (2048 cases), no sampling."
  },
  {
   "property": "C38",
   "status": "proved",
   "theorems": [
    "Welleng.Props.C38_hold",
    "Welleng.Props.C38_curve_hold",
    "Welleng.Props.C38_curve_to_position",
    "Welleng.Props.C38_curve_to_direction",
    "Welleng.Props.C38_curve_to_direction_any_sign",
    "Welleng.Props.C38_curve_hold_curve",
    "Welleng.Props.C38_curve_hold_geometry"
   ],
   "note": "Every method: hold, curve-hold, single curve to a position, curve to a direction, curve-hold-curve (the depths written by _happy_finish/_project_tangent, whatever the iterative solver found). dogleg > 0 assumed for the curve to a direction (dogleg 0 is the hold method)."
  },
  {
   "property": "C39",
   "status": "proved",
   "theorems": [
    "Welleng.Props.C39_hold_grid",
    "Welleng.Props.C39_curve_grid"
   ],
   "note": "Exact real arithmetic for np.arange."
  },
  {
   "property": "C40",
   "status": "proved",
   "theorems": [
    "Welleng.Props.C40_directions_on_arc",
    "Welleng.Props.C40_unit_in_plane"
   ],
   "note": "The turn above pi is C75."
  },
  {
   "property": "C41",
   "status": "proved",
   "theorems": [
    "Welleng.Props.C41_off_bottom",
    "Welleng.Props.C41_drilling",
    "Welleng.Props.C41_overpull",
    "Welleng.Props.C41_torque"
   ],
   "note": "For get_forces_and_torsion applied to any arrays. Through the constructor the arrays never exist (C42)."
  },
  {
   "property": "C42",
   "status": "partial",
   "theorems": [
    "Welleng.Props.C42_never_constructed",
    "Welleng.Props.C42_type_error"
   ],
   "note": "False: construction always raises (C42_never_constructed), a TypeError for every valid non-empty string (C42_type_error), because the bottoms are read from the integer keys of the section dictionary. There is no true part."
  },
  {
   "property": "C43",
   "status": "partial",
   "theorems": [
    "Welleng.Props.C43_one_attribute_partial",
    "Welleng.Props.C43_or_members_partial",
    "Welleng.Props.C43_and_only_first",
    "Welleng.Props.C43_and_wrong",
    "Welleng.Props.C43_or_twice"
   ],
   "note": "False with two or more attributes: AND returns every element matching the first one (C43_and_only_first, C43_and_wrong) and both logics repeat elements (C43_or_twice). Proved for at most one attribute, and OR returns the right set."
  },
  {
   "property": "C44",
   "status": "partial",
   "theorems": [
    "Welleng.Props.C44_first_query_partial",
    "Welleng.Props.C44_second_query",
    "Welleng.Props.C44_witness"
   ],
   "note": "False: the default list persists, so a query also returns the ancestors of earlier queries (C44_second_query, C44_witness). Proved for the first query."
  },
  {
   "property": "C45",
   "status": "partial",
   "theorems": [
    "Welleng.Props.C45_tied_survey_partial",
    "Welleng.Props.C45_untied_is_empty",
    "Welleng.Props.C45_root_missing",
    "Welleng.Props.C45_tie_on_twice"
   ],
   "note": "False: an untied survey is empty (C45_untied_is_empty), the root of the chain is missing (C45_root_missing), tie-on stations occur twice (C45_tie_on_twice). Proved: exactly which stations are returned, and their order."
  },
  {
   "property": "C46",
   "status": "partial",
   "theorems": [
    "Welleng.Props.C46_strip_partial",
    "Welleng.Props.C46_constant_inclination",
    "Welleng.Props.C46_witness"
   ],
   "note": "False: only inclinations are compared, so stations that differ in azimuth or depth are removed (C46_constant_inclination, C46_witness). Proved: the result is a sublist that keeps the ends, and exactly which stations are dropped."
  },
  {
   "property": "C47",
   "status": "proved",
   "theorems": [
    "Welleng.Props.C47_terminates",
    "Welleng.Props.C47_partition",
    "Welleng.Props.C47_one_header",
    "Welleng.Props.C47_keyword_merges"
   ],
   "note": "Line level model: the payload check of each record is a parameter. The restriction on keyword lines is needed (C47_keyword_merges)."
  },
  {
   "property": "C48",
   "status": "partial",
   "theorems": [
    "Welleng.Props.C48_volumes_partial",
    "Welleng.Props.C48_mixture_density",
    "Welleng.Props.C48_too_light",
    "Welleng.Props.C48_unknown_material"
   ],
   "note": "False: the added volume is divided by the density of the solids alone, so the mixture of the computed fractions weighs less than the fluid asked for (C48_mixture_density, C48_too_light). Proved: the fractions add to one and are not negative."
  },
  {
   "property": "C49",
   "status": "partial",
   "theorems": [
    "Welleng.Props.C49_polygon_fails",
    "Welleng.Props.C49_shapes_partial",
    "Welleng.Props.C49_rejects"
   ],
   "note": "False for 'polygon', which no arguments construct (C49_polygon_fails). Proved for the other shapes, both acceptance and rejection."
  },
  {
   "property": "C50",
   "status": "proved",
   "theorems": [
    "Welleng.Props.C50_newest",
    "Welleng.Props.C50_none"
   ],
   "note": "Matching a cell with the revision pattern is a parameter."
  },
  {
   "property": "C51",
   "status": "partial",
   "theorems": [
    "Welleng.Props.C51_collision",
    "Welleng.Props.C51_distinct_partial"
   ],
   "note": "False when XCLA and XCLL are both present (C51_collision). Proved otherwise, for distinct codes."
  },
  {
   "property": "C52",
   "status": "proved",
   "theorems": [
    "Welleng.Props.C52_rows",
    "Welleng.Props.C52_stations",
    "Welleng.Props.C52_per_term"
   ],
   "note": "Lines are given after matching with the two patterns."
  },
  {
   "property": "C53",
   "status": "partial",
   "theorems": [
    "Welleng.Props.C53_complete_accurate_partial",
    "Welleng.Props.C53_complete_accurate_is_false",
    "Welleng.Props.C53_complete_accurate_bottom_up_partial"
   ],
   "note": "False of the code (negative-length section after completion): C53_complete_accurate_is_false. Holds when every section has top <= bottom."
  },
  {
   "property": "C54",
   "status": "partial",
   "theorems": [
    "Welleng.Props.C54_default_length_fails_on_empty",
    "Welleng.Props.C54_top_argument_always_fails",
    "Welleng.Props.C54_default_extends_to_top_partial"
   ],
   "note": "False of the code: giving top always raises UnboundLocalError, giving neither raises KeyError on an empty string. The length form is C04_build; the default works on a non-empty incomplete string."
  },
  {
   "property": "C55",
   "status": "partial",
   "theorems": [
    "Welleng.Props.C55_rounding_error_bound",
    "Welleng.Props.C55_rounded_seconds_can_reach_sixty"
   ],
   "note": "Error bound proved; seconds can be reported as 60 (C55_rounded_seconds_can_reach_sixty)."
  },
  {
   "property": "C56",
   "status": "partial",
   "theorems": [
    "Welleng.Props.C56_vertical_azimuth_overwritten",
    "Welleng.Props.C56_query_harmless_partial"
   ],
   "note": "False of the code at exactly vertical stations (C56_vertical_azimuth_overwritten); everything else is unchanged."
  },
  {
   "property": "C57",
   "status": "partial",
   "theorems": [
    "Welleng.Props.C57_splice_rejects",
    "Welleng.Props.C57_single_magnetic"
   ],
   "note": "False of the code (C57_splice_rejects, C57_single_magnetic); the working case is C20."
  },
  {
   "property": "C58",
   "status": "partial",
   "theorems": [
    "Welleng.Props.C58_slice_keeps_grid_azimuths_partial",
    "Welleng.Props.C58_slice_turns_the_well"
   ],
   "note": "False of the code for true and magnetic references (C58_slice_turns_the_well gives the exact turn); holds for grid."
  },
  {
   "property": "C59",
   "status": "partial",
   "theorems": [
    "Welleng.Props.C59_systematic_is_first_order_partial",
    "Welleng.Props.C59_first_order_fails_other_models"
   ],
   "note": "Proved for rev4 models; false for the others (C59_first_order_fails_other_models)."
  },
  {
   "property": "C60",
   "status": "partial",
   "theorems": [
    "Welleng.Props.C60_unit_independent_partial",
    "Welleng.Props.C60_abiz_depends_on_unit"
   ],
   "note": "Proved for every source but ABIZ, where it is false (C60_abiz_depends_on_unit)."
  },
  {
   "property": "C61",
   "status": "partial",
   "theorems": [
    "Welleng.Props.C61_causal_partial",
    "Welleng.Props.C61_last_vertical_station_wrong"
   ],
   "note": "False for five sources at a near-vertical last station (C61_last_vertical_station_wrong); proved in every other case."
  },
  {
   "property": "C62",
   "status": "partial",
   "theorems": [
    "Welleng.Props.C62_turn_level_partial",
    "Welleng.Props.C62_turn_single_partial",
    "Welleng.Props.C62_turn_pair_partial",
    "Welleng.Props.C62_sag_not_equivariant",
    "Welleng.Props.C62_xym34e_not_equivariant",
    "Welleng.Props.C62_turn_lateral_partial",
    "Welleng.Props.C62_lateral_not_equivariant"
   ],
   "note": "Proved for rev4 models: eleven single sources, the XYM3/XYM4 pair, and the XYM3L/XYM4L pair with random propagation when the second station is not near vertical or the first two intervals have the same coefficient (C62_turn_lateral_partial); for all models the seven of these single sources without an error of inclination (C62_turn_level_partial). False for the XYM3L/XYM4L pair otherwise (C62_lateral_not_equivariant), for the other single sources in other models (C62_sag_not_equivariant) and for the XYM3E/XYM4E pair (C62_xym34e_not_equivariant)."
  },
  {
   "property": "C63",
   "status": "partial",
   "theorems": [
    "Welleng.Props.C63_term_silently_dropped",
    "Welleng.Props.C63_gyro_noise_dropped",
    "Welleng.Props.C63_all_terms_partial",
    "Welleng.Props.C63_same_name_dropped"
   ],
   "note": "False of the code: a term whose formula mentions a name the interpreter does not bind contributes zero with only a warning (C63_term_silently_dropped), as GXY-RN of the shipped GYRO-NS does (C63_gyro_noise_dropped).  Of two terms with one name only the second is evaluated (C63_same_name_dropped); with distinct names every term is, once and in order (C63_all_terms_partial)."
  },
  {
   "property": "C64",
   "status": "proved",
   "theorems": [
    "Welleng.Props.C64_dls_is_turn_rate",
    "Welleng.Props.C64_repeated_depth"
   ],
   "note": ""
  },
  {
   "property": "C65",
   "status": "partial",
   "theorems": [
    "Welleng.Props.C65_formula_is_pure_partial",
    "Welleng.Props.C65_formula_overwrites_survey"
   ],
   "note": "False of the code: sin(Inc, Inc) is accepted and overwrites the inclinations (C65_formula_overwrites_survey). Proved when every call has the number of arguments of the mathematical function."
  },
  {
   "property": "C66",
   "status": "partial",
   "theorems": [
    "Welleng.Props.C66_mesh_sf_unrounded_partial",
    "Welleng.Props.C66_collision_reported_as_one"
   ],
   "note": "False after rounding to two decimals (C66_collision_reported_as_one). Before rounding it is proved for mesh distances below the centre distance."
  },
  {
   "property": "C67",
   "status": "partial",
   "theorems": [
    "Welleng.Props.C67_grid_tail_partial",
    "Welleng.Props.C67_tail_azimuth_shifted",
    "Welleng.Props.C67_tail_differs"
   ],
   "note": "False for true and magnetic headers (C67_tail_azimuth_shifted); proved for grid headers."
  },
  {
   "property": "C68",
   "status": "partial",
   "theorems": [
    "Welleng.Props.C68_objective_is_sf_plus_margin_partial",
    "Welleng.Props.C68_objective_differs"
   ],
   "note": "False of the code when the surface margin is not zero (C68_objective_differs); the exact difference is proved."
  },
  {
   "property": "C69",
   "status": "proved",
   "theorems": [
    "Welleng.Props.C69_ring_plane",
    "Welleng.Props.C69_circle",
    "Welleng.Props.C69_ellipse",
    "Welleng.Props.C69_pedal"
   ],
   "note": "The eigen-decomposition of the covariance is an input."
  },
  {
   "property": "C70",
   "status": "partial",
   "theorems": [
    "Welleng.Props.C70_rows_partial",
    "Welleng.Props.C70_odd_pedal_loses_rows"
   ],
   "note": "False of the code for the pedal-curve method with an odd vertex count (C70_odd_pedal_loses_rows); proved otherwise."
  },
  {
   "property": "C71",
   "status": "partial",
   "theorems": [
    "Welleng.Props.C71_alignment_keeps_ring",
    "Welleng.Props.C71_same_sense_not_reversed_partial",
    "Welleng.Props.C71_small_ring_reversed",
    "Welleng.Props.C71_reversed_ring_shifted"
   ],
   "note": "False of the code: rings of four or five vertices are wrongly reversed (C71_small_ring_reversed) and reversed rings start one place off (C71_reversed_ring_shifted). Proved: cyclic order is kept, and rings of six or more vertices in the same sense are aligned."
  },
  {
   "property": "C72",
   "status": "partial",
   "theorems": [
    "Welleng.Props.C72_ring_reach_partial",
    "Welleng.Props.C72_ring_too_small"
   ],
   "note": "False of the code in oblique directions (C72_ring_too_small); exact on the axes and never more than claimed elsewhere."
  },
  {
   "property": "C73",
   "status": "partial",
   "theorems": [
    "Welleng.Props.C73_diameter_not_reached"
   ],
   "note": "False: a target exactly one diameter to the side (a > 0) gets dogleg 0 and a path shorter than the straight distance (C73_diameter_not_reached, for every radius and a > 0). All other targets: C35."
  },
  {
   "property": "C74",
   "status": "partial",
   "theorems": [
    "Welleng.Props.C74_design_radius_partial",
    "Welleng.Props.C74_critical_radius_partial",
    "Welleng.Props.C74_gap_not_reached",
    "Welleng.Props.C74_ahead_moved"
   ],
   "note": "False in the tolerance gap (1-min_error)Rc < R < Rc (C74_gap_not_reached) and for a target exactly ahead, which is moved at random (C74_ahead_moved). Proved outside these for R <= (1-min_error)Rc with b != 2R and for R >= Rc with a != 0."
  },
  {
   "property": "C75",
   "status": "partial",
   "theorems": [
    "Welleng.Props.C75_reflex_ends_elsewhere",
    "Welleng.Props.C75_witness",
    "Welleng.Props.C75_up_to_half_turn_partial"
   ],
   "note": "False for every dogleg between pi and 2 pi (C75_reflex_ends_elsewhere), and the solver returns such doglegs (C75_witness). Proved up to half a turn."
  },
  {
   "property": "C76",
   "status": "partial",
   "theorems": [
    "Welleng.Props.C76_curve_hold_partial",
    "Welleng.Props.C76_curve_hold_curve_partial",
    "Welleng.Props.C76_zero_hold_duplicates",
    "Welleng.Props.C76_zero_final_hold"
   ],
   "note": "False for a hold of zero length (C76_zero_hold_duplicates, C76_zero_final_hold). Proved when every section has positive length."
  },
  {
   "property": "C77",
   "status": "partial",
   "theorems": [
    "Welleng.Props.C77_azimuth_and_position",
    "Welleng.Props.C77_azimuth_not_honoured",
    "Welleng.Props.C77_full_direction_partial"
   ],
   "note": "False: azimuth with position always takes the curve-hold construction, which ignores it (C77_azimuth_not_honoured). Proved: with a full direction the method is curve-hold-curve or a hold along that direction."
  },
  {
   "property": "C78",
   "status": "proved",
   "theorems": [
    "Welleng.Props.C78_rotating_is_hanging_weight",
    "Welleng.Props.C78_drilling_is_hanging_weight"
   ],
   "note": "For arrays of equal length, as the code intends them."
  },
  {
   "property": "C79",
   "status": "proved",
   "theorems": [
    "Welleng.Props.C79_cases_independent",
    "Welleng.Props.C79_wob_needs_tob"
   ],
   "note": ""
  },
  {
   "property": "C80",
   "status": "partial",
   "theorems": [
    "Welleng.Props.C80_profile_partial",
    "Welleng.Props.C80_uniform_partial",
    "Welleng.Props.C80_radius_reversed"
   ],
   "note": "False: the radius array is not reversed with the others (C80_radius_reversed). Proved when the radii read the same in both directions, in particular for one diameter throughout."
  },
  {
   "property": "C81",
   "status": "partial",
   "theorems": [
    "Welleng.Props.C81_turn_partial",
    "Welleng.Props.C81_turn_changes_forces"
   ],
   "note": "False: azimuth differences are not reduced across north (C81_turn_changes_forces). Proved when no azimuth wraps."
  },
  {
   "property": "C82",
   "status": "partial",
   "theorems": [
    "Welleng.Props.C82_stations_partial",
    "Welleng.Props.C82_duplicate_station"
   ],
   "note": "False: a depth that bottoms both a string and a wellbore section off the survey stations is added twice (C82_duplicate_station). Proved: order, completeness. interpolate_md is an argument assumed to return a station at the requested depth."
  },
  {
   "property": "C83",
   "status": "proved",
   "theorems": [
    "Welleng.Props.C83_buoyed_weight"
   ],
   "note": ""
  },
  {
   "property": "C84",
   "status": "proved",
   "theorems": [
    "Welleng.Props.C84_friction_range",
    "Welleng.Props.C84_depth_range"
   ],
   "note": "Exact real arithmetic for np.arange."
  },
  {
   "property": "C85",
   "status": "partial",
   "theorems": [
    "Welleng.Props.C85_distinct_names_partial",
    "Welleng.Props.C85_same_name_lost"
   ],
   "note": "False when two wellbores share a name (C85_same_name_lost). Proved for distinct names."
  },
  {
   "property": "C86",
   "status": "partial",
   "theorems": [
    "Welleng.Props.C86_with_ancestors_partial",
    "Welleng.Props.C86_root_twice"
   ],
   "note": "False for a wellbore without ancestors: each element of the well (CD_WELL, CD_DATUM) is listed exactly twice, whatever the tags (C86_root_twice). With ancestors, proved for any tags: the wellbore's own elements, then those of the well, then the ancestors' surveys, each once."
  },
  {
   "property": "C87",
   "status": "proved",
   "theorems": [
    "Welleng.Props.C87_tables"
   ],
   "note": ""
  },
  {
   "property": "C88",
   "status": "partial",
   "theorems": [
    "Welleng.Props.C88_single_row_partial",
    "Welleng.Props.C88_only_last_row",
    "Welleng.Props.C88_last_row_partial"
   ],
   "note": "False: only the last row of a tag is kept (C88_only_last_row). Proved: for any document, exactly the last row of each tag that belongs to the group is kept (C88_last_row_partial), hence the row when there is a single one."
  },
  {
   "property": "C89",
   "status": "partial",
   "theorems": [
    "Welleng.Props.C89_blank_line_fails",
    "Welleng.Props.C89_geometry_fails",
    "Welleng.Props.C89_plain_file_partial"
   ],
   "note": "False: any blank line (C89_blank_line_fails) and any target geometry line (C89_geometry_fails) raises. Proved for files with neither."
  },
  {
   "property": "C90",
   "status": "partial",
   "theorems": [
    "Welleng.Props.C90_header_round_trip_partial",
    "Welleng.Props.C90_long_name"
   ],
   "note": "False for names over 60 characters: the excess spills into the next column (C90_long_name). Proved when each field fits its column and has no surrounding blanks."
  },
  {
   "property": "C91",
   "status": "partial",
   "theorems": [
    "Welleng.Props.C91_no_sidetrack_fails",
    "Welleng.Props.C91_sidetrack_partial"
   ],
   "note": "False when the side track id is blank, the usual case for a main bore: it is read as None and formatting None raises (C91_no_sidetrack_fails). Proved with an id."
  },
  {
   "property": "C92",
   "status": "proved",
   "theorems": [
    "Welleng.Props.C92_units",
    "Welleng.Props.C92_codes"
   ],
   "note": ""
  },
  {
   "property": "C93",
   "status": "partial",
   "theorems": [
    "Welleng.Props.C93_mass_balance_partial",
    "Welleng.Props.C93_surface",
    "Welleng.Props.C93_unweighted_fails"
   ],
   "note": "False for a fluid without weighting material: the profile raises below the surface (C93_unweighted_fails). Proved for the objective when the solids fraction is not zero and the liquids stay of positive, non-constant density; that the optimiser finds the zero is not modelled."
  },
  {
   "property": "C94",
   "status": "partial",
   "theorems": [
    "Welleng.Props.C94_circle_partial",
    "Welleng.Props.C94_others_fail"
   ],
   "note": "False: only circles can be drawn (C94_others_fail)."
  },
  {
   "property": "C95",
   "status": "partial",
   "theorems": [
    "Welleng.Props.C95_verdict_partial",
    "Welleng.Props.C95_zero_row_passes"
   ],
   "note": "False: components whose expected value is zero are left out of the relative error, so an all-zero row always passes (C95_zero_row_passes). Proved when no expected value is zero."
  },
  {
   "property": "C96",
   "status": "partial",
   "theorems": [
    "Welleng.Props.C96_exit_partial",
    "Welleng.Props.C96_compared",
    "Welleng.Props.C96_missing_sources"
   ],
   "note": "False: rows of sources that welleng does not have, or at depths that are not stations, are skipped (C96_compared, C96_missing_sources). Proved: zero exactly when every compared row passes."
  },
  {
   "property": "C97",
   "status": "proved",
   "theorems": [
    "Welleng.Props.C97_match",
    "Welleng.Props.C97_not_random"
   ],
   "note": "The interpreter's values are a parameter (modelled in C29)."
  },
  {
   "property": "C98",
   "status": "proved",
   "theorems": [
    "Welleng.Props.C98_solution_exists",
    "Welleng.Props.C98_axial_sensors",
    "Welleng.Props.C98_cross_axial_accelerometer_bias",
    "Welleng.Props.C98_cross_axial_magnetometer_bias",
    "Welleng.Props.C98_cross_axial_accelerometer_scale",
    "Welleng.Props.C98_cross_axial_magnetometer_scale"
   ],
   "note": "Every differentiable solution of the six-sensor survey equations has the modelled weights as derivative; C98_solution_exists shows such solutions exist (0 < inc < pi)."
  },
  {
   "property": "C99",
   "status": "proved",
   "theorems": [
    "Welleng.Props.C99_cross_axial_accelerometer_bias",
    "Welleng.Props.C99_cross_axial_magnetometer_bias",
    "Welleng.Props.C99_axial_scale_and_reference",
    "Welleng.Props.C99_cross_axial_accelerometer_scale",
    "Welleng.Props.C99_cross_axial_magnetometer_scale",
    "Welleng.Props.C99_solution_exists"
   ],
   "note": "Same for the corrected equations; existence of a solution by the implicit function theorem."
  },
  {
   "property": "C100",
   "status": "partial",
   "theorems": [
    "Welleng.Props.C100_axial_bias_partial",
    "Welleng.Props.C100_axial_bias_not_sensitivity"
   ],
   "note": "False of the code: the denominator is divided by G instead of multiplied, so the azimuth weight is G^2 (about 96) times the sensitivity (C100_axial_bias_not_sensitivity). Proved: the inclination weight is right and the azimuth weight divided by G^2 is the sensitivity while the denominator is above its limit."
  },
  {
   "property": "C101",
   "status": "proved",
   "theorems": [
    "Welleng.Props.C101_covariance_interpolated"
   ],
   "note": "Stated for the covariance carried by the interpolated survey row."
  },
  {
   "property": "C102",
   "status": "proved",
   "theorems": [
    "Welleng.Props.C102_toolface_is_turn_direction",
    "Welleng.Props.C102_arc_exists"
   ],
   "note": ""
  },
  {
   "property": "C103",
   "status": "partial",
   "theorems": [
    "Welleng.Props.C103_last_station_partial",
    "Welleng.Props.C103_same_severity_partial",
    "Welleng.Props.C103_mixes_intervals"
   ],
   "note": "False: the severity listed at a station is that of the interval above, the toolface that of the interval below, so the rates mix two intervals (C103_mixes_intervals). Proved at the last station and wherever the severity is the same above and below."
  },
  {
   "property": "C104",
   "status": "proved",
   "theorems": [
    "Welleng.Props.C104_rates_compose",
    "Welleng.Props.C104_vertical_station"
   ],
   "note": "Infinite severity (repeated depth with a change of direction) is excluded."
  },
  {
   "property": "C105",
   "status": "proved",
   "theorems": [
    "Welleng.Props.C105_projection_is_arc",
    "Welleng.Props.C105_vertical_from_north",
    "Welleng.Props.C105_hold",
    "Welleng.Props.C105_round_trip"
   ],
   "note": ""
  },
  {
   "property": "C106",
   "status": "partial",
   "theorems": [
    "Welleng.Props.C106_continues_arc_partial",
    "Welleng.Props.C106_continues_hold_partial",
    "Welleng.Props.C106_feet_turns_too_fast",
    "Welleng.Props.C106_feet_witness",
    "Welleng.Props.C106_vertical_witness"
   ],
   "note": "False in feet, where deg/100 ft is used as deg/30 (C106_feet_turns_too_fast, C106_feet_witness), and at a vertical last station, where toolface and projection use different references (C106_vertical_witness). Proved in metres for a non-vertical last station, and after a hold."
  },
  {
   "property": "C107",
   "status": "proved",
   "theorems": [
    "Welleng.Props.C107_fast_agrees",
    "Welleng.Props.C107_toolface_points_at_target",
    "Welleng.Props.C107_every_point_off_axis"
   ],
   "note": "The meaning of the angle is stated for non-vertical directions; agreement for all."
  },
  {
   "property": "C108",
   "status": "proved",
   "theorems": [
    "Welleng.Props.C108_arc",
    "Welleng.Props.C108_arc_to_target",
    "Welleng.Props.C108_toolface_round_trip"
   ],
   "note": "Forward arc and round trip for non-vertical directions; arrival for all unit directions."
  },
  {
   "property": "C109",
   "status": "partial",
   "theorems": [
    "Welleng.Props.C109_inputs_kept_partial",
    "Welleng.Props.C109_target_reverses_input",
    "Welleng.Props.C109_second_call_differs"
   ],
   "note": "False with target=True, which reverses the caller's direction in place (C109_target_reverses_input, C109_second_call_differs). Proved otherwise."
  },
  {
   "property": "C110",
   "status": "proved",
   "theorems": [
    "Welleng.Props.C110_clc_path"
   ],
   "note": "For non-vertical directions at the start of each arc."
  },
  {
   "property": "C111",
   "status": "partial",
   "theorems": [
    "Welleng.Props.C111_lower_centre_partial",
    "Welleng.Props.C111_upper_centre_partial",
    "Welleng.Props.C111_centres_differ"
   ],
   "note": "False of the upper centre, which uses the radius of the interval above (C111_centres_differ; C111_upper_centre_partial gives the exact condition). Proved of the lower centre."
  },
  {
   "property": "C112",
   "status": "proved",
   "theorems": [
    "Welleng.Props.C112_volume_is_integral",
    "Welleng.Props.C112_additive",
    "Welleng.Props.C112_sign"
   ],
   "note": ""
  },
  {
   "property": "C113",
   "status": "partial",
   "theorems": [
    "Welleng.Props.C113_depth_partial",
    "Welleng.Props.C113_wrong_depth"
   ],
   "note": "False in general: if the requested depth is that of the point of the interval's circle opposite its upper station, atan2(0,0) adds a spurious root and the upper station is returned (C113_wrong_depth). Proved for every other depth, inside or outside the survey. node_origin is treated in C314."
  },
  {
   "property": "C114",
   "status": "proved",
   "theorems": [
    "Welleng.Props.C114_found"
   ],
   "note": "The solver equation is shown equivalent to the depth of the arc; existence by the intermediate value theorem."
  },
  {
   "property": "C115",
   "status": "partial",
   "theorems": [
    "Welleng.Props.C115_within_partial",
    "Welleng.Props.C115_extrapolates"
   ],
   "note": "False: on a straight last interval depths below TD and above the start are extrapolated silently (C115_extrapolates). Proved when intervals are curved; C114 covers depths in range."
  },
  {
   "property": "C116",
   "status": "proved",
   "theorems": [
    "Welleng.Props.C116_tortuosity_index",
    "Welleng.Props.C116_modified_index"
   ],
   "note": "The outcome of the tolerance tests that cut the well is a parameter."
  },
  {
   "property": "C117",
   "status": "proved",
   "theorems": [
    "Welleng.Props.C117_not_negative"
   ],
   "note": "Survey positions are those of the modelled minimum-curvature survey (grid scale factor 1)."
  },
  {
   "property": "C118",
   "status": "proved",
   "theorems": [
    "Welleng.Props.C118_modified_unit_free"
   ],
   "note": "For a given pattern of sections."
  },
  {
   "property": "C119",
   "status": "partial",
   "theorems": [
    "Welleng.Props.C119_scale",
    "Welleng.Props.C119_same_with_coeff_partial",
    "Welleng.Props.C119_unit_dependent"
   ],
   "note": "False with the default coeff (C119_unit_dependent): the index is inversely proportional to the unit ratio. Equal if coeff is given in the survey's unit."
  },
  {
   "property": "C120",
   "status": "proved",
   "theorems": [
    "Welleng.Props.C120_ddi"
   ],
   "note": ""
  },
  {
   "property": "C121",
   "status": "partial",
   "theorems": [
    "Welleng.Props.C121_scale_partial",
    "Welleng.Props.C121_unit_dependent"
   ],
   "note": "False: depths are always taken as metres, so a survey in feet gets an index larger by log10(1/0.3048). The exact dependence is proved."
  },
  {
   "property": "C122",
   "status": "proved",
   "theorems": [
    "Welleng.Props.C122_formula_value"
   ],
   "note": "Proved by induction over formulas against the relation Spec.Denotes. Reals stand for floats; division by zero and roots of negatives take Lean's totalised values (the code returns inf or nan)."
  },
  {
   "property": "C123",
   "status": "partial",
   "theorems": [
    "Welleng.Props.C123_units_partial",
    "Welleng.Props.C123_degrees_taken_as_radians"
   ],
   "note": "False for deg.nT and deg/sqr(hr): these magnitudes are used unconverted, 180/pi times too large (C123_degrees_taken_as_radians). True for every other unit declared in the shipped models."
  },
  {
   "property": "C124",
   "status": "proved",
   "theorems": [
    "Welleng.Props.C124_json_term"
   ],
   "note": "For all units except the two of C123. Text rewriting of the formulas is not modelled."
  },
  {
   "property": "C125",
   "status": "partial",
   "theorems": [
    "Welleng.Props.C125_propagation_partial",
    "Welleng.Props.C125_propagation_ignored"
   ],
   "note": "False: XYM2 is always propagated as systematic and XYM4L as random (C125_propagation_ignored). True for every other weighting function."
  },
  {
   "property": "C126",
   "status": "proved",
   "theorems": [
    "Welleng.Props.C126_ring_vertices"
   ],
   "note": "Ellipse and circle."
  },
  {
   "property": "C127",
   "status": "proved",
   "theorems": [
    "Welleng.Props.C127_control_points"
   ],
   "note": "Proved for the model of get_sections, including the tolerance test on normals."
  },
  {
   "property": "C128",
   "status": "partial",
   "theorems": [
    "Welleng.Props.C128_merged_arcs",
    "Welleng.Props.C128_rebuild_partial"
   ],
   "note": "False: with default settings two arcs of different severity in one plane become one section and the rebuilt well ends elsewhere (C128_merged_arcs). Proved when every section is a single arc or line."
  },
  {
   "property": "C129",
   "status": "proved",
   "theorems": [
    "Welleng.Props.C129_toolface"
   ],
   "note": "Single-interval sections. Across exactly opposite azimuths (difference -180) the sign is excluded."
  },
  {
   "property": "C130",
   "status": "proved",
   "theorems": [
    "Welleng.Props.C130_rates"
   ],
   "note": ""
  },
  {
   "property": "C131",
   "status": "partial",
   "theorems": [
    "Welleng.Props.C131_build_sign_partial",
    "Welleng.Props.C131_drop_exported_as_build"
   ],
   "note": "False: the absolute value is exported, so a dropping section has a positive build rate (C131_drop_exported_as_build). Proved for sections along which inclination does not decrease."
  },
  {
   "property": "C132",
   "status": "partial",
   "theorems": [
    "Welleng.Props.C132_severity_partial",
    "Welleng.Props.C132_merged_severity"
   ],
   "note": "False: the severity of the last interval is exported (C132_merged_severity). Proved when the section is one arc."
  },
  {
   "property": "C133",
   "status": "proved",
   "theorems": [
    "Welleng.Props.C133_straight"
   ],
   "note": "Doglegs below 180 degrees."
  },
  {
   "property": "C134",
   "status": "partial",
   "theorems": [
    "Welleng.Props.C134_wbp_to_survey_raises"
   ],
   "note": "False for every input: the second call of from_connections is given a Survey, which has no md1, and raises AttributeError (C134_wbp_to_survey_raises). The optional utm library call in between is not modelled; it can only raise earlier."
  },
  {
   "property": "C135",
   "status": "partial",
   "theorems": [
    "Welleng.Props.C135_contact_partial",
    "Welleng.Props.C135_wrong_side"
   ],
   "note": "False: the change of inclination is taken downhole but added to the weight, so the contact force is overstated in building and understated in dropping intervals (C135_wrong_side). Equal when the interval neither builds nor drops, without tension or without weight across the hole. First order in the change of direction, as in the code."
  },
  {
   "property": "C136",
   "status": "proved",
   "theorems": [
    "Welleng.Props.C136_contact_diameter"
   ],
   "note": ""
  },
  {
   "property": "C137",
   "status": "proved",
   "theorems": [
    "Welleng.Props.C137_stations_reached",
    "Welleng.Props.C137_bottom_not_a_station"
   ],
   "note": "For strictly increasing depths."
  },
  {
   "property": "C138",
   "status": "proved",
   "theorems": [
    "Welleng.Props.C138_legacy_entry",
    "Welleng.Props.C138_unknown_propagation"
   ],
   "note": "The unit contains 'deg' at most once; names of columns and cells as read by openpyxl."
  },
  {
   "property": "C139",
   "status": "proved",
   "theorems": [
    "Welleng.Props.C139_totals_by_name"
   ],
   "note": "The depth column is not modelled."
  },
  {
   "property": "C140",
   "status": "partial",
   "theorems": [
    "Welleng.Props.C140_validation_partial",
    "Welleng.Props.C140_order_of_columns"
   ],
   "note": "False: columns are taken in the order in which they stand, so exchanged columns are read as each other (C140_order_of_columns). Proved for sheets with the usual order."
  },
  {
   "property": "C141",
   "status": "partial",
   "theorems": [
    "Welleng.Props.C141_blocks_partial",
    "Welleng.Props.C141_block_replaced"
   ],
   "note": "False: a label that reads like the numbered name of another replaces its block (C141_block_replaced). Proved otherwise."
  },
  {
   "property": "C142",
   "status": "proved",
   "theorems": [
    "Welleng.Props.C142_blocks_apart"
   ],
   "note": ""
  },
  {
   "property": "C143",
   "status": "partial",
   "theorems": [
    "Welleng.Props.C143_listed_model_usable_partial",
    "Welleng.Props.C143_six_undefined"
   ],
   "note": "False: six of the 62 names have no definition and raise FileNotFoundError (C143_six_undefined). All others are usable."
  },
  {
   "property": "C144",
   "status": "partial",
   "theorems": [
    "Welleng.Props.C144_definition_partial",
    "Welleng.Props.C144_depends_on_listing"
   ],
   "note": "False: GYRO-NS is read from GYRO-NS.json or GYRO-NS_Fl.json depending on the directory order (C144_depends_on_listing). Proved for the other names; the five gyro names select a file with their model id."
  },
  {
   "property": "C145",
   "status": "partial",
   "theorems": [
    "Welleng.Props.C145_alias_partial",
    "Welleng.Props.C145_survey_refuses_alias"
   ],
   "note": "False: Survey refuses the name before it reaches the alias (C145_survey_refuses_alias). True of ErrorModel itself."
  },
  {
   "property": "C146",
   "status": "proved",
   "theorems": [
    "Welleng.Props.C146_inclination_range"
   ],
   "note": "For surveys with at least one station. The lower end of the range is 0 in every shipped model and is not read."
  },
  {
   "property": "C147",
   "status": "partial",
   "theorems": [
    "Welleng.Props.C147_diagnostics_partial",
    "Welleng.Props.C147_no_sources",
    "Welleng.Props.C147_repeated_depth"
   ],
   "note": "False without sources, as for ZERO-ERROR (C147_no_sources), and for repeated depths (C147_repeated_depth). Proved otherwise."
  },
  {
   "property": "C148",
   "status": "proved",
   "theorems": [
    "Welleng.Props.C148_header_unit_free",
    "Welleng.Props.C148_header_in_radians",
    "Welleng.Props.C148_field_values"
   ],
   "note": "Header constructor modelled with the geomagnetic calculator as an arbitrary partial function."
  },
  {
   "property": "C149",
   "status": "partial",
   "theorems": [
    "Welleng.Props.C149_vertical_limit_partial",
    "Welleng.Props.C149_default_limit"
   ],
   "note": "False of the code: the default 0.0001 is documented in degrees but taken as radians when deg=False, a limit more than 50 times larger. Proved: an explicit limit is converted correctly."
  },
  {
   "property": "C150",
   "status": "partial",
   "theorems": [
    "Welleng.Props.C150_date_kept_partial",
    "Welleng.Props.C150_date_replaced"
   ],
   "note": "False of the code: when the look-up at the given date raises, the retry calls _get_date(None), which overwrites survey_date with today. Proved: the date is kept without a calculator or when the look-up succeeds."
  },
  {
   "property": "C151",
   "status": "proved",
   "theorems": [
    "Welleng.Props.C151_header_accepted",
    "Welleng.Props.C151_position_kept"
   ],
   "note": "Date parsing is an arbitrary predicate on strings."
  },
  {
   "property": "C152",
   "status": "partial",
   "theorems": [
    "Welleng.Props.C152_survey_unit_partial",
    "Welleng.Props.C152_unit_refused"
   ],
   "note": "False of the code: unit='ft' and unit='m' are refused with every header, a survey in feet without a header is refused, and a header with an unknown unit is accepted although no survey can use it. Proved: which headers go with 'meters' and 'feet'."
  },
  {
   "property": "C153",
   "status": "partial",
   "theorems": [
    "Welleng.Props.C153_header_from_data_partial",
    "Welleng.Props.C153_properties_partial",
    "Welleng.Props.C153_data_not_converted"
   ],
   "note": "False of the code: values are stored as given, so degrees are not converted and the checks of the constructor are skipped. Proved: a header's own properties give that header back, and each attribute is the last value given or the default."
  },
  {
   "property": "C154",
   "status": "proved",
   "theorems": [
    "Welleng.Props.C154_node_from_angles",
    "Welleng.Props.C154_node_from_vector",
    "Welleng.Props.C154_axis_order",
    "Welleng.Props.C154_node_refused"
   ],
   "note": ""
  },
  {
   "property": "C155",
   "status": "partial",
   "theorems": [
    "Welleng.Props.C155_attributes_partial",
    "Welleng.Props.C155_azi_deg_missing"
   ],
   "note": "False of the code: azi_rad is assigned twice and azi_deg never, so reading azi_deg raises AttributeError. Proved: the other five attributes."
  },
  {
   "property": "C156",
   "status": "proved",
   "theorems": [
    "Welleng.Props.C156_radius"
   ],
   "note": ""
  },
  {
   "property": "C157",
   "status": "proved",
   "theorems": [
    "Welleng.Props.C157_closest_point"
   ],
   "note": "The optimiser is any function that stays in its bounds and is within a tolerance of the minimum."
  },
  {
   "property": "C158",
   "status": "partial",
   "theorems": [
    "Welleng.Props.C158_within_spacing_partial",
    "Welleng.Props.C158_closest_missed"
   ],
   "note": "False of the code: only the intervals at the nearest station are searched; with stations 100 m apart on one branch of a U-shaped well the report is 18 m where the well is 2 m away. Proved: the reported distance exceeds the smallest one by no more than half the largest station spacing."
  },
  {
   "property": "C159",
   "status": "partial",
   "theorems": [
    "Welleng.Props.C159_radius_argument_ignored",
    "Welleng.Props.C159_radii_partial"
   ],
   "note": "False of the code: a survey always has radii (one foot by default), so Rr and Ro are never used. Proved: radii given to the surveys are used; the offset radius is that of the nearest station, an end of the interval of the closest point."
  },
  {
   "property": "C160",
   "status": "proved",
   "theorems": [
    "Welleng.Props.C160_step",
    "Welleng.Props.C160_refined_reference"
   ],
   "note": "Depths strictly inside the well and not at a station; see C162 for the others."
  },
  {
   "property": "C161",
   "status": "partial",
   "theorems": [
    "Welleng.Props.C161_covariance_dropped",
    "Welleng.Props.C161_sf_not_understated_partial",
    "Welleng.Props.C161_sf_overstated"
   ],
   "note": "False of the code: get_node does not pass the covariance, so the added station has zero covariance and its separation factor leaves out the reference uncertainty (3 instead of 1.8 in the example). Proved: the reported value is never below the true one."
  },
  {
   "property": "C162",
   "status": "partial",
   "theorems": [
    "Welleng.Props.C162_kept_partial",
    "Welleng.Props.C162_wrong_test",
    "Welleng.Props.C162_station_twice"
   ],
   "note": "False of the code: the test compares with +delta_md[0] instead of -delta_md[0]; a minimum at the station above is added (the depth then occurs twice), one at the distance delta_md[0] below is dropped. Proved: all other cases."
  },
  {
   "property": "C163",
   "status": "partial",
   "theorems": [
    "Welleng.Props.C163_no_minimum_partial",
    "Welleng.Props.C163_feet_refused"
   ],
   "note": "False of the code: the refined survey is built without unit, so with a header in feet the first minimum found raises AssertionError. Proved: without a minimum the reference is kept."
  },
  {
   "property": "C164",
   "status": "partial",
   "theorems": [
    "Welleng.Props.C164_history",
    "Welleng.Props.C164_same_survey_partial",
    "Welleng.Props.C164_interpolation_changes_later_surveys"
   ],
   "note": "False of the code: interpolation sets azi_reference='grid' on the shared header; later surveys with true azimuths are wrong by the convergence. Proved: the state after any history, and that grid headers are safe."
  },
  {
   "property": "C165",
   "status": "proved",
   "theorems": [
    "Welleng.Props.C165_continuous_path"
   ],
   "note": "The iteration itself is not modelled: its results are arbitrary. The pieces are circular arcs when the turn is positive and below half a turn; the stored first turn is within 1e-9 of the angle between the directions and the arc statement is for the case that it equals it."
  },
  {
   "property": "C166",
   "status": "proved",
   "theorems": [
    "Welleng.Props.C166_reached_when_possible",
    "Welleng.Props.C166_nearest"
   ],
   "note": "For every state the solver may leave, as read from the stored path."
  },
  {
   "property": "C167",
   "status": "proved",
   "theorems": [
    "Welleng.Props.C167_never_worse"
   ],
   "note": "For every list of retry results, including failed ones."
  },
  {
   "property": "C168",
   "status": "proved",
   "theorems": [
    "Welleng.Props.C168_converged"
   ],
   "note": "The existence of a fixed point and the convergence of the iteration are not proved."
  },
  {
   "property": "C169",
   "status": "partial",
   "theorems": [
    "Welleng.Props.C169_retry_radius_ignored",
    "Welleng.Props.C169_retry_spoiled"
   ],
   "note": "False of the code: _happy_finish takes min(critical, design) and forgets the radius of the retry (C169_retry_radius_ignored); in the example a retry solved exactly at radius 1 is stored with radius 2 and misses by more than 0.3 (C169_retry_spoiled)."
  },
  {
   "property": "C170",
   "status": "partial",
   "theorems": [
    "Welleng.Props.C170_second_curve_sharper",
    "Welleng.Props.C170_first_curve_partial"
   ],
   "note": "False of the code: the second curve is re-placed with whatever radius reaches the target (1/2 for a design radius of 1 in the example, for a state the solver might leave before it has converged). Proved: the first curve has exactly the smaller of the two radii."
  },
  {
   "property": "C171",
   "status": "partial",
   "theorems": [
    "Welleng.Props.C171_metres_partial",
    "Welleng.Props.C171_feet",
    "Welleng.Props.C171_radians"
   ],
   "note": "False of the code: in feet the number is 0.3 of the design severity, and curve-hold-curve reports radians. Proved for metres and the other methods."
  },
  {
   "property": "C172",
   "status": "proved",
   "theorems": [
    "Welleng.Props.C172_no_depth",
    "Welleng.Props.C172_with_depth",
    "Welleng.Props.C172_close_depth",
    "Welleng.Props.C172_hold"
   ],
   "note": "All three branches and the hold; half turns are excluded (no unique plane)."
  },
  {
   "property": "C173",
   "status": "partial",
   "theorems": [
    "Welleng.Props.C173_sharper_than_design",
    "Welleng.Props.C173_room_partial"
   ],
   "note": "False of the code: a close target depth silently gives a sharper curve. Proved: without a depth or with room the radius is the design radius."
  },
  {
   "property": "C174",
   "status": "partial",
   "theorems": [
    "Welleng.Props.C174_near_partial",
    "Welleng.Props.C174_vertical_nan",
    "Welleng.Props.C174_axis_nan",
    "Welleng.Props.C174_shorter_than_straight"
   ],
   "note": "False of the code: from a start along an axis (every vertical start) the result is NaN for every target, and for an inclined start the reported length can be below the straight distance.  Proved: a delivered curve ends within twice the design radius of the start, at the point closest to the target on a sphere through the start."
  },
  {
   "property": "C175",
   "status": "partial",
   "theorems": [
    "Welleng.Props.C175_listing_partial",
    "Welleng.Props.C175_depth_negated"
   ],
   "note": "False of the code: the column documented as TVD is minus the vertical depth. Proved for the other columns."
  },
  {
   "property": "C176",
   "status": "proved",
   "theorems": [
    "Welleng.Props.C176_horizontal"
   ],
   "note": "np.around(., 6) is any function that moves a number by at most 5e-7."
  },
  {
   "property": "C177",
   "status": "proved",
   "theorems": [
    "Welleng.Props.C177_toolface"
   ],
   "note": "np.around(., 6) is any function that moves a number by at most 5e-7."
  },
  {
   "property": "C178",
   "status": "proved",
   "theorems": [
    "Welleng.Props.C178_travelling_cylinder"
   ],
   "note": "np.around(., 6) is any function that moves a number by at most 5e-7."
  },
  {
   "property": "C179",
   "status": "partial",
   "theorems": [
    "Welleng.Props.C179_kickoff_harmless_partial",
    "Welleng.Props.C179_true_north_used",
    "Welleng.Props.C179_true_north_negated",
    "Welleng.Props.C179_vertical_negated"
   ],
   "note": "False of the code: below a kick-off point the stations are rebuilt from azi_grid_rad with the original header, so with a true-north reference the azimuth is off by the convergence, and at vertical stations it is the vertical-section azimuth; the travelling cylinder azimuth then does not point to the offset well. Proved for grid azimuths at inclined stations. The magnetic case has no theorem."
  },
  {
   "property": "C180",
   "status": "partial",
   "theorems": [
    "Welleng.Props.C180_severity_ignored",
    "Welleng.Props.C180_three_degrees_partial",
    "Welleng.Props.C180_not_design"
   ],
   "note": "False of the code: dls_design is passed as the third positional argument of Connector, which is pos1 and is replaced by the start node, so the path to the target is planned with the default of 3 degrees per 30 m (C180_severity_ignored, C180_not_design). Proved for a design severity of 3 in metres and targets given by position."
  },
  {
   "property": "C181",
   "status": "partial",
   "theorems": [
    "Welleng.Props.C181_bit_partial",
    "Welleng.Props.C181_straight_partial",
    "Welleng.Props.C181_bit_moved",
    "Welleng.Props.C181_target_from_bit"
   ],
   "note": "False of the code: whenever the hole turns less sharply than the design severity, the connection to the bit turns with the design severity and then goes straight, and ends elsewhere (C181_bit_moved). Proved for turns at least as sharp as the design and for straight projections."
  },
  {
   "property": "C182",
   "status": "partial",
   "theorems": [
    "Welleng.Props.C182_grid_partial",
    "Welleng.Props.C182_true_turned",
    "Welleng.Props.C182_magnetic_turned",
    "Welleng.Props.C182_negated"
   ],
   "note": "False of the code: the grid azimuths of the path are entered in the reference of the survey's header, so with a true-north or magnetic reference the projected survey is turned, by the convergence or by the declination less the convergence. Proved for grid azimuths."
  },
  {
   "property": "C183",
   "status": "proved",
   "theorems": [
    "Welleng.Props.C183_resampled",
    "Welleng.Props.C183_stations_kept"
   ],
   "note": "Exact arithmetic. The path is any pair of functions of the depth that runs along one circular curve between neighbouring stations (Spec.WellPath); such a path exists for every such survey (wellPath_exists). Membership of the depth in the original depths is exact here; in floating point the end depth of a section is recomputed as (md2 - md1) + md1."
  },
  {
   "property": "C184",
   "status": "partial",
   "theorems": [
    "Welleng.Props.C184_station_lost",
    "Welleng.Props.C184_kept_partial"
   ],
   "note": "False of the code: a station less than 1e-4 below a multiple of the step is dropped as a duplicate of the resampled row above it, even if it is the last of the survey (C184_station_lost). Proved for surveys whose stations and multiples of the step are equal or more than 1e-4 apart, under the conditions of C183."
  },
  {
   "property": "C185",
   "status": "partial",
   "theorems": [
    "Welleng.Props.C185_feet_fail",
    "Welleng.Props.C185_negated",
    "Welleng.Props.C185_metres_partial"
   ],
   "note": "False of the code: from_connections is called without a depth unit, so the unit of the new survey is metres and its constructor refuses a header in feet (C185_feet_fail, C185_negated). Proved for metres."
  },
  {
   "property": "C186",
   "status": "proved",
   "theorems": [
    "Welleng.Props.C186_radius",
    "Welleng.Props.C186_covariance",
    "Welleng.Props.C186_at_stations"
   ],
   "note": "The radius and the covariance of the survey are arbitrary lists; C187 shows that the condition can fail."
  },
  {
   "property": "C187",
   "status": "partial",
   "theorems": [
    "Welleng.Props.C187_radius_lags",
    "Welleng.Props.C187_regular_partial"
   ],
   "note": "False of the code: below a station dropped as a duplicate the running index lags by one (C187_radius_lags). Proved for the surveys of C183."
  },
  {
   "property": "C188",
   "status": "partial",
   "theorems": [
    "Welleng.Props.C188_header_changed",
    "Welleng.Props.C188_grid_partial"
   ],
   "note": "False of the code: interpolate_md and maximum_curvature assign azi_reference = 'grid' to the survey's own header (C188_header_changed, for every survey with another reference). Proved for headers with the reference grid, over all histories."
  },
  {
   "property": "C189",
   "status": "partial",
   "theorems": [
    "Welleng.Props.C189_history_partial",
    "Welleng.Props.C189_section_changed"
   ],
   "note": "False of the code: after an interpolation the section of a survey entered with true azimuths is computed from grid azimuths (C189_section_changed). Proved over all histories for grid headers, and for any header over histories without interpolation."
  },
  {
   "property": "C190",
   "status": "partial",
   "theorems": [
    "Welleng.Props.C190_radians_partial",
    "Welleng.Props.C190_degrees_fail"
   ],
   "note": "False of the code: set_vertical_section stores the azimuth as passed, and the constructor reads it as radians (C190_degrees_fail). Proved for radians."
  },
  {
   "property": "C191",
   "status": "proved",
   "theorems": [
    "Welleng.Props.C191_levels"
   ],
   "note": "Vertical depths and measured depths of nodes; the node found at a level is assumed to be at that level (C314 proves this, by passing real nodes through the loop)."
  },
  {
   "property": "C192",
   "status": "partial",
   "theorems": [
    "Welleng.Props.C192_climbing_partial",
    "Welleng.Props.C192_level_lost",
    "Welleng.Props.C192_first_climb"
   ],
   "note": "False of the code: after a station exactly at a level the levels on the way up are lost (C192_level_lost), and a survey that climbs from its first station reports none (C192_first_climb). Proved for surveys whose first interval does not climb and with no later station at a level. Levels are those between the ends of an interval: an arc that dips below both its ends is not looked into."
  },
  {
   "property": "C193",
   "status": "partial",
   "theorems": [
    "Welleng.Props.C193_stations_kept_partial",
    "Welleng.Props.C193_station_lost"
   ],
   "note": "False of the code: a station within the relative tolerance 1e-5 of np.isclose below a level is replaced by the level (C193_station_lost). Proved if no level is that close without being at the station."
  },
  {
   "property": "C194",
   "status": "partial",
   "theorems": [
    "Welleng.Props.C194_start_partial",
    "Welleng.Props.C194_start_missing",
    "Welleng.Props.C194_start_above"
   ],
   "note": "False of the code: a start below the first station is not reported itself (C194_start_missing), and with a start one step or more above it no level is reported at all (C194_start_above). Proved for a start less than one step above the first station."
  },
  {
   "property": "C195",
   "status": "partial",
   "theorems": [
    "Welleng.Props.C195_displacement_partial",
    "Welleng.Props.C195_start_lost",
    "Welleng.Props.C195_feet_fail"
   ],
   "note": "False of the code: the rebuilt survey starts at the origin (C195_start_lost), and a survey in feet is refused (C195_feet_fail). Proved: the displacements from the first station are those of the path, if the nodes lie on it."
  },
  {
   "property": "C196",
   "status": "proved",
   "theorems": [
    "Welleng.Props.C196_covariance_at_closest"
   ],
   "note": "The optimiser is any function whose result lies within the interval searched."
  },
  {
   "property": "C197",
   "status": "proved",
   "theorems": [
    "Welleng.Props.C197_drop_is_path",
    "Welleng.Props.C197_default_start",
    "Welleng.Props.C197_vertical_plane"
   ],
   "note": "The optimiser's result is any value within its bounds; the start direction is taken as a unit vector (as Node makes it)."
  },
  {
   "property": "C198",
   "status": "proved",
   "theorems": [
    "Welleng.Props.C198_target_inclination"
   ],
   "note": "Under the hypothesis that the optimiser finds a minimum; see C199 for when it cannot."
  },
  {
   "property": "C199",
   "status": "partial",
   "theorems": [
    "Welleng.Props.C199_flat",
    "Welleng.Props.C199_first_guess",
    "Welleng.Props.C199_build_reversed",
    "Welleng.Props.C199_drop_partial"
   ],
   "note": "False of the code: the optimiser starts on the low side, where its objective does not depend on the toolface (C199_flat), and there a higher inclination is only reached through the vertical, with the opposite azimuth, or by almost a full circle (C199_build_reversed). Proved for drops that do not pass the vertical."
  },
  {
   "property": "C200",
   "status": "proved",
   "theorems": [
    "Welleng.Props.C200_straight_to_depth"
   ],
   "note": "Under the hypothesis that the optimiser finds a minimum over the lengths."
  },
  {
   "property": "C201",
   "status": "partial",
   "theorems": [
    "Welleng.Props.C201_horizontal_not_reported",
    "Welleng.Props.C201_behind_partial"
   ],
   "note": "False of the code: a horizontal well is extended by an arbitrary length and returned (C201_horizontal_not_reported). Proved: a depth behind the bit is an error without a design severity; with one an empty connection is returned."
  },
  {
   "property": "C202",
   "status": "partial",
   "theorems": [
    "Welleng.Props.C202_limit_exceeded",
    "Welleng.Props.C202_limit_is_lower",
    "Welleng.Props.C202_within_partial"
   ],
   "note": "False of the code: delta_md is only the start of the search (C202_limit_exceeded), with a target inclination even its lower bound (C202_limit_is_lower). Proved if the depth is reached within the limit."
  },
  {
   "property": "C203",
   "status": "partial",
   "theorems": [
    "Welleng.Props.C203_no_default",
    "Welleng.Props.C203_surface_partial"
   ],
   "note": "False of the code: without a node every call raises TypeError (C203_no_default), because an empty Node has no position. Proved for the surface given as a node."
  },
  {
   "property": "C204",
   "status": "partial",
   "theorems": [
    "Welleng.Props.C204_through_nodes_partial",
    "Welleng.Props.C204_target_depth_partial",
    "Welleng.Props.C204_default_severity",
    "Welleng.Props.C204_short_way"
   ],
   "note": "False of the code for turns of more than half a circle: the connection goes the short way round (C204_short_way). Proved for turns of less than half a circle."
  },
  {
   "property": "C205",
   "status": "proved",
   "theorems": [
    "Welleng.Props.C205_through_points",
    "Welleng.Props.C205_leg_path"
   ],
   "note": "Points as floats, nev=True, default unit. The statement on curve and straight has the same conditions as C74."
  },
  {
   "property": "C206",
   "status": "partial",
   "theorems": [
    "Welleng.Props.C206_whole_number",
    "Welleng.Props.C206_float_partial",
    "Welleng.Props.C206_float_connects_partial"
   ],
   "note": "False of the code: with a whole number the result is an empty list (C206_whole_number), because only Python floats are spread over the points. Proved for floats."
  },
  {
   "property": "C207",
   "status": "partial",
   "theorems": [
    "Welleng.Props.C207_direction_lost",
    "Welleng.Props.C207_direction_partial"
   ],
   "note": "False of the code: with whole-number points the direction is truncated to whole numbers, which leaves nothing of a direction off the axes (C207_direction_lost). Proved for float points and for directions along an axis."
  },
  {
   "property": "C208",
   "status": "partial",
   "theorems": [
    "Welleng.Props.C208_never_returns",
    "Welleng.Props.C208_error",
    "Welleng.Props.C208_severity_partial"
   ],
   "note": "False of the code: it always raises (C208_never_returns): Connector has no method survey, and for two stations a loop variable is unbound (C208_error). Proved: the documented check of the severity."
  },
  {
   "property": "C209",
   "status": "proved",
   "theorems": [
    "Welleng.Props.C209_gentle_interval"
   ],
   "note": "For turns of at least 1e-10 radians (below, the code does not bend at all); distances to be covered in real arithmetic."
  },
  {
   "property": "C210",
   "status": "proved",
   "theorems": [
    "Welleng.Props.C210_vertical_limit",
    "Welleng.Props.C210_first_doubled"
   ],
   "note": "The formulas are those of the program with the vertical limit set to zero.  A vertical last station is excluded: see C61."
  },
  {
   "property": "C211",
   "status": "partial",
   "theorems": [
    "Welleng.Props.C211_spaced_partial",
    "Welleng.Props.C211_xym3l_short",
    "Welleng.Props.C211_xym3l_first",
    "Welleng.Props.C211_xym3e_east",
    "Welleng.Props.C211_xym4e_east",
    "Welleng.Props.C211_cna_grid"
   ],
   "note": "False of the code.  XYM3E and XYM4E report nothing at a vertical station recorded with azimuth 90 degrees; CNA uses the grid azimuth; XYM3L (and XYM4L alike) leaves out the factor for short spacings and counts the first station double also in rev4 models.  Proved for XYM3L and XYM4L with stations at least 10 m apart, the first of them not vertical."
  },
  {
   "property": "C212",
   "status": "proved",
   "theorems": [
    "Welleng.Props.C212_numbers",
    "Welleng.Props.C212_wide_depth"
   ],
   "note": "Model at the level of characters, with floats as exact rationals.  Outside the assumed range of coordinates columns merge and the file cannot be read (C212_wide_depth)."
  },
  {
   "property": "C213",
   "status": "partial",
   "theorems": [
    "Welleng.Props.C213_names_partial",
    "Welleng.Props.C213_cut"
   ],
   "note": "False of the code: a target of several words is cut at the first blank, runs of blanks in a tool name become one.  Proved for the steps after the first with one-word targets and tools with single blanks."
  },
  {
   "property": "C214",
   "status": "partial",
   "theorems": [
    "Welleng.Props.C214_only_first_partial",
    "Welleng.Props.C214_first"
   ],
   "note": "False of the code: the first turn point of every reloaded plan is a tie-on point and has lost its method, also when the plan was made from a survey, which marks none.  Proved: no later step becomes one."
  },
  {
   "property": "C215",
   "status": "partial",
   "theorems": [
    "Welleng.Props.C215_variances_partial",
    "Welleng.Props.C215_not_covariance"
   ],
   "note": "False of the code: entries are printed with one decimal.  Proved: variances stay non-negative, and matrices whose entries have one decimal stay covariances."
  },
  {
   "property": "C216",
   "status": "partial",
   "theorems": [
    "Welleng.Props.C216_one_colour_partial",
    "Welleng.Props.C216_last_colour",
    "Welleng.Props.C216_no_colour"
   ],
   "note": "False of the code: all targets share one dictionary (mutable default argument), so all have the colour of the last; a target without colour is written as a line that cannot be read.  Proved for targets of one colour."
  },
  {
   "property": "C217",
   "status": "partial",
   "theorems": [
    "Welleng.Props.C217_first_plan_partial",
    "Welleng.Props.C217_second_plan"
   ],
   "note": "False of the code: only the targets of the first plan are written.  Proved for the first plan, names without colon."
  },
  {
   "property": "C218",
   "status": "partial",
   "theorems": [
    "Welleng.Props.C218_same_units_partial",
    "Welleng.Props.C218_feet_as_metres"
   ],
   "note": "False of the code: only the units of the first plan are written where the reader looks for them, so a plan in feet exported after one in metres reloads in metres with its numbers unchanged.  Proved for plans with the same units."
  },
  {
   "property": "C219",
   "status": "partial",
   "theorems": [
    "Welleng.Props.C219_offset",
    "Welleng.Props.C219_diagonal_partial",
    "Welleng.Props.C219_first_not_origin"
   ],
   "note": "False of the code: northing and easting of the datum are exchanged.  Proved: the error at every point is the difference of the two, so the claim holds when they are equal."
  },
  {
   "property": "C220",
   "status": "proved",
   "theorems": [
    "Welleng.Props.C220_comments"
   ],
   "note": "For the plans of C212."
  },
  {
   "property": "C221",
   "status": "proved",
   "theorems": [
    "Welleng.Props.C221_round_trip"
   ],
   "note": "The pattern is run by a backtracking matcher that lists the alternatives in Python's order; of Unicode digits and white space only the ASCII ones."
  },
  {
   "property": "C222",
   "status": "partial",
   "theorems": [
    "Welleng.Props.C222_symbols_partial",
    "Welleng.Props.C222_never_three"
   ],
   "note": "False of the code for every tuple printed with symbols: the sign of the seconds is returned as a fourth element.  Proved: the three numbers are right; with words see C221."
  },
  {
   "property": "C223",
   "status": "partial",
   "theorems": [
    "Welleng.Props.C223_sign_lost",
    "Welleng.Props.C223_decimal_text_decimal_partial",
    "Welleng.Props.C223_negative_not_recovered"
   ],
   "note": "False of the code for every negative angle: the minus is not part of the pattern.  Proved: the absolute value is kept, for seconds printed without exponent."
  },
  {
   "property": "C224",
   "status": "partial",
   "theorems": [
    "Welleng.Props.C224_no_match",
    "Welleng.Props.C224_row_not_read",
    "Welleng.Props.C224_row_with_direction_partial"
   ],
   "note": "False of the code: without a direction the row is an array of floats, printed as 33.0, 30.0, and the text does not match, for any angle.  Proved with a direction, for non-negative angles."
  },
  {
   "property": "C225",
   "status": "partial",
   "theorems": [
    "Welleng.Props.C225_exponent_ignored",
    "Welleng.Props.C225_without_exponent_partial"
   ],
   "note": "False of the code: the exponent is not read, so 5e-05 seconds become 5.  Proved for seconds printed without exponent."
  },
  {
   "property": "C226",
   "status": "partial",
   "theorems": [
    "Welleng.Props.C226_references_partial",
    "Welleng.Props.C226_assembly_overwritten",
    "Welleng.Props.C226_surveys",
    "Welleng.Props.C226_assembly_lost"
   ],
   "note": "False of the code for the assembly: it is overwritten by its components and its own record is lost.  Proved for the other eight, for a case id that occurs once, when no pressure table has the same name."
  },
  {
   "property": "C227",
   "status": "partial",
   "theorems": [
    "Welleng.Props.C227_unknown_id_fails",
    "Welleng.Props.C227_no_survey_header_fails",
    "Welleng.Props.C227_known_id_partial"
   ],
   "note": "False of the code: an unknown id, and a case without survey headers, end in an exception (UnboundLocalError or TypeError).  Proved: a case that is returned is the one asked for."
  },
  {
   "property": "C228",
   "status": "partial",
   "theorems": [
    "Welleng.Props.C228_same_name_partial",
    "Welleng.Props.C228_two_cases"
   ],
   "note": "False of the code for two cases of the same id: the name is that of the first, the case is the last.  Proved for ids that occur once."
  },
  {
   "property": "C229",
   "status": "partial",
   "theorems": [
    "Welleng.Props.C229_groups_partial",
    "Welleng.Props.C229_one_row_spoils_all",
    "Welleng.Props.C229_wrong_group"
   ],
   "note": "False of the code: one row without depth and no group is sorted; a row is put under the first attribute whose name contains _group_id, which may be another one.  Proved for tables in which every row has a depth and its own group is the first."
  },
  {
   "property": "C230",
   "status": "partial",
   "theorems": [
    "Welleng.Props.C230_value_partial",
    "Welleng.Props.C230_chained_powers"
   ],
   "note": "False of the code for a power of a power without parentheses: Python reads ** from right to left (2^3^2 gives 512, not 64).  Proved for all formulas without such chains; numbers without exponent, names in ASCII."
  },
  {
   "property": "C231",
   "status": "partial",
   "theorems": [
    "Welleng.Props.C231_evaluated_partial",
    "Welleng.Props.C231_contributes_nothing"
   ],
   "note": "False of the code for eleven weight functions: their formulas use names that are not provided (GField and Bfield only by spelling; the previous station; constants of the gyro), and they contribute exactly nothing.  Proved for the other 48 rows.  The table of formulas is generated from the shipped files."
  },
  {
   "property": "C232",
   "status": "partial",
   "theorems": [
    "Welleng.Props.C232_same_term_partial",
    "Welleng.Props.C232_amil_sign",
    "Welleng.Props.C232_abiz_gravity"
   ],
   "note": "False of the code for ABIZ (azimuth differs by the square of gravity), AMIL (opposite sign) and the terms of C231.  Proved for the other 38.  Division by zero and near-vertical stations are excluded."
  },
  {
   "property": "C233",
   "status": "partial",
   "theorems": [
    "Welleng.Props.C233_nev_given_partial",
    "Welleng.Props.C233_hla_given_partial",
    "Welleng.Props.C233_start_partial",
    "Welleng.Props.C233_model_partial",
    "Welleng.Props.C233_both_given",
    "Welleng.Props.C233_disagree",
    "Welleng.Props.C233_convergence"
   ],
   "note": "False of the code if both covariances are given (they are kept, whether they agree or not), and with an error model where true and grid north differ (the covariance along the borehole is computed with the azimuth from true north, C233_convergence).  Proved for one given covariance, for a start covariance, and for an error model without convergence."
  },
  {
   "property": "C234",
   "status": "partial",
   "theorems": [
    "Welleng.Props.C234_added_partial",
    "Welleng.Props.C234_dropped",
    "Welleng.Props.C234_list"
   ],
   "note": "False of the code without other covariances (the start covariance is dropped) and for a Python list (the constructor fails and spoils the list).  Proved for all other arguments."
  },
  {
   "property": "C235",
   "status": "partial",
   "theorems": [
    "Welleng.Props.C235_parts_partial",
    "Welleng.Props.C235_start_in_no_part"
   ],
   "note": "False of the code with a start covariance, which is in no part.  Proved without one."
  },
  {
   "property": "C236",
   "status": "partial",
   "theorems": [
    "Welleng.Props.C236_untouched_partial",
    "Welleng.Props.C236_changed",
    "Welleng.Props.C236_second_survey"
   ],
   "note": "False of the code for a covariance array and a start covariance without an error model: the array is changed in place; a second survey from it gets the start covariance twice and changes the first.  Proved for all other arguments."
  },
  {
   "property": "C237",
   "status": "proved",
   "theorems": [
    "Welleng.Props.C237_last_call"
   ],
   "note": ""
  },
  {
   "property": "C238",
   "status": "partial",
   "theorems": [
    "Welleng.Props.C238_unknown_partial",
    "Welleng.Props.C238_renamed"
   ],
   "note": "False of the code if the error model raises: the survey then has the name of the new model and the covariances of the old one.  Proved for unknown names."
  },
  {
   "property": "C239",
   "status": "partial",
   "theorems": [
    "Welleng.Props.C239_kept_partial",
    "Welleng.Props.C239_replaced",
    "Welleng.Props.C239_level_hole"
   ],
   "note": "False of the code: with an error model the given covariances are replaced, although the documentation says that it is used if they are not present.  Proved without an error model and start covariance."
  },
  {
   "property": "C240",
   "status": "proved",
   "theorems": [
    "Welleng.Props.C240_rows"
   ],
   "note": "Grid azimuths in the headers (the sharing of headers is C188-C190); answers of the collision library arbitrary."
  },
  {
   "property": "C241",
   "status": "proved",
   "theorems": [
    "Welleng.Props.C241_offset"
   ],
   "note": "As C240."
  },
  {
   "property": "C242",
   "status": "proved",
   "theorems": [
    "Welleng.Props.C242_distance"
   ],
   "note": "As C240."
  },
  {
   "property": "C243",
   "status": "partial",
   "theorems": [
    "Welleng.Props.C243_default_partial",
    "Welleng.Props.C243_ignored"
   ],
   "note": "False of the code: MeshClearance does not pass sigma_pa to its meshes, so that they do not depend on it (C243_ignored).  Proved for the default value 0.5."
  },
  {
   "property": "C244",
   "status": "partial",
   "theorems": [
    "Welleng.Props.C244_default_partial",
    "Welleng.Props.C244_wrong"
   ],
   "note": "False of the code for a project-ahead uncertainty other than 0.5: both values are wrong by (0.5 - sigma_pa) / (2 sigma) (C244_wrong).  Proved for 0.5 and the radii used by the result."
  },
  {
   "property": "C245",
   "status": "proved",
   "theorems": [
    "Welleng.Props.C245_pieces",
    "Welleng.Props.C245_to_the_end",
    "Welleng.Props.C245_out_of_range"
   ],
   "note": "The mesh of one piece is a parameter that succeeds for two or more stations."
  },
  {
   "property": "C246",
   "status": "partial",
   "theorems": [
    "Welleng.Props.C246_given_method_partial",
    "Welleng.Props.C246_default_fails"
   ],
   "note": "False of the code: the default method of sliced_mesh, 'mesh_ellipse', is not one that WellMesh accepts, so every call without a method raises (C246_default_fails).  Proved for method='ellipse'."
  },
  {
   "property": "C247",
   "status": "partial",
   "theorems": [
    "Welleng.Props.C247_step_zero_forever",
    "Welleng.Props.C247_ends_partial"
   ],
   "note": "False of the code: with a step of zero the loop never ends (C247_step_zero_forever, provided a mesh of a single station can be made).  Proved for steps of at least one."
  },
  {
   "property": "C248",
   "status": "proved",
   "theorems": [
    "Welleng.Props.C248_similarity"
   ],
   "note": "Scales are positive; the library's own processing of meshes is not modelled."
  },
  {
   "property": "C249",
   "status": "partial",
   "theorems": [
    "Welleng.Props.C249_array_fails",
    "Welleng.Props.C249_list_partial"
   ],
   "note": "False of the code: 'not origin' raises for an array (C249_array_fails).  Proved for a list and for no origin."
  },
  {
   "property": "C250",
   "status": "partial",
   "theorems": [
    "Welleng.Props.C250_not_reduced",
    "Welleng.Props.C250_quarter",
    "Welleng.Props.C250_ratio_one_partial"
   ],
   "note": "False of the code: the decimated mesh that trimesh returns is dropped (C250_not_reduced, C250_quarter).  Only the trivial ratio 1 holds.  Relies on simplify_quadratic_decimation returning a new mesh."
  },
  {
   "property": "C251",
   "status": "proved",
   "theorems": [
    "Welleng.Props.C251_faces"
   ],
   "note": "The faces passed on to the repair of windings and normals by trimesh, up to their order."
  },
  {
   "property": "C252",
   "status": "partial",
   "theorems": [
    "Welleng.Props.C252_one_per_depth_partial",
    "Welleng.Props.C252_list_fails",
    "Welleng.Props.C252_one_depth_cut",
    "Welleng.Props.C252_shapes"
   ],
   "note": "False of the code: a list of temperatures raises (C252_list_fails) and several temperatures for one depth are cut without an error (C252_one_depth_cut).  Proved for a number and for arrays of equal length."
  },
  {
   "property": "C253",
   "status": "proved",
   "theorems": [
    "Welleng.Props.C253_surface"
   ],
   "note": "For a solver that stays in its bounds and comes within a tolerance of the minimum; such solvers exist (solvesWithin_exists)."
  },
  {
   "property": "C254",
   "status": "proved",
   "theorems": [
    "Welleng.Props.C254_tags"
   ],
   "note": ""
  },
  {
   "property": "C255",
   "status": "partial",
   "theorems": [
    "Welleng.Props.C255_distinct_names_partial",
    "Welleng.Props.C255_same_name_lost"
   ],
   "note": "False of the code when two wellbores have the same name (C255_same_name_lost).  Proved for distinct names."
  },
  {
   "property": "C256",
   "status": "partial",
   "theorems": [
    "Welleng.Props.C256_same_wellbore_partial",
    "Welleng.Props.C256_unreachable"
   ],
   "note": "False of the code when two wellbores have the same name (C256_unreachable).  Proved for distinct names and identifiers."
  },
  {
   "property": "C257",
   "status": "proved",
   "theorems": [
    "Welleng.Props.C257_toolface"
   ],
   "note": ""
  },
  {
   "property": "C258",
   "status": "partial",
   "theorems": [
    "Welleng.Props.C258_metres_partial",
    "Welleng.Props.C258_feet_wrong"
   ],
   "note": "False of the code for surveys in feet (C258_feet_wrong).  Proved for surveys in metres."
  },
  {
   "property": "C259",
   "status": "proved",
   "theorems": [
    "Welleng.Props.C259_terms",
    "Welleng.Props.C259_succeeds"
   ],
   "note": "From the cells on; reading of the workbook and JSON text are not modelled.  Texts of numbers that are not whole are a parameter."
  },
  {
   "property": "C260",
   "status": "partial",
   "theorems": [
    "Welleng.Props.C260_flagged_partial",
    "Welleng.Props.C260_no_magnitude"
   ],
   "note": "False of the code: an empty magnitude becomes 0 without a warning (C260_no_magnitude).  Proved for units, modes and magnitudes given as text."
  },
  {
   "property": "C261",
   "status": "partial",
   "theorems": [
    "Welleng.Props.C261_five_partial",
    "Welleng.Props.C261_sixth_lost"
   ],
   "note": "False of the code: only the first five warnings are kept (C261_sixth_lost).  Proved for up to five."
  },
  {
   "property": "C262",
   "status": "partial",
   "theorems": [
    "Welleng.Props.C262_number_partial",
    "Welleng.Props.C262_text_partial",
    "Welleng.Props.C262_decimal_partial",
    "Welleng.Props.C262_rounded_partial",
    "Welleng.Props.C262_sheet_partial",
    "Welleng.Props.C262_widened"
   ],
   "note": "False of the code: an upper limit of 0, or one written with a degree sign, becomes 180 (C262_widened).  Proved for whole numbers other than 0, for texts of the form 'n deg', and for texts with sign, decimals, blanks and unit (read as the number written, then rounded to the nearest whole number).  C262_sheet_partial ties the limits of a converted sheet to its rows."
  },
  {
   "property": "C263",
   "status": "partial",
   "theorems": [
    "Welleng.Props.C263_terms_partial",
    "Welleng.Props.C263_same_for_two_sheets"
   ],
   "note": "False of the code: sheets with an empty cell for the prefix get the same identifiers (C263_same_for_two_sheets).  Proved for terms with different names in a sheet, if uuid5 does not collide."
  },
  {
   "property": "C264",
   "status": "partial",
   "theorems": [
    "Welleng.Props.C264_safe_names_partial",
    "Welleng.Props.C264_overwritten"
   ],
   "note": "False of the code: names that differ in replaced characters share a file, and the first model is lost (C264_overwritten).  Proved for distinct names made of characters that are kept."
  },
  {
   "property": "C265",
   "status": "partial",
   "theorems": [
    "Welleng.Props.C265_whole_partial",
    "Welleng.Props.C265_five_point_one"
   ],
   "note": "False of the code: revision 5.1 becomes 5 (C265_five_point_one).  Proved for whole numbers."
  },
  {
   "property": "C266",
   "status": "partial",
   "theorems": [
    "Welleng.Props.C266_prefix_partial",
    "Welleng.Props.C266_nameless"
   ],
   "note": "False of the code: empty cells for prefix and short name give an empty identifier (C266_nameless).  Proved when the prefix is given, or its label missing."
  },
  {
   "property": "C267",
   "status": "partial",
   "theorems": [
    "Welleng.Props.C267_given_dip_partial",
    "Welleng.Props.C267_looked_up",
    "Welleng.Props.C267_default_up"
   ],
   "note": "False of the code: the header stores minus the looked-up inclination, also for the default field (C267_looked_up, C267_default_up).  Proved when the dip is given."
  },
  {
   "property": "C268",
   "status": "proved",
   "theorems": [
    "Welleng.Props.C268_same_header",
    "Welleng.Props.C268_location"
   ],
   "note": "The geomagnetic look-up and the map projection are parameters."
  },
  {
   "property": "C269",
   "status": "partial",
   "theorems": [
    "Welleng.Props.C269_single_arcs_partial",
    "Welleng.Props.C269_forty_metres"
   ],
   "note": "False of the code: arcs of different severity in one plane are merged, and the listing ends more than 40 m away for any tolerance and optimiser (C269_forty_metres).  Proved when the sections are single arcs or lines."
  },
  {
   "property": "C270",
   "status": "partial",
   "theorems": [
    "Welleng.Props.C270_ft_partial",
    "Welleng.Props.C270_feet"
   ],
   "note": "False of the code: a sheet in 'feet' is taken as metres (C270_feet).  Proved for every other spelling of metre and foot."
  },
  {
   "property": "C271",
   "status": "proved",
   "theorems": [
    "Welleng.Props.C271_stations",
    "Welleng.Props.C271_blank"
   ],
   "note": "From the cells on; opening the workbook is not modelled."
  },
  {
   "property": "C272",
   "status": "proved",
   "theorems": [
    "Welleng.Props.C272_value",
    "Welleng.Props.C272_missing"
   ],
   "note": "From the cells on."
  },
  {
   "property": "C273",
   "status": "proved",
   "theorems": [
    "Welleng.Props.C273_terms"
   ],
   "note": "From the cells on.  Header entries and the text columns that no code uses are left out of the model."
  },
  {
   "property": "C274",
   "status": "partial",
   "theorems": [
    "Welleng.Props.C274_aligned_partial",
    "Welleng.Props.C274_short"
   ],
   "note": "False of the code: a sheet with fewer rows than stations is kept as it is (C274_short).  Proved for sheets with at least as many rows."
  },
  {
   "property": "C275",
   "status": "partial",
   "theorems": [
    "Welleng.Props.C275_same_rows_partial",
    "Welleng.Props.C275_by_place"
   ],
   "note": "False of the code: rows are compared by place (C275_by_place).  Proved when the sheet lists the first stations of the survey."
  },
  {
   "property": "C276",
   "status": "proved",
   "theorems": [
    "Welleng.Props.C276_isotropic"
   ],
   "note": "Tilt is the derivative of the direction of the hole; the weights are those of the error model."
  },
  {
   "property": "C277",
   "status": "partial",
   "theorems": [
    "Welleng.Props.C277_pairs_partial",
    "Welleng.Props.C277_south_east"
   ],
   "note": "False of the code: XYM3E takes the absolute value of the cosine of the azimuth, so the pair XYM3E, XYM4E is not isotropic in holes to the south (C277_south_east).  Proved for XYM3L, XYM4L and, where the cosine is not negative, for XYM3E, XYM4E."
  },
  {
   "property": "C278",
   "status": "proved",
   "theorems": [
    "Welleng.Props.C278_columns"
   ],
   "note": "From the cells on."
  },
  {
   "property": "C279",
   "status": "partial",
   "theorems": [
    "Welleng.Props.C279_offset_partial",
    "Welleng.Props.C279_own_columns_partial",
    "Welleng.Props.C279_import_fails",
    "Welleng.Props.C279_same_start"
   ],
   "note": "False of the code: make_survey fails with KeyError on all imported data (C279_import_fails), and with meshes added every survey starts at the offset well (C279_same_start).  Proved for a well called offset that has a mesh.  A survey that is made has the columns of its own well (C279_own_columns_partial)."
  },
  {
   "property": "C280",
   "status": "proved",
   "theorems": [
    "Welleng.Props.C280_verdict"
   ],
   "note": ""
  },
  {
   "property": "C281",
   "status": "partial",
   "theorems": [
    "Welleng.Props.C281_compared_partial",
    "Welleng.Props.C281_reported_missing",
    "Welleng.Props.C281_xym3"
   ],
   "note": "False of the code: nine functions are reported as missing on surveys with a nearly vertical station, and XCLA and XCLH on all (C281_reported_missing, C281_xym3).  Proved for the others and for surveys without such stations."
  },
  {
   "property": "C282",
   "status": "proved",
   "theorems": [
    "Welleng.Props.C282_markers"
   ],
   "note": "For flags of the length of the survey; text and colours of the figure are not modelled."
  },
  {
   "property": "C283",
   "status": "proved",
   "theorems": [
    "Welleng.Props.C283_lines"
   ],
   "note": "The optimiser is any that finds the minimum within a tolerance; plotting is not modelled."
  },
  {
   "property": "C284",
   "status": "partial",
   "theorems": [
    "Welleng.Props.C284_own_values_partial",
    "Welleng.Props.C284_wrong_values",
    "Welleng.Props.C284_false"
   ],
   "note": "False of the code: TVD is bound to the measured depth, AzM and Az to the true azimuth (C284_wrong_values, C284_false).  Proved for formulas without these names."
  },
  {
   "property": "C285",
   "status": "partial",
   "theorems": [
    "Welleng.Props.C285_caps_missing",
    "Welleng.Props.C285_wall_partial",
    "Welleng.Props.C285_edges_partial"
   ],
   "note": "False of the code: the figure has the vertices of the rings but not the two end points that the triangles of the ends refer to, and with edges it fails with IndexError (C285_caps_missing).  Proved: all triangles are there and the vertices of the wall are the points drawn (C285_wall_partial).  Colours and layout are not modelled."
  },
  {
   "property": "C286",
   "status": "proved",
   "theorems": [
    "Welleng.Props.C286_stored_mesh"
   ],
   "note": "Rings of equal length, one for each station."
  },
  {
   "property": "C287",
   "status": "partial",
   "theorems": [
    "Welleng.Props.C287_declared_unused",
    "Welleng.Props.C287_vertical_nothing",
    "Welleng.Props.C287_compass_lost",
    "Welleng.Props.C287_formulas_partial"
   ],
   "note": "False of the code: the formulas for vertical stations are never read (C287_declared_unused), and an azimuth term gives a vertical well nothing, whatever real number stands for its azimuth formula (C287_vertical_nothing, C287_compass_lost).  In floats 1 / sin(0) is infinite and the product with 0 is nan, which the real numbers of the model do not show.  Proved: the formulas for depth, inclination and azimuth are used (C287_formulas_partial)."
  },
  {
   "property": "C288",
   "status": "proved",
   "theorems": [
    "Welleng.Props.C288_sources",
    "Welleng.Props.C288_totals"
   ],
   "note": "The text of the lines is not modelled, only what they show."
  },
  {
   "property": "C289",
   "status": "proved",
   "theorems": [
    "Welleng.Props.C289_matrix"
   ],
   "note": ""
  },
  {
   "property": "C290",
   "status": "partial",
   "theorems": [
    "Welleng.Props.C290_never_made",
    "Welleng.Props.C290_factors_partial",
    "Welleng.Props.C290_values_partial",
    "Welleng.Props.C290_cases_partial"
   ],
   "note": "False of the code: no hook load table is ever made, because no TorqueDrag can be constructed (C290_never_made, from C42).  Proved for any calculation of the tensions in place of TorqueDrag."
  },
  {
   "property": "C291",
   "status": "proved",
   "theorems": [
    "Welleng.Props.C291_listing",
    "Welleng.Props.C291_table"
   ],
   "note": "Which of several rows of a group is kept is C88."
  },
  {
   "property": "C292",
   "status": "partial",
   "theorems": [
    "Welleng.Props.C292_complete_partial",
    "Welleng.Props.C292_table_lost",
    "Welleng.Props.C292_bad_number",
    "Welleng.Props.C292_like_absent",
    "Welleng.Props.C292_each_partial"
   ],
   "note": "False of the code: one row without a depth and the whole table is reported as None, as if the well had none (C292_table_lost, C292_like_absent).  Proved when all rows are complete."
  },
  {
   "property": "C293",
   "status": "proved",
   "theorems": [
    "Welleng.Props.C293_straight"
   ],
   "note": ""
  },
  {
   "property": "C294",
   "status": "proved",
   "theorems": [
    "Welleng.Props.C294_one_arc"
   ],
   "note": "Successive stations less than half a circle apart; the severities at the stations are that of the arc."
  },
  {
   "property": "C295",
   "status": "partial",
   "theorems": [
    "Welleng.Props.C295_far_apart_partial",
    "Welleng.Props.C295_straight_to_curve_partial",
    "Welleng.Props.C295_close_partial",
    "Welleng.Props.C295_blind",
    "Welleng.Props.C295_build_drop"
   ],
   "note": "False of the code: with a tolerance of 1, the default of the modified index, no change of the bending direction is noticed (C295_blind); a build and a drop are one section (C295_build_drop).  Proved: normals further apart than 1 + sqrt 3 times the tolerance always start a section, normals within the tolerance never do, and a straight part next to a curved one always does."
  },
  {
   "property": "C296",
   "status": "partial",
   "theorems": [
    "Welleng.Props.C296_cut_partial",
    "Welleng.Props.C296_no_cut_partial",
    "Welleng.Props.C296_half_as_much_again"
   ],
   "note": "False of the code: the tolerance of the normals is also an absolute tolerance of the severity, so with the defaults of the modified index a change from 2 to 3 degrees over 30 m is no cut (C296_half_as_much_again).  Proved with both tolerances together."
  },
  {
   "property": "C297",
   "status": "partial",
   "theorems": [
    "Welleng.Props.C297_method_partial",
    "Welleng.Props.C297_ignored"
   ],
   "note": "False of the code: the method does not pass dls_tol on (C297_ignored).  Proved: it never cuts where the function does not, and agrees when dls_tol is None."
  },
  {
   "property": "C298",
   "status": "partial",
   "theorems": [
    "Welleng.Props.C298_quarter_turn_partial",
    "Welleng.Props.C298_turned"
   ],
   "note": "False of the code: the tolerance is applied to each component, so a turn by 45 degrees removes a cut (C298_turned).  Proved for quarter turns."
  },
  {
   "property": "C299",
   "status": "proved",
   "theorems": [
    "Welleng.Props.C299_severity"
   ],
   "note": ""
  },
  {
   "property": "C300",
   "status": "partial",
   "theorems": [
    "Welleng.Props.C300_toolface_partial",
    "Welleng.Props.C300_kick_off_north",
    "Welleng.Props.C300_east_well"
   ],
   "note": "False of the code at a vertical station that is recorded with an azimuth: the inserted station heads north whatever the azimuth of the well (C300_kick_off_north, C300_east_well).  Proved at every station that is not vertical."
  },
  {
   "property": "C301",
   "status": "partial",
   "theorems": [
    "Welleng.Props.C301_metres_partial",
    "Welleng.Props.C301_feet"
   ],
   "note": "False of the code: a survey in feet always ends in an AssertionError, and its header has by then been switched to grid azimuths (C301_feet).  Proved for metres."
  },
  {
   "property": "C302",
   "status": "proved",
   "theorems": [
    "Welleng.Props.C302_originals_kept"
   ],
   "note": ""
  },
  {
   "property": "C303",
   "status": "partial",
   "theorems": [
    "Welleng.Props.C303_same_table_partial",
    "Welleng.Props.C303_blank_row",
    "Welleng.Props.C303_padded_code"
   ],
   "note": "False of the code: with the script for ISCWSA workbooks any blank row below the heading raises an exception (C303_blank_row), and a blank behind a code stays in the key (C303_padded_code).  Proved for sheets of complete rows, with blank codes skipped by the script for OWSG workbooks."
  },
  {
   "property": "C304",
   "status": "partial",
   "theorems": [
    "Welleng.Props.C304_groups_partial",
    "Welleng.Props.C304_labels",
    "Welleng.Props.C304_values",
    "Welleng.Props.C304_any_case",
    "Welleng.Props.C304_blank_after_block",
    "Welleng.Props.C304_number_setting"
   ],
   "note": "False of the code: a blank row right below a group, or a setting that is a number, raises TypeError (C304_blank_after_block, C304_number_setting).  Proved for sheets without these, with any number of groups."
  },
  {
   "property": "C305",
   "status": "partial",
   "theorems": [
    "Welleng.Props.C305_keys",
    "Welleng.Props.C305_found_partial",
    "Welleng.Props.C305_shared_prefix"
   ],
   "note": "False of the code: a tool whose prefix a later tool shares is lost (C305_shared_prefix).  Proved when keys and short names differ."
  },
  {
   "property": "C306",
   "status": "proved",
   "theorems": [
    "Welleng.Props.C306_accuracy"
   ],
   "note": ""
  },
  {
   "property": "C307",
   "status": "proved",
   "theorems": [
    "Welleng.Props.C307_feet"
   ],
   "note": ""
  },
  {
   "property": "C308",
   "status": "proved",
   "theorems": [
    "Welleng.Props.C308_stations",
    "Welleng.Props.C308_path"
   ],
   "note": ""
  },
  {
   "property": "C309",
   "status": "proved",
   "theorems": [
    "Welleng.Props.C309_total_turn",
    "Welleng.Props.C309_net_turn"
   ],
   "note": ""
  },
  {
   "property": "C310",
   "status": "proved",
   "theorems": [
    "Welleng.Props.C310_bottom_up"
   ],
   "note": ""
  },
  {
   "property": "C311",
   "status": "proved",
   "theorems": [
    "Welleng.Props.C311_approach"
   ],
   "note": ""
  },
  {
   "property": "C312",
   "status": "partial",
   "theorems": [
    "Welleng.Props.C312_converted_partial",
    "Welleng.Props.C312_unit_free_partial",
    "Welleng.Props.C312_tool_partial",
    "Welleng.Props.C312_depth_reference",
    "Welleng.Props.C312_course_length"
   ],
   "note": "False of the code, which never reads the depth unit: the depth reference error in metres is used unchanged for a survey in feet (C312_depth_reference), and misalignments compare the course length with 10 of whatever unit (C312_course_length).  Proved for tool models of sources without lengths of their own, and, for single sources, with the magnitudes of DREF and DST and the tortuosity converted by the user."
  },
  {
   "property": "C313",
   "status": "partial",
   "theorems": [
    "Welleng.Props.C313_any_well_partial",
    "Welleng.Props.C313_rising_last_piece",
    "Welleng.Props.C313_passed_depth_not_found"
   ],
   "note": "False: a lateral that rises and levels off passes vertical depths that are not found, the search only looks at the level piece and divides by zero (C313_passed_depth_not_found); on any rising well only the piece between the last two stations is looked at (C313_rising_last_piece).  Proved: on any well the depths from that of the first to above that of the last station are found (C313_any_well_partial)."
  },
  {
   "property": "C314",
   "status": "partial",
   "theorems": [
    "Welleng.Props.C314_levels_partial",
    "Welleng.Props.C314_wrong_depth"
   ],
   "note": "False: at the depth of the point opposite the upper station of the interval the station inserted is the upper station again (C314_wrong_depth).  Proved for every other depth, with real nodes passed through the loop (C314_levels_partial): surveys that never climb, or whose first interval does not and that have no later station at a level (the limits of C191 and C192); levels told apart from the stations by np.isclose; a station at a level is the first point of its interval there.  The Connector of get_node_tvd is taken to return the direction it is given."
  },
  {
   "property": "C315",
   "status": "proved",
   "theorems": [
    "Welleng.Props.C315_directions",
    "Welleng.Props.C315_angles",
    "Welleng.Props.C315_true_well",
    "Welleng.Props.C315_depths"
   ],
   "note": "In real arithmetic.  C315_directions for errors of the direction vectors, C315_angles for errors of inclination and azimuth, C315_depths for errors of the interval lengths, C315_true_well together with the discretisation error of C306."
  },
  {
   "property": "C316",
   "status": "proved",
   "theorems": [
    "Welleng.Props.C316_fewer_sources",
    "Welleng.Props.C316_separation",
    "Welleng.Props.C316_tool_models"
   ],
   "note": "For the weight functions of tool_errors.py (C316_fewer_sources), the separation factor (C316_separation) and both together (C316_tool_models).  That the limit to bores that do not overlap is needed is C30_overlap_sigma_raises_sf."
  },
  {
   "property": "C317",
   "status": "proved",
   "theorems": [
    "Welleng.Props.C317_station",
    "Welleng.Props.C317_reported_distance"
   ],
   "note": "In real arithmetic; the optimiser of scipy is assumed to find the minimum of each interval within a tolerance (as in C157).  C317_station for the positions, C317_reported_distance for the search."
  },
  {
   "property": "C318",
   "status": "proved",
   "theorems": [
    "Welleng.Props.C318_more_friction",
    "Welleng.Props.C318_limit_needed"
   ],
   "note": "In real arithmetic.  The limit on friction times turn is part of the statement; C318_limit_needed shows that it cannot be dropped."
  },
  {
   "property": "C319",
   "status": "proved",
   "theorems": [
    "Welleng.Props.C319_proportional"
   ],
   "note": "In real arithmetic."
  },
  {
   "property": "C320",
   "status": "partial",
   "theorems": [
    "Welleng.Props.C320_ends_kept_partial",
    "Welleng.Props.C320_moved_little_partial",
    "Welleng.Props.C320_start_moved",
    "Welleng.Props.C320_target_moved"
   ],
   "note": "False of the code: C320_start_moved and C320_target_moved give searches that succeed with the start or the target moved by the random offset (an end straight ahead of the other).  C320_ends_kept_partial: kept in all other cases; C320_moved_little_partial: never moved by 2 m or more along an axis.  In real arithmetic."
  },
  {
   "property": "C321",
   "status": "proved",
   "theorems": [
    "Welleng.Props.C321_steps",
    "Welleng.Props.C321_step",
    "Welleng.Props.C321_succeeds"
   ],
   "note": "In real arithmetic, finite design radii.  C321_steps, C321_step and C321_succeeds are the three parts."
  },
  {
   "property": "C322",
   "status": "partial",
   "theorems": [
    "Welleng.Props.C322_outside_partial",
    "Welleng.Props.C322_choice_partial",
    "Welleng.Props.C322_middle_partial",
    "Welleng.Props.C322_first_curve_misses"
   ],
   "note": "A middle that is kept is outside all turning circles (C322_middle_partial), the points tried otherwise are outside (C322_outside_partial) and well chosen (C322_choice_partial), but the first step does not draw a path to them: C322_first_curve_misses, the angle found is zero and the hold starts two radii beside the well.  In real arithmetic."
  },
  {
   "property": "C323",
   "status": "partial",
   "theorems": [
    "Welleng.Props.C323_origin_partial",
    "Welleng.Props.C323_origin_matters"
   ],
   "note": "False of the code at large coordinates: C323_origin_matters.  C323_origin_partial: true as long as both origins agree on whether start and target count as the same point."
  },
  {
   "property": "C324",
   "status": "partial",
   "theorems": [
    "Welleng.Props.C324_zero_length",
    "Welleng.Props.C324_design_radius_partial",
    "Welleng.Props.C324_critical_radius_partial"
   ],
   "note": "False of the code at large coordinates: C324_zero_length (a target 40 m away, length zero).  C324_design_radius_partial and C324_critical_radius_partial: true in the cases of C74 if start and target do not count as the same point."
  },
  {
   "property": "C325",
   "status": "proved",
   "theorems": [
    "Welleng.Props.C325_reported_severity"
   ],
   "note": "In real arithmetic.  That the numbers are in radians although documented in degrees is the subject of an earlier property on the reported severities."
  },
  {
   "property": "C326",
   "status": "partial",
   "theorems": [
    "Welleng.Props.C326_first_location_partial",
    "Welleng.Props.C326_no_parent",
    "Welleng.Props.C326_colon_in_name"
   ],
   "note": "False of the code: C326_no_parent (with numpy 1.24 or later, where np.float is gone, no plan can be made with any parent; numpy is not pinned) and C326_colon_in_name.  C326_first_location_partial: true with an older numpy if no earlier line has L: in it."
  },
  {
   "property": "C327",
   "status": "partial",
   "theorems": [
    "Welleng.Props.C327_parent_first_partial",
    "Welleng.Props.C327_plan_lost"
   ],
   "note": "False of the code: C327_plan_lost (a parent plan with the word WELLPLANS in its name loses its header line, its steps are added to the plan before).  C327_parent_first_partial: true if the word is in one line of the parent only."
  },
  {
   "property": "C328",
   "status": "partial",
   "theorems": [
    "Welleng.Props.C328_same_units_partial",
    "Welleng.Props.C328_parent_in_feet"
   ],
   "note": "False of the code: C328_parent_in_feet (a parent in feet is loaded in metres, numbers unchanged).  C328_same_units_partial: true if all units agree."
  },
  {
   "property": "C329",
   "status": "proved",
   "theorems": [
    "Welleng.Props.C329_mirrored",
    "Welleng.Props.C329_entries",
    "Welleng.Props.C329_extended_misalignment"
   ],
   "note": "C329_extended_misalignment shows that the exception in the statement is needed: XYM3E puts an unsigned azimuth error at stations within 1e-4 of vertical, so wells to the north-east and the north-west get different north variances."
  },
  {
   "property": "C330",
   "status": "partial",
   "theorems": [
    "Welleng.Props.C330_header_values_partial",
    "Welleng.Props.C330_no_earth_rate_partial",
    "Welleng.Props.C330_earth_rate_ignored",
    "Welleng.Props.C330_gyro_bias",
    "Welleng.Props.C330_zero_field"
   ],
   "note": "False of the code: C330_earth_rate_ignored (header.earth_rate is never read; the constant 0.262516 is used), C330_gyro_bias (with the default header rate 0.26251614 the gyro bias term is not the value of its formula), C330_zero_field (a field of 0 becomes 50000 nT).  C330_header_values_partial: true if the header has that earth rate and a field; C330_no_earth_rate_partial: true of terms that do not mention the earth rate."
  },
  {
   "property": "C331",
   "status": "proved",
   "theorems": [
    "Welleng.Props.C331_positions",
    "Welleng.Props.C331_closest_point",
    "Welleng.Props.C331_separation",
    "Welleng.Props.C331_clearance",
    "Welleng.Props.C331_mirrored_tool_models"
   ],
   "note": "The tool-model part has the exception of C329 for extended misalignment sources at stations that are nearly but not exactly vertical."
  },
  {
   "property": "C332",
   "status": "partial",
   "theorems": [
    "Welleng.Props.C332_turned_partial",
    "Welleng.Props.C332_turn_matters"
   ],
   "note": "False of the code: C332_turn_matters (6000 km north of the origin a target 40 m to the east is a connection with a length; turned by 45 degrees it counts as the start itself and the connection has none, because np.allclose is relative per axis).  C332_turned_partial: true if the closeness test says the same in both coordinates."
  },
  {
   "property": "C333",
   "status": "proved",
   "theorems": [
    "Welleng.Props.C333_position",
    "Welleng.Props.C333_search",
    "Welleng.Props.C333_finish"
   ],
   "note": "C333_position, C333_search, C333_finish."
  },
  {
   "property": "C334",
   "status": "proved",
   "theorems": [
    "Welleng.Props.C334_position",
    "Welleng.Props.C334_finish"
   ],
   "note": "C334_position, C334_finish.  The two-curve search itself is not part of the statement: its tie-breaking between candidate directions is not symmetric."
  },
  {
   "property": "C335",
   "status": "partial",
   "theorems": [
    "Welleng.Props.C335_pair_partial",
    "Welleng.Props.C335_run_differs"
   ],
   "note": "False of the code: C335_run_differs (a vertical well and a level well starting 5 m beside its middle: at least 50 m one way round, at most 6 m the other, with any optimiser that finds minima to 1 m).  C335_pair_partial: for one pair of points every reported quantity is the same."
  },
  {
   "property": "C336",
   "status": "partial",
   "theorems": [
    "Welleng.Props.C336_mirror_partial",
    "Welleng.Props.C336_mirror_changes_forces"
   ],
   "note": "False of the code: C336_mirror_changes_forces (a level turn from north to north-east and its mirror image to north-west have different overpull tensions, because the azimuth difference is not reduced to half a turn).  C336_mirror_partial: true if azimuths only change sign, without being reduced to a full turn."
  },
  {
   "property": "C337",
   "status": "proved",
   "theorems": [
    "Welleng.Props.C337_mirrored"
   ],
   "note": "Azimuths of the mirrored well may be reduced to a full turn.  The difficulty index is compared for the same sum of doglegs, and the doglegs are shown to be the same."
  },
  {
   "property": "C338",
   "status": "proved",
   "theorems": [
    "Welleng.Props.C338_mirrored"
   ],
   "note": "With opposite azimuths the turn of exactly 180 degrees has the same sign both ways round, hence the exception."
  },
  {
   "property": "C339",
   "status": "proved",
   "theorems": [
    "Welleng.Props.C339_no_step"
   ],
   "note": ""
  },
  {
   "property": "C340",
   "status": "partial",
   "theorems": [
    "Welleng.Props.C340_kapa_partial",
    "Welleng.Props.C340_kappa_ignored",
    "Welleng.Props.C340_not_scaled"
   ],
   "note": "False of the code: C340_kappa_ignored and C340_not_scaled (the code looks up the misspelt keyword kapa; kappa is accepted and ignored).  C340_kapa_partial: both indices are proportional to kapa."
  },
  {
   "property": "C341",
   "status": "proved",
   "theorems": [
    "Welleng.Props.C341_source",
    "Welleng.Props.C341_tool",
    "Welleng.Props.C341_first_interval"
   ],
   "note": ""
  },
  {
   "property": "C342",
   "status": "proved",
   "theorems": [
    "Welleng.Props.C342_source",
    "Welleng.Props.C342_tool",
    "Welleng.Props.C342_smaller"
   ],
   "note": ""
  },
  {
   "property": "C343",
   "status": "proved",
   "theorems": [
    "Welleng.Props.C343_apart"
   ],
   "note": ""
  },
  {
   "property": "C344",
   "status": "partial",
   "theorems": [
    "Welleng.Props.C344_random_partial",
    "Welleng.Props.C344_optimistic_partial",
    "Welleng.Props.C344_systematic_partial",
    "Welleng.Props.C344_too_small",
    "Welleng.Props.C344_too_small_systematic"
   ],
   "note": "False of the code: the first station of the second survey has no error, and systematic errors of the two surveys are added as if independent (C344_too_small, C344_too_small_systematic: 450 instead of 1125 and of 2025). Proved for rev4 models without stations close to the vertical and sources not weighted by course length: the exact difference for random sources and for systematic ones, and that for random angle sources the two surveys are never more uncertain than one."
  },
  {
   "property": "C345",
   "status": "partial",
   "theorems": [
    "Welleng.Props.C345_source_partial",
    "Welleng.Props.C345_tool_partial",
    "Welleng.Props.C345_straight_partial",
    "Welleng.Props.C345_smaller"
   ],
   "note": "False of the code: a random depth error counts along the tangent only at the last station, so after a turn from north to east the northing variance falls from 1 to 1/2 (C345_smaller). Proved for wells without stations close to the vertical: random sources that change the angles only, the random part of a tool model with such sources, and other angle sources in straight wells."
  },
  {
   "property": "C346",
   "status": "proved",
   "theorems": [
    "Welleng.Props.C346_at_step"
   ],
   "note": "Consecutive stations more than 1e-4 apart, no reversal of direction, and the minimum curvature radius check passes (Fit), as in C339. Directions are compared as tangents; the key by which duplicates are removed is any rounding to 4 decimals."
  },
  {
   "property": "C347",
   "status": "proved",
   "theorems": [
    "Welleng.Props.C347_loads"
   ],
   "note": "Friction factor of the two parts that of the interval, weights not negative, one diameter. The string is described by the arrays the constructor computes (C41, C80)."
  },
  {
   "property": "C348",
   "status": "proved",
   "theorems": [
    "Welleng.Props.C348_twice"
   ],
   "note": "Stations and multiples of the step equal or more than 1e-4 apart, the minimum curvature radius check passes and no reversal of direction (Regular), as in C183; intervals straight or turning at least 2e-6 rad per metre, so that no piece of a curve is short enough to be taken as straight; survey in metres. Directions are compared as tangents."
  },
  {
   "property": "C349",
   "status": "proved",
   "theorems": [
    "Welleng.Props.C349_finer"
   ],
   "note": "Same conditions as C348, for the finer step."
  },
  {
   "property": "C350",
   "status": "proved",
   "theorems": [
    "Welleng.Props.C350_either_end"
   ],
   "note": "Arithmetic is exact (an ordered field): with floats the lengths need not add up. Sections are given by bottom and length from the top and by length from the bottom."
  },
  {
   "property": "C351",
   "status": "proved",
   "theorems": [
    "Welleng.Props.C351_nodes"
   ],
   "note": "Surveys in metres that can be resampled exactly (Regular, as in C183). Positions and directions are compared; both surveys have the same start position."
  },
  {
   "property": "C352",
   "status": "proved",
   "theorems": [
    "Welleng.Props.C352_turn"
   ],
   "note": "Surveys in metres that can be resampled exactly (Regular, as in C183)."
  },
  {
   "property": "C353",
   "status": "proved",
   "theorems": [
    "Welleng.Props.C353_order"
   ],
   "note": "Totals of ToolError over the sources of a code-based tool model, over all sources and per propagation mode; sums are exact."
  },
  {
   "property": "C354",
   "status": "proved",
   "theorems": [
    "Welleng.Props.C354_steps"
   ],
   "note": "Metres, azimuth reference other than magnetic, all surveys with covariances and arrays of equal length (as C20). At vertical stations azimuths in the other references may differ, since the constructor overwrites them; start positions are not compared."
  },
  {
   "property": "C355",
   "status": "proved",
   "theorems": [
    "Welleng.Props.C355_datum"
   ],
   "note": "Depths are reals, so the shift is exact. The first entry of the interval array (a constant of the constructor) is left out of the comparison."
  },
  {
   "property": "C356",
   "status": "proved",
   "theorems": [
    "Welleng.Props.C356_on_path",
    "Welleng.Props.C356_curve_hold_curve"
   ],
   "note": "Connections as the attributes interpolate_well reads; that a solved Connector has such arcs and straights is C74-C76 and C205. Metres, default grid header, default start."
  },
  {
   "property": "C357",
   "status": "proved",
   "theorems": [
    "Welleng.Props.C357_through_points"
   ],
   "note": "The forward and sideways parts of each gap are explicit; the turn condition is on them, not on the solver's result. Metres, default grid header, default start."
  },
  {
   "property": "C358",
   "status": "partial",
   "theorems": [
    "Welleng.Props.C358_end_lost",
    "Welleng.Props.C358_apart_partial"
   ],
   "note": "False of the code: decimals is checked but not passed to _remove_duplicates, which rounds to four decimals; the end of a well 0.02 mm beyond the station before it is dropped with decimals=6 (C358_end_lost). Proved: depths more than 1e-4 apart are kept for every decimals."
  },
  {
   "property": "C359",
   "status": "proved",
   "theorems": [
    "Welleng.Props.C359_hotter_not_denser",
    "Welleng.Props.C359_unique"
   ],
   "note": "About the density that balances the column exactly; the SLSQP optimiser that searches for it is not modelled."
  },
  {
   "property": "C360",
   "status": "partial",
   "theorems": [
    "Welleng.Props.C360_pressure_lightens",
    "Welleng.Props.C360_expanding_partial",
    "Welleng.Props.C360_example"
   ],
   "note": "False of the code: the reference density is taken as the density at the top whatever pressure is applied there, so pressure only stiffens the liquids; at the reference temperature throughout more applied pressure makes the mud strictly lighter below the surface (C360_pressure_lightens, C360_example). Proved: columns in which oil and water get no denser downwards (C360_expanding_partial). About the density that balances the column exactly; the optimiser is not modelled."
  },
  {
   "property": "C361",
   "status": "proved",
   "theorems": [
    "Welleng.Props.C361_datum",
    "Welleng.Props.C361_scale_depends"
   ],
   "note": "YAML catalogues. C361_scale_depends shows that the depth scale source has to be excluded: its covariance changes fourfold in a well of two stations."
  },
  {
   "property": "C362",
   "status": "proved",
   "theorems": [
    "Welleng.Props.C362_root_sum_square"
   ],
   "note": "YAML catalogues. Also shows that a source of magnitude zero next to one of the same kind changes nothing."
  },
  {
   "property": "C363",
   "status": "partial",
   "theorems": [
    "Welleng.Props.C363_single_partial",
    "Welleng.Props.C363_pair_partial",
    "Welleng.Props.C363_model_partial",
    "Welleng.Props.C363_not_turned"
   ],
   "note": "False of the code for models that are not rev4: the effect of an inclination error at the second station is doubled in north only, so sag does not turn (C363_not_turned). Proved: rev4 models made of any sources but XYM3E, XYM4E, XYM3L, XYM4L and ABIXY_TI2, with XYM3 and XYM4 in pairs of one magnitude and mode; other models made of the sources without an error of inclination and the course length sources."
  },
  {
   "property": "C364",
   "status": "partial",
   "theorems": [
    "Welleng.Props.C364_dictionary_partial",
    "Welleng.Props.C364_list_fails"
   ],
   "note": "False of the code for the documented argument: a list that is not empty ends in a TypeError, because the meshes are used as indices of the list (C364_list_fails). Proved for dictionaries. trimesh is not modelled beyond adding a geometry under a new name."
  },
  {
   "property": "C365",
   "status": "proved",
   "theorems": [
    "Welleng.Props.C365_off_bottom",
    "Welleng.Props.C365_overpull",
    "Welleng.Props.C365_drilling"
   ],
   "note": "About the loop over the arrays; the constructor that fills them fails (C42)."
  },
  {
   "property": "C366",
   "status": "partial",
   "theorems": [
    "Welleng.Props.C366_straight_partial",
    "Welleng.Props.C366_planar_partial",
    "Welleng.Props.C366_curve_fails"
   ],
   "note": "False of the code: in every build or drop of one azimuth the mean inclination overstates the vertical advance, so the tension is too large (C366_curve_fails). Proved: equality where every interval is straight, and a lower bound in wells of one azimuth that go down. The weights of a uniform string are taken as the code would compute them; the constructor itself fails (C42)."
  },
  {
   "property": "C367",
   "status": "partial",
   "theorems": [
    "Welleng.Props.C367_tortuosity_partial",
    "Welleng.Props.C367_difficulty_partial",
    "Welleng.Props.C367_difficulty_moves"
   ],
   "note": "False of the code for the difficulty index, which uses absolute depths and coordinates (C367_difficulty_moves). Proved for the sections and both tortuosity indices; the difficulty index keeps its value when the horizontal distance from the origin does."
  },
  {
   "property": "C368",
   "status": "partial",
   "theorems": [
    "Welleng.Props.C368_azimuths_partial",
    "Welleng.Props.C368_opposite_partial",
    "Welleng.Props.C368_vertical_station"
   ],
   "note": "False of the code when a station is vertical: its azimuth is replaced by the section azimuth, so the section of a kick-off to the north is its length towards north and zero towards south (C368_vertical_station). Proved for wells without a vertical station."
  },
  {
   "property": "C369",
   "status": "partial",
   "theorems": [
    "Welleng.Props.C369_errors_partial",
    "Welleng.Props.C369_long_partial",
    "Welleng.Props.C369_order",
    "Welleng.Props.C369_not_covariance",
    "Welleng.Props.C369_make_cov"
   ],
   "note": "False of the code for get_sigmas(long=True), which lists the variances first while make_long_cov expects the rows of the upper triangle (C369_order says when the result is right, C369_not_covariance that three independent errors come back as a matrix that is no covariance). Proved for errors_from_cov, for the reordered elements and for make_cov."
  },
  {
   "property": "C370",
   "status": "partial",
   "theorems": [
    "Welleng.Props.C370_columns_partial",
    "Welleng.Props.C370_repeated_label"
   ],
   "note": "False of the code when two columns of a block have the same label: the first is lost (C370_repeated_label). Proved otherwise. The rows are those of C141."
  },
  {
   "property": "C371",
   "status": "partial",
   "theorems": [
    "Welleng.Props.C371_default",
    "Welleng.Props.C371_stations",
    "Welleng.Props.C371_station_partial",
    "Welleng.Props.C371_gap"
   ],
   "note": "False of the code between stations: the part from the kick-off depth to the next station is left out (C371_gap). Proved: the stations examined are exactly those at or below the kick-off depth, a start at the kick-off depth if there is a station, the refusal and the default."
  },
  {
   "property": "C372",
   "status": "partial",
   "theorems": [
    "Welleng.Props.C372_path_partial",
    "Welleng.Props.C372_uncertainty_partial",
    "Welleng.Props.C372_section_turns"
   ],
   "note": "False of the vertical section, which uses the mean of two azimuths: a full turn at one station turns a leg to the north into one to the south (C372_section_turns). Proved for minimum curvature and for every hand-written tool model, with independent numbers of turns for the true, magnetic and grid azimuths."
  },
  {
   "property": "C373",
   "status": "partial",
   "theorems": [
    "Welleng.Props.C373_header",
    "Welleng.Props.C373_entry",
    "Welleng.Props.C373_again",
    "Welleng.Props.C373_used_partial",
    "Welleng.Props.C373_name_taken"
   ],
   "note": "False of the code if another tool has the short name already (C373_name_taken). Proved: the header read from the sheet, the entry and the refusal, the entries of other tools, adding again, and the choice by short name when the name is new, in any order of the written file. Reading and writing YAML is not modelled."
  },
  {
   "property": "C374",
   "status": "partial",
   "theorems": [
    "Welleng.Props.C374_file_partial",
    "Welleng.Props.C374_convergence"
   ],
   "note": "False of the convergence, which is handed over in radians where degrees are expected: right exactly if it is zero (C374_convergence); it is zero in the shipped file. Proved for everything else. Reading the JSON file is not modelled."
  },
  {
   "property": "C375",
   "status": "partial",
   "theorems": [
    "Welleng.Props.C375_source",
    "Welleng.Props.C375_tool_partial",
    "Welleng.Props.C375_random",
    "Welleng.Props.C375_first"
   ],
   "note": "False of random sources, which make the well below the copies look more certain (C375_random), and of the first station, which has no error while its copy has one (C375_first). Proved for stations other than the first and the last and for the systematic, global and within-pad parts. XYM3E, XYM4E, XYM3L and XYM4L are excluded: they divide by the length of the interval, which is zero."
  },
  {
   "property": "C376",
   "status": "proved",
   "theorems": [
    "Welleng.Props.C376_alarm",
    "Welleng.Props.C376_factor"
   ],
   "note": "The separation factor itself can rise when the holes overlap (C30_overlap_sigma_raises_sf), which is why the first part is about the alarm."
  },
  {
   "property": "C377",
   "status": "proved",
   "theorems": [
    "Welleng.Props.C377_loads"
   ],
   "note": "As in C347 the arrays are those of a string of one diameter; the part between the copies has no length and so no weight."
  },
  {
   "property": "C378",
   "status": "proved",
   "theorems": [
    "Welleng.Props.C378_refused",
    "Welleng.Props.C378_lines",
    "Welleng.Props.C378_no_heading"
   ],
   "note": "The lines of a file are a parameter of the model; only blanks count as trailing white space."
  },
  {
   "property": "C379",
   "status": "proved",
   "theorems": [
    "Welleng.Props.C379_stages"
   ],
   "note": ""
  },
  {
   "property": "C380",
   "status": "partial",
   "theorems": [
    "Welleng.Props.C380_refused",
    "Welleng.Props.C380_slice_partial",
    "Welleng.Props.C380_twice",
    "Welleng.Props.C380_xyz",
    "Welleng.Props.C380_scaled"
   ],
   "note": "False of the coordinates x, y, z, which are counted from the first station of the slice (C380_xyz), and of the table pos_nev with a grid scale factor other than one (C380_scaled). Proved for the rest. Azimuth references other than grid are C58."
  },
  {
   "property": "C381",
   "status": "partial",
   "theorems": [
    "Welleng.Props.C381_converted_partial",
    "Welleng.Props.C381_default_margins"
   ],
   "note": "False with the margins left at their defaults, 0.5 and 0.3 of whatever unit the surveys have (C381_default_margins). Proved if the margins are converted too."
  },
  {
   "property": "C382",
   "status": "partial",
   "theorems": [
    "Welleng.Props.C382_converted_partial",
    "Welleng.Props.C382_straight_ahead"
   ],
   "note": "False of targets straight ahead, which are moved by a random offset of up to one unit whatever the unit (C382_straight_ahead). Proved if the offset is converted too and the test for start and target being the same point, which has an absolute tolerance, agrees in both units."
  },
  {
   "property": "C383",
   "status": "partial",
   "theorems": [
    "Welleng.Props.C383_nested_partial",
    "Welleng.Props.C383_odd"
   ],
   "note": "False with an odd number of vertices (C383_odd: a triangle). Proved for every even number, which includes the default."
  },
  {
   "property": "C384",
   "status": "partial",
   "theorems": [
    "Welleng.Props.C384_pedal_partial",
    "Welleng.Props.C384_correlated"
   ],
   "note": "False of correlated high-side and lateral errors, because only the two standard deviations are used (C384_correlated); also of margins, for the reason in C72. Proved: the vertex is exactly as far out as the ellipse with the two semi-axes reaches in its direction, hence sigma standard deviations for uncorrelated errors without margins."
  },
  {
   "property": "C385",
   "status": "proved",
   "theorems": [
    "Welleng.Props.C385_torque"
   ],
   "note": ""
  },
  {
   "property": "C386",
   "status": "proved",
   "theorems": [
    "Welleng.Props.C386_denser"
   ],
   "note": ""
  },
  {
   "property": "C387",
   "status": "proved",
   "theorems": [
    "Welleng.Props.C387_stages"
   ],
   "note": "For a first call that ends with a unit direction."
  },
  {
   "property": "C388",
   "status": "proved",
   "theorems": [
    "Welleng.Props.C388_irrelevant"
   ],
   "note": ""
  },
  {
   "property": "C389",
   "status": "proved",
   "theorems": [
    "Welleng.Props.C389_unrelated",
    "Welleng.Props.C389_documents",
    "Welleng.Props.C389_stations"
   ],
   "note": ""
  },
  {
   "property": "C390",
   "status": "proved",
   "theorems": [
    "Welleng.Props.C390_station"
   ],
   "note": ""
  },
  {
   "property": "C391",
   "status": "proved",
   "theorems": [
    "Welleng.Props.C391_two_runs"
   ],
   "note": ""
  },
  {
   "property": "C392",
   "status": "proved",
   "theorems": [
    "Welleng.Props.C392_back"
   ],
   "note": ""
  },
  {
   "property": "C393",
   "status": "proved",
   "theorems": [
    "Welleng.Props.C393_order"
   ],
   "note": ""
  },
  {
   "property": "C394",
   "status": "proved",
   "theorems": [
    "Welleng.Props.C394_other_end"
   ],
   "note": ""
  },
  {
   "property": "C395",
   "status": "proved",
   "theorems": [
    "Welleng.Props.C395_causal"
   ],
   "note": ""
  },
  {
   "property": "C396",
   "status": "proved",
   "theorems": [
    "Welleng.Props.C396_drilled_on"
   ],
   "note": ""
  },
  {
   "property": "C397",
   "status": "proved",
   "theorems": [
    "Welleng.Props.C397_drilled_on"
   ],
   "note": ""
  },
  {
   "property": "C398",
   "status": "proved",
   "theorems": [
    "Welleng.Props.C398_drilled_on",
    "Welleng.Props.C398_every_depth",
    "Welleng.Props.C398_covariance"
   ],
   "note": ""
  },
  {
   "property": "C399",
   "status": "proved",
   "theorems": [
    "Welleng.Props.C399_drilled_on"
   ],
   "note": "Stated for wells whose vertical depths ascend; the search of the code bisects the vertical depths."
  },
  {
   "property": "C400",
   "status": "proved",
   "theorems": [
    "Welleng.Props.C400_pieces",
    "Welleng.Props.C400_drilled_on"
   ],
   "note": ""
  },
  {
   "property": "C401",
   "status": "proved",
   "theorems": [
    "Welleng.Props.C401_number",
    "Welleng.Props.C401_array"
   ],
   "note": ""
  },
  {
   "property": "C402",
   "status": "proved",
   "theorems": [
    "Welleng.Props.C402_drilled_on"
   ],
   "note": ""
  },
  {
   "property": "C403",
   "status": "partial",
   "theorems": [
    "Welleng.Props.C403_same_node_partial",
    "Welleng.Props.C403_other_node"
   ],
   "note": "False in general: the vertical depths are searched by bisection, so after a U-turn the depth 80 m of a vertical hole is found on the way up instead of at 80 m (C403_other_node). Proved for wells that get deeper and deeper (C403_same_node_partial, the same as C399)."
  },
  {
   "property": "C404",
   "status": "proved",
   "theorems": [
    "Welleng.Props.C404_drilled_on"
   ],
   "note": "The optimiser is arbitrary."
  },
  {
   "property": "C405",
   "status": "partial",
   "theorems": [
    "Welleng.Props.C405_not_farther_partial",
    "Welleng.Props.C405_looks_farther"
   ],
   "note": "False: only the intervals next to the nearest station are searched, so a new station on another branch diverts the search: 2 m become 18 m (C405_looks_farther). Proved when the new stations are not nearer than the nearest station was (C405_not_farther_partial)."
  },
  {
   "property": "C406",
   "status": "proved",
   "theorems": [
    "Welleng.Props.C406_drilled_on",
    "Welleng.Props.C406_surveys"
   ],
   "note": "The optimiser, the nearest-neighbour tree and the collision library are parameters."
  },
  {
   "property": "C407",
   "status": "proved",
   "theorems": [
    "Welleng.Props.C407_drilled_on"
   ],
   "note": "As in C191, the node found at a level is assumed to have that vertical depth."
  },
  {
   "property": "C408",
   "status": "proved",
   "theorems": [
    "Welleng.Props.C408_continued",
    "Welleng.Props.C408_stages"
   ],
   "note": ""
  },
  {
   "property": "C409",
   "status": "proved",
   "theorems": [
    "Welleng.Props.C409_appended",
    "Welleng.Props.C409_first_plans"
   ],
   "note": ""
  },
  {
   "property": "C410",
   "status": "proved",
   "theorems": [
    "Welleng.Props.C410_tighter_is_shorter",
    "Welleng.Props.C410_single_curve_is_longest"
   ],
   "note": ""
  },
  {
   "property": "C411",
   "status": "proved",
   "theorems": [
    "Welleng.Props.C411_shortest"
   ],
   "note": ""
  },
  {
   "property": "C412",
   "status": "proved",
   "theorems": [
    "Welleng.Props.C412_along_the_straight"
   ],
   "note": ""
  },
  {
   "property": "C413",
   "status": "proved",
   "theorems": [
    "Welleng.Props.C413_excess",
    "Welleng.Props.C413_limit"
   ],
   "note": ""
  },
  {
   "property": "C414",
   "status": "proved",
   "theorems": [
    "Welleng.Props.C414_sparse_severity"
   ],
   "note": ""
  },
  {
   "property": "C415",
   "status": "proved",
   "theorems": [
    "Welleng.Props.C415_progress",
    "Welleng.Props.C415_vertical"
   ],
   "note": ""
  },
  {
   "property": "C416",
   "status": "proved",
   "theorems": [
    "Welleng.Props.C416_off_bottom",
    "Welleng.Props.C416_drilling"
   ],
   "note": ""
  },
  {
   "property": "C417",
   "status": "proved",
   "theorems": [
    "Welleng.Props.C417_straight",
    "Welleng.Props.C417_critical_angle"
   ],
   "note": ""
  },
  {
   "property": "C418",
   "status": "proved",
   "theorems": [
    "Welleng.Props.C418_drilling",
    "Welleng.Props.C418_available_weight"
   ],
   "note": ""
  },
  {
   "property": "C419",
   "status": "proved",
   "theorems": [
    "Welleng.Props.C419_axes",
    "Welleng.Props.C419_deeper_is_lower"
   ],
   "note": "The library's own processing of meshes is not modelled."
  },
  {
   "property": "C420",
   "status": "proved",
   "theorems": [
    "Welleng.Props.C420_station",
    "Welleng.Props.C420_order"
   ],
   "note": "Two depths within one interval are not ordered by this claim."
  }
 ]
}