{
 "claims": [
  {
   "property": "C01",
   "status": "proved",
   "theorems": [
    "C01_error_iff",
    "C01_roman",
    "C01_injective"
   ],
   "note": "Whole domain 1..3999 by kernel evaluation of every case, all other integers by decision logic."
  },
  {
   "property": "C02",
   "status": "proved",
   "theorems": [
    "C02_input_text",
    "C02_commify",
    "C02_delete_separators",
    "grouped_unique"
   ],
   "note": "ASCII digits; separator read literally."
  },
  {
   "property": "C03",
   "status": "proved",
   "theorems": [
    "C03_terminates",
    "C03_empty_separator_diverges"
   ],
   "note": "Termination for every text; divergence for the empty separator."
  },
  {
   "property": "C04",
   "status": "proved",
   "theorems": [
    "C04_round_to_nearest",
    "C04_unique",
    "C04_nonintegral_step_violated"
   ],
   "note": "Exact rational arithmetic."
  },
  {
   "property": "C05",
   "status": "proved",
   "theorems": [
    "C05_floor",
    "C05_ceil",
    "C05_between",
    "C05_fixed"
   ],
   "note": "Exact rational arithmetic."
  },
  {
   "property": "C06",
   "status": "proved",
   "theorems": [
    "C06_small",
    "C06_large",
    "C06_pop_round"
   ],
   "note": "Integer inputs."
  },
  {
   "property": "C07",
   "status": "partial",
   "theorems": [
    "C07_unit_partial",
    "C07_small",
    "C07_long_million_violated"
   ],
   "note": "Violated by the code at exactly 1,000,000 in long mode; proved everywhere else."
  },
  {
   "property": "C08",
   "status": "proved",
   "theorems": [
    "C08_set_num_precision",
    "C08_error_bound",
    "C08_digits",
    "C08_idempotent",
    "C08_int_mode"
   ],
   "note": "Exact decimal arithmetic."
  },
  {
   "property": "C09",
   "status": "proved",
   "theorems": [
    "C09_raises_iff",
    "C09_components"
   ],
   "note": "Times in microseconds; float remainders in exact arithmetic."
  },
  {
   "property": "C10",
   "status": "proved",
   "theorems": [
    "C10_two_units",
    "C10_seconds",
    "C10_raises_iff"
   ],
   "note": ""
  },
  {
   "property": "C11",
   "status": "proved",
   "theorems": [
    "C11_utm_zone"
   ],
   "note": "Exact arithmetic."
  },
  {
   "property": "C12",
   "status": "proved",
   "theorems": [
    "C12_unsupported_iff",
    "C12_in_range",
    "C12_floor_contains",
    "C12_code_matches"
   ],
   "note": "Exact arithmetic."
  },
  {
   "property": "C13",
   "status": "partial",
   "theorems": [
    "C13_dateline_violated",
    "C13_dateline_witness",
    "C13_in_range_partial"
   ],
   "note": "Violated by the code for every raster crossing the date line; only the in-range part holds."
  },
  {
   "property": "C14",
   "status": "partial",
   "theorems": [
    "C14_method_ignored_violated",
    "C14_wrong_zone_witness",
    "C14_floor_partial"
   ],
   "note": "Violated by the code: the argument is ignored. Holds for 'floor'."
  },
  {
   "property": "C15",
   "status": "partial",
   "theorems": [
    "C15_year_map",
    "C15_same_calendar",
    "C15_strftime_partial",
    "C15_modern",
    "C15_century_violated"
   ],
   "note": "Violated for years congruent to 1900 mod 400; proved for all other years and formats without %c/%x."
  },
  {
   "property": "C16",
   "status": "proved",
   "theorems": [
    "C16_replace_in"
   ],
   "note": "Every format string, directive letter and replacement text."
  },
  {
   "property": "C17",
   "status": "proved",
   "theorems": [
    "C17_local_time",
    "C17_local_time_NE"
   ],
   "note": "Polygon tests and pytz are parameters."
  },
  {
   "property": "C18",
   "status": "partial",
   "theorems": [
    "C18_accessors_partial",
    "C18_getTimeZone_violated",
    "C18_empty_violated",
    "C18_nautical_int_violated"
   ],
   "note": "getTimeZone always fails; getLocalTime and getUTCOffset hold."
  },
  {
   "property": "C19",
   "status": "proved",
   "theorems": [
    "C19_error_iff",
    "C19_nearest",
    "C19_above_360"
   ],
   "note": "Circular nearness for azimuths in [-360,360]."
  },
  {
   "property": "C20",
   "status": "partial",
   "theorems": [
    "C20_short_partial",
    "C20_format_ignored_violated",
    "C20_witness"
   ],
   "note": "Violated: the format argument is ignored; holds for 'short'."
  },
  {
   "property": "C21",
   "status": "proved",
   "theorems": [
    "C21_constructor",
    "C21_bounds",
    "C21_radius",
    "C21_population",
    "C21_commute",
    "C21_idempotent",
    "C21_bounds_population_commute"
   ],
   "note": "Great-circle distance is a parameter. limitByRadius also deletes a pre-existing 'dist' column."
  },
  {
   "property": "C22",
   "status": "proved",
   "theorems": [
    "C22_outcome"
   ],
   "note": "minpop has no other effect."
  },
  {
   "property": "C23",
   "status": "partial",
   "theorems": [
    "C23_grid_partial",
    "C23_cells_cover",
    "C23_edge_violated",
    "C23_keyError"
   ],
   "note": "Exact arithmetic, any (unstable) sort. Missing: cities on the western/southern edge are dropped."
  },
  {
   "property": "C24",
   "status": "proved",
   "theorems": [
    "C24_disjoint",
    "C24_kept_iff",
    "C24_dropped_collides",
    "C24_over_removal",
    "C24_first_off_map"
   ],
   "note": "Label boxes are a parameter. The most populous city is kept even off the map."
  },
  {
   "property": "C25",
   "status": "proved",
   "theorems": [
    "C25_default_length",
    "lengths_ok"
   ],
   "note": ""
  },
  {
   "property": "C26",
   "status": "partial",
   "theorems": [
    "C26_validation_partial",
    "C26_override_violated"
   ],
   "note": "A valid override always raises UnboundLocalError."
  },
  {
   "property": "C27",
   "status": "proved",
   "theorems": [
    "C27_divisions_tile",
    "C27_ticks"
   ],
   "note": "Default length (the only path that draws)."
  },
  {
   "property": "C28",
   "status": "partial",
   "theorems": [
    "C28_lengths_partial",
    "C28_unequal_accepted_violated"
   ],
   "note": "Chained != accepts most unequal lengths."
  },
  {
   "property": "C29",
   "status": "proved",
   "theorems": [
    "C29_knots"
   ],
   "note": ""
  },
  {
   "property": "C30",
   "status": "partial",
   "theorems": [
    "C30_presets_partial",
    "C30_shaketopo_violated",
    "C30_presets_load"
   ],
   "note": "shaketopo has 11 lower and 10 upper bounds but still loads."
  },
  {
   "property": "C31",
   "status": "partial",
   "theorems": [
    "C31_formats_partial",
    "C31_scalar_array_violated"
   ],
   "note": "'array' on a scalar value repeats the tuple 255 times."
  },
  {
   "property": "C32",
   "status": "partial",
   "theorems": [
    "C32_five_maps_partial",
    "C32_slash_listing_violated",
    "C32_kinds_independent_violated"
   ],
   "note": "Refinement to five write-once maps over every history with plain names (no slash). With slashes the code violates the property: a name 'a/b' is listed as 'a', and dropDictionary('/strings/s') deletes a string."
  },
  {
   "property": "C33",
   "status": "proved",
   "theorems": [
    "C33_missing",
    "C33_only_lookup_errors"
   ],
   "note": "Plain names (no slash)."
  },
  {
   "property": "C34",
   "status": "proved",
   "theorems": [
    "C34_get_after_set",
    "C34_set_succeeds",
    "C34_set_untouched",
    "C34_set_twice",
    "C34_drop",
    "C34_get_missing"
   ],
   "note": "For every file, so for every history; group and entry names without slashes."
  },
  {
   "property": "C35",
   "status": "partial",
   "theorems": [
    "C35_listing_partial",
    "C35_listing_built",
    "C35_listing_exact",
    "C35_empty_group_violated",
    "C35_rejected_set_violated"
   ],
   "note": "Exact characterisation of the listing for every tree; the property holds when no group is empty, in particular in every file made by successful sets; emptied groups and groups left by a rejected set are listed as entries."
  },
  {
   "property": "C36",
   "status": "partial",
   "theorems": [
    "C36_replace_partial",
    "C36_rupture_replace_partial",
    "C36_station_partial",
    "C36_rupture_violated",
    "C36_unserialisable_violated"
   ],
   "note": "Replacement proved; rejected calls lose the old value in setRuptureDict (not a dict) and in every setter (value JSON cannot hold)."
  },
  {
   "property": "C37",
   "status": "proved",
   "theorems": [
    "C37_never_mixed"
   ],
   "note": "Histories of the output container's own setters and dropIMT, including calls that fail half way; IMT and component names without slashes. Direct use of the base class's setArray/dropDictionary on the internal entries is outside the history."
  },
  {
   "property": "C38",
   "status": "partial",
   "theorems": [
    "C38_unchanged_partial",
    "C38_new_container_violated",
    "C38_retry_fails_violated"
   ],
   "note": "Holds once the data type is set; violated for a new container."
  },
  {
   "property": "C39",
   "status": "proved",
   "theorems": [
    "C39_factory"
   ],
   "note": "get_sender_class over every name."
  },
  {
   "property": "C40",
   "status": "partial",
   "theorems": [
    "C40_validation_partial",
    "C40_missing_directory_violated"
   ],
   "note": "The constructor accepts exactly the configurations with all required properties, existing files and an existing directory, when the directory test is reached; the violation shows the configuration on which the full statement fails (the code raises the wrong exception)."
  },
  {
   "property": "C41",
   "status": "partial",
   "theorems": [
    "C41_delivery_partial",
    "C41_recurring_directory_violated",
    "C41_relative_remote_violated"
   ],
   "note": "Delivery of every listed file and every directory file under its relative path, contents equal, for ordinary configurations. Two violations show why the full statement is false: a local directory name that recurs in the path, and a relative remote directory."
  },
  {
   "property": "C42",
   "status": "partial",
   "theorems": [
    "C42_counted_twice_violated",
    "C42_listed_only_partial"
   ],
   "note": "The count is right for listed files only; with a directory the full statement is false (violation)."
  },
  {
   "property": "C43",
   "status": "proved",
   "theorems": [
    "C43_copy_atomic",
    "C43_ftp_atomic"
   ],
   "note": "At every point of every run, with any failure pattern, a destination path holds its old contents, or a complete source file."
  },
  {
   "property": "C44",
   "status": "partial",
   "theorems": [
    "C44_history_partial",
    "C44_failed_send_violated"
   ],
   "note": "Any history of successful sends and cancels; the violation shows a failing send that leaves the earlier cancel marker removed."
  },
  {
   "property": "C45",
   "status": "proved",
   "theorems": [
    "C45_create_directory"
   ],
   "note": "Every directory path and every failure pattern."
  },
  {
   "property": "C46",
   "status": "partial",
   "theorems": [
    "C46_count_partial",
    "C46_relative_remote_violated",
    "C46_listed_failure_violated"
   ],
   "note": "Count and delivered contents for ordinary configurations; two violations of the full statement."
  },
  {
   "property": "C47",
   "status": "proved",
   "theorems": [
    "C47_command",
    "C47_placeholder_value"
   ],
   "note": "Both commands, every configuration whose values hold no placeholder; C47_placeholder_value shows the hypothesis is needed."
  },
  {
   "property": "C48",
   "status": "proved",
   "theorems": [
    "C48_send"
   ],
   "note": "Every configuration and exit status; the empty directory name is excluded (no file is counted for it)."
  },
  {
   "property": "C49",
   "status": "proved",
   "theorems": [
    "C49_partition",
    "C49_one_copy",
    "C49_default_size"
   ],
   "note": "Batches for every list and max_bcc for which splitting ends; whole transfers for all failure patterns of servers that take a message for all addresses or not at all (C51 covers the others)."
  },
  {
   "property": "C50",
   "status": "partial",
   "theorems": [
    "C50_termination_partial",
    "C50_one_violated"
   ],
   "note": "Exact characterisation of when splitting ends; the full statement is false for max_bcc = 1 and negative values."
  },
  {
   "property": "C51",
   "status": "partial",
   "theorems": [
    "C51_failover_partial",
    "C51_quit_violated",
    "C51_refused_violated"
   ],
   "note": "Order, stop and exception for every pattern, exactly-once for servers that end sessions properly; the full statement is false (two violations)."
  },
  {
   "property": "C52",
   "status": "partial",
   "theorems": [
    "C52_sources_partial",
    "C52_no_prefix_violated"
   ],
   "note": "Holds when every id begins with a listed source; an id without one gets the first listed source."
  },
  {
   "property": "C53",
   "status": "proved",
   "theorems": [
    "C53_associated_ids"
   ],
   "note": ""
  },
  {
   "property": "C54",
   "status": "partial",
   "theorems": [
    "C54_first_answer_partial",
    "C54_retry_violated",
    "C54_other_code_violated"
   ],
   "note": "The retry never happens."
  },
  {
   "property": "C55",
   "status": "partial",
   "theorems": [
    "C55_quoting_partial",
    "C55_tilde_violated",
    "C55_empty_violated"
   ],
   "note": "Quoting is parsed back to one word for every non-empty string that does not begin with a tilde; a leading tilde is left unquoted and the empty string vanishes."
  },
  {
   "property": "C56",
   "status": "partial",
   "theorems": [
    "C56_recursive_partial",
    "C56_trailing_slash_violated",
    "C56_root_violated",
    "C56_newline_violated"
   ],
   "note": "Every tree with plain names is recreated exactly and the run ends. Fails for a trailing slash, the root directory and names with line feeds."
  },
  {
   "property": "C57",
   "status": "partial",
   "theorems": [
    "C57_inside_partial",
    "C57_absolute_violated",
    "C57_parent_violated"
   ],
   "note": "Holds for servers that send plain names and do not leave the directory; otherwise false."
  },
  {
   "property": "C58",
   "status": "proved",
   "theorems": [
    "C58_vector_algebra"
   ],
   "note": "Over real numbers."
  },
  {
   "property": "C59",
   "status": "proved",
   "theorems": [
    "C59_longitude"
   ],
   "note": "Over real numbers; depths less than the radius of the Earth."
  },
  {
   "property": "C60",
   "status": "proved",
   "theorems": [
    "C60_check_polygon"
   ],
   "note": ""
  },
  {
   "property": "C61",
   "status": "proved",
   "theorems": [
    "C61_rotate_polygon"
   ],
   "note": "Lists that are not closed or shorter than two points are refused."
  },
  {
   "property": "C62",
   "status": "partial",
   "theorems": [
    "C62_repair_partial",
    "C62_single_point_violated"
   ],
   "note": "Proved in full for polygons of two points or more. A polygon of a single point is valid, but makes all repairs be discarded."
  },
  {
   "property": "C63",
   "status": "partial",
   "theorems": [
    "C63_always_accepted_violated",
    "C63_corrected_partial"
   ],
   "note": "The verdict is always True (proved): the check measures p2 against a plane through p2. Proved of the corrected quad: coplanar, with the same bottom length."
  },
  {
   "property": "C64",
   "status": "proved",
   "theorems": [
    "C64_plane_distance",
    "C64_origin_violated"
   ],
   "note": "Also proved: for planes through the origin of the ECEF system the function returns 0 for every point."
  },
  {
   "property": "C65",
   "status": "proved",
   "theorems": [
    "C65_segment_distance"
   ],
   "note": "All segments, including those of length 0."
  },
  {
   "property": "C66",
   "status": "partial",
   "theorems": [
    "C66_unit_partial",
    "C66_unit_violated",
    "C66_binary_violated"
   ],
   "note": "Characterises exactly the directions for which the vector has unit length; violated for all others."
  },
  {
   "property": "C67",
   "status": "proved",
   "theorems": [
    "C67_decomposition"
   ],
   "note": ""
  },
  {
   "property": "C68",
   "status": "proved",
   "theorems": [
    "C68_rake_to_mech"
   ],
   "note": ""
  },
  {
   "property": "C69",
   "status": "partial",
   "theorems": [
    "C69_set_mechanism_partial",
    "C69_nan_violated"
   ],
   "note": "Complete for finite and absent angles; nan is accepted and stored (proved)."
  },
  {
   "property": "C70",
   "status": "partial",
   "theorems": [
    "C70_construct_partial",
    "C70_nan_violated"
   ],
   "note": "Complete characterisation of success, of KeyError and of the result; coordinates that are nan are accepted (proved)."
  },
  {
   "property": "C71",
   "status": "partial",
   "theorems": [
    "C71_quads_partial",
    "C71_gap_violated"
   ],
   "note": "The number of quadrilaterals, their corners (up to moving the end of the bottom edge into the plane and reversal) and the group index are proved; sharing of the lower corner is false (proved)."
  },
  {
   "property": "C72",
   "status": "partial",
   "theorems": [
    "C72_quads_partial",
    "C72_second_group_violated"
   ],
   "note": "One quadrilateral for each pair of neighbours of each group holds for the quadrilaterals used by the measures and distances; getQuadrilaterals repeats the first group (proved)."
  },
  {
   "property": "C73",
   "status": "proved",
   "theorems": [
    "C73_area"
   ],
   "note": "Heron's formula gives half the length of the cross product; the area is the sum over the quadrilaterals."
  },
  {
   "property": "C74",
   "status": "proved",
   "theorems": [
    "C74_between",
    "C74_traces",
    "weight_pos"
   ],
   "note": "T is between the smallest and the largest signed distance to the segments, since every weight is positive; one trace (C74_between) and several traces, some of them turned round (C74_traces); site off the traces."
  },
  {
   "property": "C75",
   "status": "partial",
   "theorems": [
    "C75_one_leg_partial",
    "C75_on_trace_violated",
    "C75_bend_violated"
   ],
   "note": "One segment: T and U of a site off the trace are its coordinates. On the trace T = 0 but U is the one left by the loop (0), and a site on one segment of a bent trace loses that segment."
  },
  {
   "property": "C76",
   "status": "proved",
   "theorems": [
    "C76_ry0"
   ],
   "note": "Both the values and the sign."
  },
  {
   "property": "C77",
   "status": "proved",
   "theorems": [
    "C77_get_distance"
   ],
   "note": "for lists of names and single names; the answer is specified by the structure Answer"
  },
  {
   "property": "C78",
   "status": "proved",
   "theorems": [
    "C78_great_circle",
    "C78_metric",
    "C78_azimuth"
   ],
   "note": "geodetic_distance is 6371 km times the angle of the unit vectors, hence a metric; azimuth is in [0, 360) and is the clockwise direction from north of the second point. Rounding is not modelled."
  },
  {
   "property": "C79",
   "status": "proved",
   "theorems": [
    "C79_extent"
   ],
   "note": "Also uniqueness."
  },
  {
   "property": "C80",
   "status": "partial",
   "theorems": [
    "C80_fix_lons",
    "C80_fix_box_partial",
    "C80_fix_box_violated"
   ],
   "note": "fix_lons_idl holds as stated. fix_bounding_box_idl holds for boxes given with min <= max; a crossing box given from west to east comes back with min > max, and a forced fix has no result for a side at 0."
  },
  {
   "property": "C81",
   "status": "partial",
   "theorems": [
    "C81_small_step_partial",
    "C81_exponent_step_violated"
   ],
   "note": "Violated by the code for steps printed in exponent notation; proved for fixed-point steps."
  },
  {
   "property": "C82",
   "status": "partial",
   "theorems": [
    "C82_guard_misses_violated",
    "C82_guard_sound",
    "C82_rejects_partial"
   ],
   "note": "Violated: an escaped directive hides a later real one."
  },
  {
   "property": "C83",
   "status": "partial",
   "theorems": [
    "C83_getTimeStr_partial",
    "C83_unknown",
    "C83_second_violated"
   ],
   "note": "Violated for 'second'; proved for the other six units."
  },
  {
   "property": "C84",
   "status": "proved",
   "theorems": [
    "C84_placement"
   ],
   "note": "Affine axes-to-data transform."
  },
  {
   "property": "C85",
   "status": "proved",
   "theorems": [
    "C85_interpolates"
   ],
   "note": "matplotlib's interpolation between knots is the specification's lerp."
  },
  {
   "property": "C86",
   "status": "proved",
   "theorems": [
    "C86_from_color_map"
   ],
   "note": ""
  },
  {
   "property": "C87",
   "status": "proved",
   "theorems": [
    "C87_grids_roundtrip",
    "C87_points_roundtrip",
    "C87_drop",
    "C87_listings"
   ],
   "note": ""
  },
  {
   "property": "C88",
   "status": "partial",
   "theorems": [
    "C88_bcc_disclosed_violated"
   ],
   "note": "The property is false for every batched message: the theorem shows that each copy names all its recipients."
  },
  {
   "property": "C89",
   "status": "partial",
   "theorems": [
    "C89_attachments_partial",
    "C89_directory_only_violated",
    "C89_zip_names_violated"
   ],
   "note": "What is attached when something is sent, and two violations of the full statement."
  },
  {
   "property": "C90",
   "status": "partial",
   "theorems": [
    "C90_cancel_text_partial",
    "C90_argument_ignored_violated"
   ],
   "note": "Holds when the property cancel_content is not set; otherwise the argument is ignored."
  },
  {
   "property": "C91",
   "status": "partial",
   "theorems": [
    "C91_constructor_partial",
    "C91_geoserve_violated"
   ],
   "note": "ComCatInfo proved; GeoServe ends in TypeError."
  },
  {
   "property": "C92",
   "status": "partial",
   "theorems": [
    "C92_grid_partial",
    "C92_emptied_violated"
   ],
   "note": "Fails for HTTP errors other than 503."
  },
  {
   "property": "C93",
   "status": "partial",
   "theorems": [
    "C93_time_partial",
    "C93_before_1970_violated"
   ],
   "note": "Fails before 1970."
  },
  {
   "property": "C94",
   "status": "partial",
   "theorems": [
    "C94_geoserve_partial",
    "C94_metadata_violated"
   ],
   "note": "The metadata is not removed."
  },
  {
   "property": "C95",
   "status": "proved",
   "theorems": [
    "C95_surface_roundtrip",
    "C95_equator_roundtrip",
    "C95_pole_roundtrip"
   ],
   "note": "Points more than a metre from the polar axis, where the code switches to a separate formula. At other depths the round trip is also exact on the equator and at the poles (down to 6000 km)."
  },
  {
   "property": "C96",
   "status": "proved",
   "theorems": [
    "C96_surface_distance",
    "C96_distance_km"
   ],
   "note": "Exactly planar convex corners; the code computes over floats."
  },
  {
   "property": "C97",
   "status": "proved",
   "theorems": [
    "C97_frame"
   ],
   "note": ""
  },
  {
   "property": "C98",
   "status": "proved",
   "theorems": [
    "C98_width_dip"
   ],
   "note": ""
  },
  {
   "property": "C99",
   "status": "proved",
   "theorems": [
    "C99_mesh"
   ],
   "note": "Nodes and cells by index; the number of nodes as computed from the length and spacing is shown to be at least two."
  },
  {
   "property": "C100",
   "status": "partial",
   "theorems": [
    "C100_text_partial",
    "C100_commas_violated"
   ],
   "note": "Proved for white-space separators, and for commas alone in the old format."
  },
  {
   "property": "C101",
   "status": "partial",
   "theorems": [
    "C101_kind_partial",
    "C101_plane_violated"
   ],
   "note": "Exact characterisation of the choice; coplanarity plays no role in it."
  },
  {
   "property": "C102",
   "status": "partial",
   "theorems": [
    "C102_outline_partial",
    "C102_reversed_violated"
   ],
   "note": "Proved for groups no quadrilateral of which is reversed; false for groups of reversed quadrilaterals (proved)."
  },
  {
   "property": "C103",
   "status": "proved",
   "theorems": [
    "C103_from_vertices"
   ],
   "note": ""
  },
  {
   "property": "C104",
   "status": "proved",
   "theorems": [
    "C104_distances"
   ],
   "note": "Sites are ECEF positions; quadrilaterals are required to be convex and in a plane."
  },
  {
   "property": "C105",
   "status": "proved",
   "theorems": [
    "C105_summaries"
   ],
   "note": ""
  },
  {
   "property": "C106",
   "status": "proved",
   "theorems": [
    "C106_strike"
   ],
   "note": "Azimuths are those of the openquake library (C78)."
  },
  {
   "property": "C107",
   "status": "partial",
   "theorems": [
    "C107_depth_partial",
    "C107_depth_violated"
   ],
   "note": "True for top edges at the surface only; below it the depth is wrong by nearly the depth of the top edge (proved)."
  },
  {
   "property": "C108",
   "status": "proved",
   "theorems": [
    "C108_trace"
   ],
   "note": "In the plane of the projection."
  },
  {
   "property": "C109",
   "status": "partial",
   "theorems": [
    "C109_area_partial",
    "C109_area_violated"
   ],
   "note": "True for parallelograms; false for trapezoids (proved)."
  },
  {
   "property": "C110",
   "status": "partial",
   "theorems": [
    "C110_trace_groups_partial",
    "C110_short_index_violated"
   ],
   "note": "A short index is accepted and loses quadrilaterals (proved)."
  },
  {
   "property": "C111",
   "status": "partial",
   "theorems": [
    "C111_write_read_partial",
    "C111_default_format_violated"
   ],
   "note": "True for new_format=False; with the default format latitude and longitude are exchanged (proved)."
  },
  {
   "property": "C112",
   "status": "proved",
   "theorems": [
    "C112_from_arrays"
   ],
   "note": "For all arrays and group indices; numbers are natural numbers in the model."
  },
  {
   "property": "C113",
   "status": "partial",
   "theorems": [
    "C113_strike_dip_partial",
    "sums_form",
    "C113_vertical_violated",
    "C113_sums"
   ],
   "note": "Dip exact and strike within the tilt of the mean north vector for all sums that are neither horizontal nor vertical; a vertical rupture along the equator gets dip 0 (proved). C113_sums says what the sums are: area-weighted normals, vertical directions and directions to the north."
  },
  {
   "property": "C114",
   "status": "partial",
   "theorems": [
    "C114_mesh_distance_partial",
    "C114_over_violated"
   ],
   "note": "The bound of one and a half spacings is proved for parallelograms; for other quadrilaterals the bound is half the longest step each way. computeRjb is not 0 at points over the rupture (proved)."
  },
  {
   "property": "C115",
   "status": "partial",
   "theorems": [
    "C115_argument_partial",
    "C115_argument_violated"
   ],
   "note": "Holds when mech is given; type is moved to mech in the caller's dictionary (proved)."
  },
  {
   "property": "C116",
   "status": "partial",
   "theorems": [
    "C116_source_partial",
    "C116_blank_violated",
    "C116_second_equals_violated"
   ],
   "note": "Proved for files whose lines are comments or settings with one '='; violated for blank lines and for a second '='. int and float are parameters."
  },
  {
   "property": "C117",
   "status": "partial",
   "theorems": [
    "C117_event_file_partial",
    "C117_kind_violated",
    "C117_python_partial",
    "C117_year_violated",
    "C117_required"
   ],
   "note": "Round trip and failure behaviour proved; the kind of event and the fraction of a second are lost, and events before the year 1000 cannot be read back. The XML library is not modelled; formats and time parsers are parameters in C117_event_file_partial and Python's own in C117_python_partial, where float is assumed to read decimals."
  },
  {
   "property": "C118",
   "status": "partial",
   "theorems": [
    "C118_old_dates_violated"
   ],
   "note": "The code violates the property: HistoricTime has no attribute datetime, so no file without time is ever read."
  },
  {
   "property": "C119",
   "status": "proved",
   "theorems": [
    "C119_gc2",
    "weight_integral",
    "C76_ry0"
   ],
   "note": "Weights are stated as integrals in Spec/Gc2.lean."
  },
  {
   "property": "C120",
   "status": "partial",
   "theorems": [
    "C120_traces_partial",
    "C120_opposite_violated"
   ],
   "note": "Holds whenever the projections of the traces on the direction do not add up to zero. Sites on a trace are excluded. Fuel 2 is enough for the recursive turning of the direction."
  },
  {
   "property": "C121",
   "status": "partial",
   "theorems": [
    "C121_candidates_partial",
    "C121_inner_corners_violated"
   ],
   "note": "Holds if every trace is one quadrilateral; otherwise the ends of a trace of several quadrilaterals do not matter at all."
  },
  {
   "property": "C122",
   "status": "partial",
   "theorems": [
    "C122_edge_groups_violated"
   ],
   "note": "The property fails for every such rupture; the theorem shows the IndexError."
  },
  {
   "property": "C123",
   "status": "partial",
   "theorems": [
    "C123_ry0_partial",
    "C123_ry0_violated"
   ],
   "note": "ry0 is measured from 0 and from the end of the last trace; the second theorem is a rupture on the equator with a positive ry0 between its ends."
  },
  {
   "property": "C124",
   "status": "partial",
   "theorems": [
    "C124_box_partial",
    "C124_box_violated"
   ],
   "note": "Holds for less than 180 degrees and no two copies of the date line; the second theorem shows both exceptions."
  },
  {
   "property": "C125",
   "status": "proved",
   "theorems": [
    "C125_distance"
   ],
   "note": "Real arithmetic."
  },
  {
   "property": "C126",
   "status": "partial",
   "theorems": [
    "C126_same_partial",
    "C126_clean",
    "C126_transitive_violated"
   ],
   "note": "All but transitivity."
  },
  {
   "property": "C127",
   "status": "proved",
   "theorems": [
    "C127_coordinates"
   ],
   "note": "Real arithmetic."
  },
  {
   "property": "C128",
   "status": "proved",
   "theorems": [
    "C128_triangle",
    "C128_normalized"
   ],
   "note": "Heron formula against the cross product."
  },
  {
   "property": "C129",
   "status": "proved",
   "theorems": [
    "C129_point"
   ],
   "note": "nan is not modelled."
  },
  {
   "property": "C130",
   "status": "proved",
   "theorems": [
    "C130_forward",
    "C130_contraction",
    "C130_roundtrip"
   ],
   "note": "For one point and any centre; the centre of a box (get_middle_point of the openquake library) is a parameter. The poles are excluded from the round trip."
  },
  {
   "property": "C131",
   "status": "partial",
   "theorems": [
    "C131_mesh_violated"
   ],
   "note": "violated: every call overwrites the spacing of the mesh, by default with 0.5"
  },
  {
   "property": "C132",
   "status": "partial",
   "theorems": [
    "C132_context",
    "C132_no_rupture_violated"
   ],
   "note": "the context is as stated; violated for the optional rupture: without one every call fails"
  },
  {
   "property": "C133",
   "status": "partial",
   "theorems": [
    "C133_distances",
    "C133_deep_site_violated"
   ],
   "note": "holds for sites at the surface; violated for sites at depth"
  },
  {
   "property": "C134",
   "status": "proved",
   "theorems": [
    "C134_parameters",
    "C134_range",
    "C134_gc2",
    "C134_tables"
   ],
   "note": "the table of ps2ff is a parameter with a value at every distance in its range"
  },
  {
   "property": "C135",
   "status": "proved",
   "theorems": [
    "C135_rake"
   ],
   "note": "composed with the constructor of origins (C70)"
  },
  {
   "property": "C136",
   "status": "partial",
   "theorems": [
    "C136_atomic_partial",
    "C136_backslash_violated"
   ],
   "note": "for names without characters special to a shell; C136_backslash_violated shows that the claim is false for others"
  },
  {
   "property": "C137",
   "status": "partial",
   "theorems": [
    "C137_delivery_partial",
    "C137_silent_failure_violated",
    "C137_blank_violated",
    "C137_folder"
   ],
   "note": "proved for a reliable machine and plain names; false when mv fails or for names with blanks"
  },
  {
   "property": "C138",
   "status": "partial",
   "theorems": [
    "C138_marker_stays_violated"
   ],
   "note": "refuted: the marker is left as it was, on every machine"
  },
  {
   "property": "C139",
   "status": "partial",
   "theorems": [
    "C139_file_removed_violated"
   ],
   "note": "refuted: on every reliable machine the file is replaced by a directory"
  },
  {
   "property": "C140",
   "status": "partial",
   "theorems": [
    "C140_cancel_partial",
    "C140_default_text_violated",
    "C140_unquoted_violated"
   ],
   "note": "proved for texts of plain words; refuted for no text and for blanks and quotes"
  },
  {
   "property": "C141",
   "status": "proved",
   "theorems": [
    "C141_ftp_delivers"
   ],
   "note": "Server, local side and naming arbitrary within the small specification FtpRoom and FtpOrdinary; relative remote directories are excluded by the statement (C46_relative_remote_violated)."
  },
  {
   "property": "C142",
   "status": "partial",
   "theorems": [
    "C142_cancel_partial",
    "C142_cancel_returns",
    "C142_relative_violated",
    "C142_send_keeps_marker_violated"
   ],
   "note": "Proved for absolute remote directories and all failure patterns. Fails for every relative remote directory, and send never removes the marker; both proved as violations."
  },
  {
   "property": "C143",
   "status": "partial",
   "theorems": [
    "C143_middle_point_partial",
    "C143_pole_violated"
   ],
   "note": "All pairs whose first point is not a pole. At a pole the azimuth of openquake's point_at has no effect, so the claim is false there (C143_pole_violated)."
  },
  {
   "property": "C144",
   "status": "partial",
   "theorems": [
    "C144_point_at_partial",
    "C144_closer_than",
    "C144_pole_violated"
   ],
   "note": "geodetic.point_at of the openquake library is a parameter that goes along great circles. C144_pole_violated: from a pole all azimuths lead to the same point."
  },
  {
   "property": "C145",
   "status": "proved",
   "theorems": [
    "C145_plane_fit"
   ],
   "note": "numpy.linalg.svd is a parameter that returns the first factor of a singular value decomposition."
  },
  {
   "property": "C146",
   "status": "proved",
   "theorems": [
    "C146_from_trace",
    "C146_errors"
   ],
   "note": "The projection is the modelled one, with point_at of the openquake library as a parameter. Group numbers as in C103 and C110."
  },
  {
   "property": "C147",
   "status": "partial",
   "theorems": [
    "C147_from_orientation_partial",
    "C147_negative_dy_violated"
   ],
   "note": "point_at of the openquake library is a parameter that goes along great circles. Missing: known points and corners at a pole; a negative dy, for which the claim is false."
  },
  {
   "property": "C148",
   "status": "proved",
   "theorems": [
    "C148_validate"
   ],
   "note": "all JSON documents; the comparison of depths that are not numbers is a parameter"
  },
  {
   "property": "C149",
   "status": "partial",
   "theorems": [
    "C149_arguments",
    "C149_json",
    "C149_text_partial",
    "C149_refusal",
    "C149_exceptions",
    "C149_text_quad_violated"
   ],
   "note": "text polygons of one point are left out of C149_text_partial; json.load and float are parameters. C149_text_quad_violated: against the docstring, a text file can give an edge rupture"
  },
  {
   "property": "C150",
   "status": "partial",
   "theorems": [
    "C150_put",
    "C150_readable",
    "C150_missing",
    "C150_shrinking_violated",
    "C150_growing_violated",
    "C150_reuse_violated"
   ],
   "note": "For files that can be read and keep their size. Violations: a file that becomes shorter makes put run for ever, one that grows is sent with bytes the announcement does not cover, and after a failed transfer the next one uses the old session."
  },
  {
   "property": "C151",
   "status": "proved",
   "theorems": [
    "C151_put_recursive"
   ],
   "note": "The tree is the one os.walk lists; the argument does not end in a slash (C56 shows what happens then)."
  },
  {
   "property": "C152",
   "status": "partial",
   "theorems": [
    "C152_get",
    "C152_rename_file",
    "C152_rename_dir",
    "C152_blank_violated"
   ],
   "note": "For names without a blank at the end, and lines of at most 1024 bytes that arrive at once. A blank at the end of a file name is lost."
  },
  {
   "property": "C153",
   "status": "proved",
   "theorems": [
    "C153_whole"
   ],
   "note": "For every stream; the machine's files are an arbitrary oracle."
  },
  {
   "property": "C154",
   "status": "partial",
   "theorems": [
    "C154_refusal_partial",
    "C154_eof_violated",
    "C154_split_violated",
    "C154_timeout_violated"
   ],
   "note": "Silence inside a file and unknown messages are SCPException. Violations: the end of the stream inside a file makes get run for ever, a line in two portions is an AssertionError, silence between messages is a raw socket.timeout."
  },
  {
   "property": "C155",
   "status": "partial",
   "theorems": [
    "C155_pieces",
    "C155_describe",
    "C155_error",
    "C155_unknown",
    "C155_abbreviation_violated",
    "C155_names"
   ],
   "note": "Proved for every sound checkout. C155_abbreviation_violated: without a tag the abbreviation is cut to seven characters whatever git printed, so the styles differ from git describe when git uses more."
  },
  {
   "property": "C156",
   "status": "partial",
   "theorems": [
    "C156_identifies_partial",
    "C156_plus_violated",
    "C156_release",
    "C156_changes",
    "C156_pre_violated",
    "C156_style"
   ],
   "note": "C156_identifies_partial needs tags without '+': C156_plus_violated gives two checkouts with one version. C156_pre_violated: pep440-pre hides local changes."
  },
  {
   "property": "C157",
   "status": "partial",
   "theorems": [
    "C157_pep440",
    "C157_others_partial",
    "C157_post_violated"
   ],
   "note": "The style pep440 is proved for all PEP 440 tags, the others for tags without a post or development release; C157_post_violated shows that they fail for a tag with a post-release."
  },
  {
   "property": "C158",
   "status": "partial",
   "theorems": [
    "C158_archive_partial",
    "C158_branch_violated",
    "C158_order_violated",
    "C158_file"
   ],
   "note": "Proved for commits with a tag. C158_branch_violated: a commit without a tag gets the name of a branch with a digit as its version; C158_order_violated: the alphabetically first tag need not be the newest."
  },
  {
   "property": "C159",
   "status": "partial",
   "theorems": [
    "C159_checkout",
    "C159_archive",
    "C159_unpacked",
    "C159_unknown",
    "C159_raises_partial",
    "C159_raises_violated",
    "C159_nested_violated"
   ],
   "note": "The order is proved. C159_raises_partial limits what can be raised; C159_raises_violated and C159_nested_violated exhibit an exception that escapes and a wrong version from a nested directory."
  },
  {
   "property": "C160",
   "status": "partial",
   "theorems": [
    "C160_nan",
    "C160_depth_partial",
    "C160_sizes",
    "C160_counts",
    "C107_depth_violated"
   ],
   "note": "C160_nan, C160_sizes and C160_counts are full. C160_depth_partial: the formula of the depth at the point is proved; it is the depth of the plane for a top edge at the surface, while C107_depth_violated shows that it is not for a buried one (kilometres and metres are mixed)."
  },
  {
   "property": "C161",
   "status": "partial",
   "theorems": [
    "C161_strike_partial",
    "C161_vertical_violated"
   ],
   "note": "Strike slip is right. C161_vertical_violated: for a vertical quadrilateral the vectors for reverse and normal slip are exchanged."
  },
  {
   "property": "C162",
   "status": "partial",
   "theorems": [
    "C162_cities",
    "C162_iff",
    "C162_bad_record",
    "C162_short_line",
    "C162_name",
    "C162_arrays",
    "C162_download_violated",
    "C162_last_line"
   ],
   "note": "All parts hold except the last one on downloads: when reading fails, the folder of a downloaded file is left behind. float and int on a text and the search of pandas are parameters."
  },
  {
   "property": "C163",
   "status": "partial",
   "theorems": [
    "C163_file",
    "C163_missing_heading",
    "C163_colon_violated"
   ],
   "note": "Proved for tables whose rows have the length of the header and whose cells are numbers; what pandas makes of other tables is not modelled. A name with a colon is cut at the colon."
  },
  {
   "property": "C164",
   "status": "partial",
   "theorems": [
    "C164_drawn_partial",
    "C164_keyError",
    "C164_center",
    "C164_edge_violated",
    "C164_single_violated",
    "C164_again_violated",
    "C164_dateline_violated",
    "C164_dimensions_violated",
    "C164_label",
    "C164_margin_partial"
   ],
   "note": "Labels do not touch on axes that fill the figure, and all labels but the first stay on the map. Violated: the westernmost and southernmost cities are never drawn, a single city is not drawn, each further call loses cities, a map across the date line has none, and on smaller axes labels may touch. The sizes of labels are a parameter."
  },
  {
   "property": "C165",
   "status": "partial",
   "theorems": [
    "C165_tree_partial",
    "C165_hit",
    "C165_bound",
    "C165_distorted_violated"
   ],
   "note": "With the index the answer is nearest as seen from above the centre, with its true distance; objects exactly at the place are always found. It need not be the closest object on the sphere. The index of rtree is a parameter that finds a nearest point of the plane; min_idx_dst is a library function and not modelled."
  },
  {
   "property": "C166",
   "status": "partial",
   "theorems": [
    "C166_polygon",
    "C166_line_partial",
    "C166_refused",
    "C166_three_violated",
    "C166_ring_violated"
   ],
   "note": "For at least four points, consecutive ones different, the answer is exact in the projection. Violated for three points, and for lines whose last point repeats the first, where the documentation promises True. is_simple of shapely is a parameter that decides whether a line crosses itself."
  },
  {
   "property": "C167",
   "status": "partial",
   "theorems": [
    "C167_folder_partial",
    "C167_link",
    "C167_flat_violated",
    "C167_folder_entry_violated",
    "C167_folders_violated",
    "C167_link_violated",
    "C167_no_link"
   ],
   "note": "Proved for archives with one folder that is new in the output directory. An archive without folders makes the call delete the whole output directory, with the file it returns; an archive that lists its folder ends in shutil.Error; an existing folder of that name is deleted and a second one left; without a matching link the last link is followed. The network, the page parser and the archive format are parameters."
  },
  {
   "property": "C168",
   "status": "partial",
   "theorems": [
    "C168_point_partial",
    "C168_quad_partial",
    "C168_edge_partial",
    "C168_context",
    "C168_point_reference_violated",
    "C168_edge_reference_violated",
    "C168_quad_class_violated",
    "C168_time_violated",
    "C168_year_violated"
   ],
   "note": "Proved for the class, geometry, metadata, origin and context. The reference of a PointRupture is lost, an edge rupture is read back with the reference of its origin, a quad rupture whose origin has mesh_dx comes back as an edge rupture, and a plain datetime in a PointRupture is not written as text. Formatting and parsing of times are parameters that invert each other for the time in question, which C194_ruptures_partial proves of Python's for times from the year 1000 on; a rupture of an earlier year is refused (C168_year_violated); JSON text is in C181."
  },
  {
   "property": "C169",
   "status": "partial",
   "theorems": [
    "C169_source_partial",
    "C169_moment_violated",
    "C169_type_violated"
   ],
   "note": "Proved without a moment file. With one the call always ends in NameError; type in the source file does not override mech of the event file. The readers of the files are modelled elsewhere."
  },
  {
   "property": "C170",
   "status": "partial",
   "theorems": [
    "C170_text",
    "C170_save_partial",
    "C170_columns_violated",
    "C170_refused"
   ],
   "note": "Proved with the CSV text modelled; conversion between values and text is a parameter. The loaded table always has one column more, Unnamed: 0, with the old row labels."
  },
  {
   "property": "C171",
   "status": "partial",
   "theorems": [
    "C171_project_partial",
    "C171_sort_violated"
   ],
   "note": "project is proved; sortByColumns raises TypeError on every input, because the attribute columns is called."
  },
  {
   "property": "C172",
   "status": "partial",
   "theorems": [
    "C172_history_partial",
    "C172_like_new",
    "C172_files_violated",
    "C172_directory_violated",
    "C172_shared_violated"
   ],
   "note": "Proved for directories and properties over every history. addFiles always raises NameError, a missing directory raises NameError, and senders constructed with the same dictionary share their properties."
  },
  {
   "property": "C173",
   "status": "partial",
   "theorems": [
    "C173_connection_partial",
    "C173_send_violated",
    "C173_cancel_violated"
   ],
   "note": "A send that succeeds closes its connection. After a send that fails, and after every cancel, the connection stays open."
  },
  {
   "property": "C174",
   "status": "partial",
   "theorems": [
    "C174_operands",
    "C174_symmetric",
    "C174_scalar_partial",
    "C174_scalar_violated",
    "C174_tuple"
   ],
   "note": "Proved for all operands except that a text which is a number is accepted as a factor, where TypeError is documented."
  },
  {
   "property": "C175",
   "status": "partial",
   "theorems": [
    "C175_wire_partial",
    "C175_map_partial",
    "C175_single",
    "C175_groups_violated",
    "C175_dateline_violated",
    "C175_pole_violated",
    "C175_point_violated"
   ],
   "note": "Proved for surfaces away from the date line and the poles, and the line for single groups; the violations are proved for all inputs outside."
  },
  {
   "property": "C176",
   "status": "partial",
   "theorems": [
    "C176_arithmetic",
    "C176_floor_partial",
    "C176_ceil_partial",
    "C176_round_partial",
    "C176_population_partial",
    "C176_time",
    "C176_large_violated",
    "C176_tiny_violated",
    "C176_decimals_violated",
    "C176_precision_violated",
    "C176_decimal_fixed",
    "C176_decimal_round_partial",
    "C176_precision_partial"
   ],
   "note": "Proved for integral steps and values in the stated range; outside it, and for decimal steps, the violations are proved."
  },
  {
   "property": "C177",
   "status": "proved",
   "theorems": [
    "C177_persistent",
    "C177_load",
    "C177_closed",
    "C177_create"
   ],
   "note": "The assumptions on h5py are stated in Model/ContainerFiles: open objects of one file share its contents, a file that is open is not truncated, closing keeps the contents."
  },
  {
   "property": "C178",
   "status": "partial",
   "theorems": [
    "C178_atomic_partial",
    "C178_delivered_partial",
    "C178_different_places",
    "C178_different_seconds_partial",
    "C178_alone",
    "C178_same_second_violated",
    "C178_exception_violated"
   ],
   "note": "Proved for all schedules in which no temporary name is in use twice, in particular for senders to different places; the violations are proved. C178_alone ties the stepwise model to the model of C41 to C44."
  },
  {
   "property": "C179",
   "status": "partial",
   "theorems": [
    "C179_arguments_partial",
    "C179_blank_violated",
    "C179_quotes_violated",
    "C179_operator_violated",
    "C179_cancel_files_violated"
   ],
   "note": "Proved for all values without special characters (text properties: anything but double quotes, dollars, backquotes, backslashes, NUL); the violations are proved. The shell is the small specification in Spec/Shell.lean."
  },
  {
   "property": "C180",
   "status": "partial",
   "theorems": [
    "C180_same_partial",
    "C180_returned",
    "C180_twice",
    "C180_histories",
    "C180_ascii",
    "C180_tuple_violated",
    "C180_key_violated",
    "C180_merged_violated",
    "C180_types_violated",
    "C180_trailing",
    "C180_floats",
    "C180_read",
    "C180_python_partial"
   ],
   "note": "Proved: exactly the plain values come back as they were; what becomes of every other value is proved too, and is a violation. Python's repr and float are modelled for all doubles, with infinities, NaN and signed zeros, and read what they wrote (C180_floats)."
  },
  {
   "property": "C181",
   "status": "partial",
   "theorems": [
    "C181_file_partial",
    "C181_complete",
    "C181_point_partial",
    "C181_quad_partial",
    "C181_edge_partial",
    "C181_time_violated"
   ],
   "note": "Proved for all ruptures without times left in their dictionaries, which is exactly when the call succeeds; when it fails the file is no JSON text (violation for points with a datetime). repr and float are a parameter that reads what it wrote, which C180_floats proves of Python's floats; texts of times as in C168; errors of the file system are not modelled."
  },
  {
   "property": "C182",
   "status": "partial",
   "theorems": [
    "C182_documents_partial",
    "C182_setters",
    "C182_rupture_partial",
    "C182_quad_partial",
    "C182_history_violated",
    "C182_time_violated"
   ],
   "note": "Proved for all histories with plain IMT and component names. The documented AttributeError of getVersionHistory is never raised (violation); ruptures with times are refused and delete the stored one (violation)."
  },
  {
   "property": "C183",
   "status": "partial",
   "theorems": [
    "C183_color_partial",
    "C183_ends",
    "C183_order",
    "C183_nan",
    "C183_stretch",
    "C183_log",
    "C183_bytes",
    "C183_documented_violated",
    "C183_top_violated",
    "C183_unordered_violated",
    "C183_gap_violated",
    "C183_presets",
    "C183_population",
    "C183_intensity_violated"
   ],
   "note": "matplotlib's table of colours is modelled after its algorithm. The colour is that of a value at most one resolution (and at most one 256th of the range) away; the exact colour is a violation, as are the two top values sharing a colour, unordered ranges and gaps."
  },
  {
   "property": "C184",
   "status": "partial",
   "theorems": [
    "C184_spaced_partial",
    "C184_succeeds",
    "C184_from_vector",
    "C184_beyond_violated"
   ],
   "note": "intervals_between belongs to the openquake library and is modelled after its algorithm with exact numbers. Not shown: starts at a pole, where the azimuth is not defined. That the points stay between the two points is a violation."
  },
  {
   "property": "C185",
   "status": "partial",
   "theorems": [
    "C185_elapsed",
    "C185_nautical",
    "C185_zone_partial",
    "C185_compass_partial",
    "C185_cell_partial",
    "C185_zone_violated",
    "C185_compass_violated",
    "C185_cell_violated"
   ],
   "note": "Elapsed times, nautical time and compass points of azimuths from 0 to 360 are exact. Zones, cells and compass points of negative azimuths are those of a place at most 2**-42 degrees away; that they need not be those of the place itself is proved with concrete doubles."
  },
  {
   "property": "C186",
   "status": "partial",
   "theorems": [
    "C186_asbytes",
    "C186_asunicode",
    "C186_round_trip",
    "C186_name",
    "C186_put",
    "C186_put_tree",
    "C186_get",
    "C186_pdl",
    "C186_name_violated",
    "C186_put_violated",
    "C186_put_tree_violated",
    "C186_get_violated",
    "C186_pdl_violated"
   ],
   "note": "Proved in full for names, messages and outputs that are UTF-8 (as Lean's own library encodes it); for all others the violations are proved. UTF-8 is taken as the encoding of the file system, and Windows is not modelled."
  },
  {
   "property": "C187",
   "status": "partial",
   "theorems": [
    "C187_histories",
    "C187_linked",
    "C187_zero_in_dictionary",
    "C187_refused_violated",
    "C187_zero_violated"
   ],
   "note": "All texts without zero characters, over all histories, through the bytes of the file. Strings with zero characters or lone surrogates are refused (proved). What the HDF5 library does with bytes is taken as: kept, unless there is a zero in them; both orders of making the data set and looking at the bytes are covered."
  },
  {
   "property": "C188",
   "status": "partial",
   "theorems": [
    "C188_from_dict",
    "C188_point",
    "C188_given_partial",
    "C188_and_origin",
    "C188_constant",
    "C188_argument",
    "C188_twice_violated",
    "C188_class_violated",
    "C188_failed_violated",
    "C188_stale_violated"
   ],
   "note": "Proved in full for rupture_from_dict and PointRupture; for the constructors that keep the caller's dictionary as long as it is not used again, and false otherwise (violations). Shallow copies of dictionaries are not modelled."
  },
  {
   "property": "C189",
   "status": "partial",
   "theorems": [
    "C189_like_new",
    "C189_history_partial",
    "C189_tree",
    "C189_with",
    "C189_time_violated",
    "C189_dir_violated",
    "C189_session_violated"
   ],
   "note": "The with statement in full; reuse for histories of transfers that returned normally with every announced time used, which C189_tree shows of trees from a server that follows the protocol. False after a failure (violations). The transport is not modelled beyond the numbers of its sessions."
  },
  {
   "property": "C190",
   "status": "partial",
   "theorems": [
    "C190_amount_partial",
    "C190_small",
    "C190_repr",
    "C190_half_violated",
    "C190_carry_violated"
   ],
   "note": "Proved for all whole amounts below 10**15 and up to 15 digits, with the arithmetic of doubles and the shortest text of a float modelled; the last two clauses are violated. Not covered: one million in long mode (C07), floats as amounts, amounts from 10**15 on."
  },
  {
   "property": "C191",
   "status": "partial",
   "theorems": [
    "C191_color_partial",
    "C191_order_partial",
    "C191_ends",
    "C191_resolution",
    "C191_steps",
    "C191_population",
    "C191_resolution_violated",
    "C191_order_violated",
    "C191_bytes_violated"
   ],
   "note": "Proved in full for palettes of one-coloured ranges and the population preset; for others up to rounding (1/2^50 per channel), and exact order, exact integers and the resolution fail in binary arithmetic (violations). Overflow, logarithmic scales and equal limits are not modelled; the numpy and matplotlib steps follow their documented algorithms."
  },
  {
   "property": "C192",
   "status": "partial",
   "theorems": [
    "C192_same",
    "C192_fields",
    "C192_grid",
    "C192_params",
    "C192_ids",
    "C192_sources",
    "C192_authoritative_partial",
    "C192_places_partial",
    "C192_regions_violated",
    "C192_places_violated",
    "C192_regions_partial",
    "C192_range"
   ],
   "note": "ComCatInfo in full, for events from 1970 on in C192_params. GeoServe: proved for programs that do not call getRegions (getAuthoritative) or getPlaces (getPlaces); otherwise violated. Non-finite numbers and getShakeGrid with a file (C92) are left out here."
  },
  {
   "property": "C193",
   "status": "partial",
   "theorems": [
    "C193_bounds",
    "C193_population",
    "C193_name",
    "C193_radius",
    "C193_independent_partial",
    "C193_arrays_violated",
    "C193_dist_violated",
    "C193_limited",
    "C193_missing"
   ],
   "note": "The four limits in full for tables of any columns, apart from a column 'dist' in limitByRadius (C193_dist_violated). Independence: proved for programs that do not write into the arrays of getCities, violated for those that do. limitByGrid is in C23."
  },
  {
   "property": "C194",
   "status": "partial",
   "theorems": [
    "C194_read",
    "C194_reads",
    "C194_reads_alt",
    "C194_written",
    "C194_back_partial",
    "C194_pdl_partial",
    "C194_ruptures_partial",
    "C194_events_partial",
    "C194_year_violated"
   ],
   "note": "Exactly which texts are read, and exactly which times are written, in full; the round trip from the year 1000 on without 1100 and 1500, violated for earlier years. strptime is modelled with the alternatives of CPython's regular expressions for ASCII digits. The parameters of C117, C168 and C181 are instances."
  },
  {
   "property": "C195",
   "status": "partial",
   "theorems": [
    "C195_linear",
    "C195_laws",
    "C195_dot",
    "C195_cross",
    "C195_whole",
    "C195_length_partial",
    "C195_unit_partial",
    "C195_distance_partial",
    "C195_distance_order",
    "C195_tiny_violated",
    "C195_laws_violated"
   ],
   "note": "Bounds and exact laws proved; lengths, unit vectors and distances for components that are zero or at least 2^-511, violated for very small ones. Overflow is not modelled; x**2 is any function right to one unit in the last place, np.sqrt the nearest double."
  },
  {
   "property": "C196",
   "status": "partial",
   "theorems": [
    "C196_own",
    "C196_current_partial",
    "C196_fonts",
    "C196_failure_violated",
    "C196_extent_violated",
    "C196_font_violated",
    "C196_clone_violated"
   ],
   "note": "Isolation of figures for all programs and the list of fonts in full; the current axes when nothing is raised. Violated: a draw that raises leaves the hidden axes current, the second try for extents is useless, unknown fonts raise nothing, getAxesClone always raises AttributeError. Closing figures is not modelled."
  },
  {
   "property": "C197",
   "status": "partial",
   "theorems": [
    "C197_cells_partial",
    "C197_clear_partial",
    "C197_default_partial",
    "C197_whole_partial",
    "C197_edge_violated",
    "C197_gap_violated",
    "C197_twice_violated"
   ],
   "note": "The cells are the exact ones up to 2^-40 degrees, in full; cities nearer to a border may be lost or repeated (violations). Overflow and NaN are not modelled; populations are compared exactly."
  },
  {
   "property": "C198",
   "status": "partial",
   "theorems": [
    "C198_float",
    "C198_int",
    "C198_origin",
    "C198_back",
    "C198_fixed",
    "C198_rupture_partial",
    "C198_event_partial",
    "C198_code_violated",
    "C198_cities",
    "C198_refusal",
    "C198_commas_violated"
   ],
   "note": "Which texts float and int take and what they give is characterized in full for Latin-1; C111 and C117 hold with these functions in place of the parameters. Texts that look like codes are numbers too (violation). Digits of other scripts and the limit of int of 4300 digits are not modelled. C198_cities, C198_refusal and C198_commas_violated use the same reader for GeoNames files and rupture files, so that C162, C149 and C100 hold there without assumptions about float and int."
  },
  {
   "property": "C199",
   "status": "partial",
   "theorems": [
    "C199_arrays",
    "C199_determined",
    "C199_nan_violated",
    "C199_outlines_partial",
    "C199_edges",
    "C199_bottom_violated"
   ],
   "note": "Arrays and outlines of both classes as a whole, with the nan between groups. Outlines of quadrilaterals equal the polygons where the constructor leaves the quadrilaterals as they are; C71 and C102 say what happens otherwise."
  },
  {
   "property": "C200",
   "status": "partial",
   "theorems": [
    "C200_distance_partial",
    "C200_same",
    "C200_symmetric",
    "C200_depth_partial",
    "C200_number",
    "C200_azimuth",
    "C200_direction",
    "C200_nan_violated"
   ],
   "note": "All operations rounded to doubles; sin, cos, squares, arcsin and arctan2 of the library are parameters with an error of at most u. Near the antipodes the bound is that of the square root of u, and nan cannot be excluded from the accuracy of the library alone. Numbers too large for a double are not modelled."
  },
  {
   "property": "C201",
   "status": "partial",
   "theorems": [
    "C201_bounds",
    "C201_some",
    "C201_own_partial",
    "C201_own_violated"
   ],
   "note": "Exact numbers; nan in coordinates is not modelled. The last part is violated, and proved for the cities that are not on the western or southern edge."
  },
  {
   "property": "C202",
   "status": "partial",
   "theorems": [
    "C202_fonts_partial",
    "C202_others",
    "C202_own_violated",
    "C202_collision_violated"
   ],
   "note": "Proved by simulation for programs that do not change the lists they get; that changes stay with one object is proved for all programs. The two violations are theorems."
  },
  {
   "property": "C203",
   "status": "proved",
   "theorems": [
    "C203_near",
    "C203_point",
    "C203_mirror",
    "C203_zero"
   ],
   "note": "Every operation rounds to the nearest double; sine and cosine are parameters right to u. Scalar arguments; arrays are the same element by element."
  },
  {
   "property": "C204",
   "status": "proved",
   "theorems": [
    "C204_roundtrip",
    "C204_axis",
    "C204_geodetic"
   ],
   "note": "Exact real arithmetic; the rounding of latlon2ecef is C203. The poles themselves are C95. Scalar arguments."
  },
  {
   "property": "C205",
   "status": "proved",
   "theorems": [
    "C205_near",
    "C205_edge",
    "C205_same",
    "C205_grows"
   ],
   "note": "Every operation rounds to the nearest double; sine, cosine and pow are parameters right to u."
  },
  {
   "property": "C206",
   "status": "partial",
   "theorems": [
    "C206_untouched_partial",
    "C206_copy",
    "C206_class",
    "C206_shared_violated"
   ],
   "note": "True for programs that change only copies of the lists (C206_untouched_partial, C206_copy), and between different classes (C206_class). False otherwise: the methods return the list of the class itself, so removing a name from it makes the constructor accept senders without the property, and adding one makes it refuse complete ones (C206_shared_violated). The constructor is called without files and directory."
  },
  {
   "property": "C207",
   "status": "proved",
   "theorems": [
    "C207_near",
    "C207_spacing",
    "C207_exact"
   ],
   "note": "u is the error of one library operation and 2^-49 is allowed. The distance is that of a point of the surface up to 5000000u km (about 9e-9 km) and at most that to any swept point plus half the spacing of the mesh nodes (C207_near); for parallelograms at most one and a half dx more than the true distance (C207_spacing); C207_exact has no hypotheses on numbers. np.mean is a parameter with the accuracy MeanTo."
  },
  {
   "property": "C208",
   "status": "proved",
   "theorems": [
    "C208_near",
    "C208_point"
   ],
   "note": "M bounds the coordinates and u is the error of one operation: the distance is that of a point of the segment up to 100uM and at most that of any point plus 200uM. np.sum is a parameter with the accuracy SumTo. C208_point also shows that the root that the code stores for equal end points never reaches the result."
  },
  {
   "property": "C209",
   "status": "proved",
   "theorems": [
    "C209_rrup",
    "C209_rjb"
   ],
   "note": "u is the error of one library operation, e the distance of the corners from a flat quadrilateral with room for a disc of radius r and of length at most l, X a bound of the distance of the site from the corners. The error is 2(200000000u+e)Xl/r^2 km; for a rupture of 220 km by 220 km and u = 2^-49 it is below a tenth of a metre (example). np.sum is a parameter with the accuracy SumTo and the sign of a zero sum is a parameter."
  },
  {
   "property": "C210",
   "status": "proved",
   "theorems": [
    "C210_whole",
    "C210_repeat",
    "C210_leftover"
   ],
   "note": "CopyRoom says what room is: nothing that is to be sent collides with another file or a directory, no directory has a temporary name, no file is where a directory must be. C210_leftover shows what the property leaves out: the temporary file of a call that was cut off is never removed."
  },
  {
   "property": "C211",
   "status": "proved",
   "theorems": [
    "C211_whole",
    "C211_repeat"
   ],
   "note": "FtpRoom (of C141) says what room is; FtpTries chains any number of transfers with any failure pattern, cut off in any state. The local files are the same in all transfers."
  },
  {
   "property": "C212",
   "status": "proved",
   "theorems": [
    "C212_whole",
    "C212_repeat"
   ],
   "note": "Room and Plain (of C136, C137) say what room and plain names are; SecureTries chains any number of transfers to Unix machines with any failures, cut off in any state. The local files are the same in all transfers."
  },
  {
   "property": "C213",
   "status": "proved",
   "theorems": [
    "C213_text",
    "C213_same",
    "C213_wkt"
   ],
   "note": "FloatPoint says that the floats are those of a point. Equality of points is that of C126, over the real numbers. Points with coordinates that are not floats (int, numpy) are not covered."
  },
  {
   "property": "C214",
   "status": "proved",
   "theorems": [
    "C214_echo"
   ],
   "note": "Carried ties the tree of the protocol to the files and directories on the disk of the sender, Makes (of C152) to the calls of the receiver; Delivered says how bytes may arrive: a line at once, contents in any portions. The program between the two clients is not modelled: it passes on the bytes."
  },
  {
   "property": "C215",
   "status": "partial",
   "theorems": [
    "C215_refused_partial",
    "C215_json",
    "C215_empty_violated"
   ],
   "note": "C215_refused_partial: every stop after the first character and before the last, and every failure of json.dump; what reaches the file is a beginning of what is written. C215_json: no proper beginning of the text of any list or dictionary is JSON. C215_empty_violated: the file that was opened and not yet written to is read as a rupture of no quadrilaterals, without an error. Floating point texts as for C180."
  },
  {
   "property": "C216",
   "status": "partial",
   "theorems": [
    "C216_saved_partial",
    "C216_rows",
    "C216_lines_violated",
    "C216_last_violated"
   ],
   "note": "C216_saved_partial and C216_rows: what is read are the first cities, and only the last of them can differ, by having the beginnings of the texts that were saved. C216_lines_violated: a file that stops after a line is read as a shorter table. C216_last_violated: a file that stops within a number is read with another number. The quotation marks are those of the parser of pandas; conversion of texts to values is a parameter."
  },
  {
   "property": "C217",
   "status": "proved",
   "theorems": [
    "C217_text"
   ],
   "note": "Composes the serializer of lxml and the parser of the Python library, both modelled character by character for one element without content, with C117. The form of references to characters, decimal or hexadecimal, is a parameter; refs_decimal shows that the decimal form meets the hypothesis. Formats of numbers and times as in C117."
  },
  {
   "property": "C218",
   "status": "proved",
   "theorems": [
    "C218_interrupted"
   ],
   "note": "The files that can be left are the beginnings of the text. The signs that end an element are escaped in texts, so that they occur only at the end."
  },
  {
   "property": "C219",
   "status": "proved",
   "theorems": [
    "C219_utf8",
    "C219_foreign"
   ],
   "note": "Composes the encoder (that of Lean's strings), reading as Latin-1 with universal line ends, and C162."
  },
  {
   "property": "C220",
   "status": "proved",
   "theorems": [
    "C220_width",
    "C220_mean",
    "C220_area",
    "C220_one",
    "C220_width_exists",
    "C220_each"
   ],
   "note": "The condition 300000000000ku <= 1 allows k up to 30000 with doubles; a rectangle twice as long as wide has k = 3/2."
  },
  {
   "property": "C221",
   "status": "proved",
   "theorems": [
    "C221_frame",
    "C221_dip",
    "C221_mean",
    "C221_one"
   ],
   "note": "Level quadrilaterals, where the inner product can exceed 1, are excluded by the condition on the cosine. A rectangle twice as long as wide has k = 3/2."
  },
  {
   "property": "C222",
   "status": "proved",
   "theorems": [
    "C222_area",
    "C222_thin",
    "C222_one"
   ],
   "note": "An equilateral triangle has k = 21, half a square 23. Lengths that belong to a flat triangle can make the number under the root negative; an example shows such lengths, and the second part leaves that result open."
  },
  {
   "property": "C223",
   "status": "proved",
   "theorems": [
    "C223_length",
    "C223_width"
   ],
   "note": "The error of the area is that of C222."
  },
  {
   "property": "C224",
   "status": "proved",
   "theorems": [
    "C224_dip",
    "C224_normal",
    "C224_one",
    "C224_vertical_violated",
    "C224_equator_violated"
   ],
   "note": "Dips near 90 degrees, where the sine can exceed 1, are excluded by the condition on the sine. C224_vertical_violated and C224_equator_violated: for vertical ruptures along the equator the inner product is exactly 0, its sign is 0 and so is the dip, with every precise library. An equilateral triangle has k of about 21, half a square about 23."
  },
  {
   "property": "C225",
   "status": "proved",
   "theorems": [
    "C225_area",
    "C225_length",
    "C225_width",
    "C225_edge_dip",
    "C225_quad_dip"
   ],
   "note": "About results that are numbers; C221 to C224 say when they are."
  },
  {
   "property": "C226",
   "status": "proved",
   "theorems": [
    "C226_range",
    "C226_parts",
    "C226_order",
    "C226_depth",
    "C226_edges"
   ],
   "note": "The signs of sums that are zero are a function of the quadrilateral."
  },
  {
   "property": "C227",
   "status": "partial",
   "theorems": [
    "C227_range_partial",
    "C227_vertical_violated"
   ],
   "note": "The strike is in range if it is a number. It is not a number without quadrilaterals, and for vertical ruptures along the equator: normal and up are then exactly at right angles, np.sign is 0, and the horizontal part of the normal has length 0."
  },
  {
   "property": "C228",
   "status": "proved",
   "theorems": [
    "C228_range",
    "C228_direction"
   ],
   "note": "Azimuths are right by C200 and lengths by C205. Where directions nearly cancel, the multiple is small and the strike arbitrary, as for the exact mean."
  },
  {
   "property": "C229",
   "status": "proved",
   "theorems": [
    "C229_sum",
    "C229_near"
   ],
   "note": "The formulas are those of the code; C66 shows that the slip vector is not a unit vector, also in binary arithmetic."
  }
 ]
}