# Axioms of the theorems of the manifest

As printed by `#print axioms` for every theorem named in MANIFEST.json.

| property | theorem | axioms |
|---|---|---|
| C01 | `C01_error_iff` | propext, Quot.sound |
| C01 | `C01_roman` | propext, Quot.sound |
| C01 | `C01_injective` | propext, Quot.sound |
| C02 | `C02_input_text` | propext, Quot.sound |
| C02 | `C02_commify` | propext, Classical.choice, Quot.sound |
| C02 | `C02_delete_separators` | propext, Classical.choice, Quot.sound |
| C02 | `grouped_unique` | propext, Classical.choice, Quot.sound |
| C03 | `C03_terminates` | propext, Classical.choice, Quot.sound |
| C03 | `C03_empty_separator_diverges` | propext, Quot.sound |
| C04 | `C04_round_to_nearest` | propext, Classical.choice, Quot.sound |
| C04 | `C04_unique` | propext, Classical.choice, Quot.sound |
| C04 | `C04_nonintegral_step_violated` | propext, Classical.choice, Quot.sound |
| C05 | `C05_floor` | propext, Classical.choice, Quot.sound |
| C05 | `C05_ceil` | propext, Classical.choice, Quot.sound |
| C05 | `C05_between` | propext, Classical.choice, Quot.sound |
| C05 | `C05_fixed` | propext, Classical.choice, Quot.sound |
| C06 | `C06_small` | propext, Classical.choice, Quot.sound |
| C06 | `C06_large` | propext, Classical.choice, Quot.sound |
| C06 | `C06_pop_round` | propext, Classical.choice, Quot.sound |
| C07 | `C07_unit_partial` | propext, Classical.choice, Quot.sound |
| C07 | `C07_small` | propext, Classical.choice, Quot.sound |
| C07 | `C07_long_million_violated` | propext, Classical.choice, Quot.sound |
| C08 | `C08_set_num_precision` | propext, Classical.choice, Quot.sound |
| C08 | `C08_error_bound` | propext, Classical.choice, Quot.sound |
| C08 | `C08_digits` | propext, Classical.choice, Quot.sound |
| C08 | `C08_idempotent` | propext, Classical.choice, Quot.sound |
| C08 | `C08_int_mode` | propext, Classical.choice, Quot.sound |
| C09 | `C09_raises_iff` | propext, Classical.choice, Quot.sound |
| C09 | `C09_components` | propext, Classical.choice, Quot.sound |
| C10 | `C10_two_units` | propext, Classical.choice, Quot.sound |
| C10 | `C10_seconds` | propext, Classical.choice, Quot.sound |
| C10 | `C10_raises_iff` | propext, Classical.choice, Quot.sound |
| C11 | `C11_utm_zone` | propext, Classical.choice, Quot.sound |
| C12 | `C12_unsupported_iff` | propext, Classical.choice, Quot.sound |
| C12 | `C12_in_range` | propext, Classical.choice, Quot.sound |
| C12 | `C12_floor_contains` | propext, Classical.choice, Quot.sound |
| C12 | `C12_code_matches` | propext, Classical.choice, Quot.sound |
| C13 | `C13_dateline_violated` | propext, Classical.choice, Quot.sound |
| C13 | `C13_dateline_witness` | propext, Classical.choice, Quot.sound |
| C13 | `C13_in_range_partial` | propext, Classical.choice, Quot.sound |
| C14 | `C14_method_ignored_violated` | propext, Classical.choice, Quot.sound |
| C14 | `C14_wrong_zone_witness` | propext, Classical.choice, Quot.sound |
| C14 | `C14_floor_partial` | propext, Classical.choice, Quot.sound |
| C15 | `C15_year_map` | propext, Classical.choice, Quot.sound |
| C15 | `C15_same_calendar` | propext, Classical.choice, Quot.sound |
| C15 | `C15_strftime_partial` | propext, Classical.choice, Quot.sound |
| C15 | `C15_modern` | propext, Quot.sound |
| C15 | `C15_century_violated` | propext, Quot.sound |
| C16 | `C16_replace_in` | propext, Classical.choice, Quot.sound |
| C17 | `C17_local_time` | propext, Classical.choice, Quot.sound |
| C17 | `C17_local_time_NE` | propext, Classical.choice, Quot.sound |
| C18 | `C18_accessors_partial` | propext, Classical.choice, Quot.sound |
| C18 | `C18_getTimeZone_violated` | propext, Classical.choice, Quot.sound |
| C18 | `C18_empty_violated` | propext, Classical.choice, Quot.sound |
| C18 | `C18_nautical_int_violated` | propext, Classical.choice, Quot.sound |
| C19 | `C19_error_iff` | propext, Classical.choice, Quot.sound |
| C19 | `C19_nearest` | propext, Classical.choice, Quot.sound |
| C19 | `C19_above_360` | propext, Classical.choice, Quot.sound |
| C20 | `C20_short_partial` | propext, Classical.choice, Quot.sound |
| C20 | `C20_format_ignored_violated` | propext, Classical.choice, Quot.sound |
| C20 | `C20_witness` | propext, Classical.choice, Quot.sound |
| C21 | `C21_constructor` | propext, Classical.choice, Quot.sound |
| C21 | `C21_bounds` | propext, Classical.choice, Quot.sound |
| C21 | `C21_radius` | propext, Classical.choice, Quot.sound |
| C21 | `C21_population` | propext, Classical.choice, Quot.sound |
| C21 | `C21_commute` | propext, Classical.choice, Quot.sound |
| C21 | `C21_idempotent` | propext, Classical.choice, Quot.sound |
| C21 | `C21_bounds_population_commute` | propext, Classical.choice, Quot.sound |
| C22 | `C22_outcome` | propext, Classical.choice, Quot.sound |
| C23 | `C23_grid_partial` | propext, Classical.choice, Quot.sound |
| C23 | `C23_cells_cover` | propext, Classical.choice, Quot.sound |
| C23 | `C23_edge_violated` | propext, Classical.choice, Quot.sound |
| C23 | `C23_keyError` | propext, Classical.choice, Quot.sound |
| C24 | `C24_disjoint` | propext, Classical.choice, Quot.sound |
| C24 | `C24_kept_iff` | propext, Classical.choice, Quot.sound |
| C24 | `C24_dropped_collides` | propext, Classical.choice, Quot.sound |
| C24 | `C24_over_removal` | propext, Classical.choice, Quot.sound |
| C24 | `C24_first_off_map` | propext, Classical.choice, Quot.sound |
| C25 | `C25_default_length` | propext, Classical.choice, Quot.sound |
| C25 | `lengths_ok` | propext |
| C26 | `C26_validation_partial` | propext, Classical.choice, Quot.sound |
| C26 | `C26_override_violated` | propext, Classical.choice, Quot.sound |
| C27 | `C27_divisions_tile` | propext, Classical.choice, Quot.sound |
| C27 | `C27_ticks` | propext, Classical.choice, Quot.sound |
| C28 | `C28_lengths_partial` | propext, Classical.choice, Quot.sound |
| C28 | `C28_unequal_accepted_violated` | propext, Classical.choice, Quot.sound |
| C29 | `C29_knots` | propext, Classical.choice, Quot.sound |
| C30 | `C30_presets_partial` | propext, Classical.choice, Quot.sound |
| C30 | `C30_shaketopo_violated` | propext, Classical.choice, Quot.sound |
| C30 | `C30_presets_load` | propext, Classical.choice, Quot.sound |
| C31 | `C31_formats_partial` | propext, Classical.choice, Quot.sound |
| C31 | `C31_scalar_array_violated` | propext, Classical.choice, Quot.sound |
| C32 | `C32_five_maps_partial` | propext, Classical.choice, Quot.sound |
| C32 | `C32_slash_listing_violated` | propext, Classical.choice, Quot.sound |
| C32 | `C32_kinds_independent_violated` | propext, Classical.choice, Quot.sound |
| C33 | `C33_missing` | propext, Classical.choice, Quot.sound |
| C33 | `C33_only_lookup_errors` | propext, Classical.choice, Quot.sound |
| C34 | `C34_get_after_set` | propext, Classical.choice, Quot.sound |
| C34 | `C34_set_succeeds` | propext, Classical.choice, Quot.sound |
| C34 | `C34_set_untouched` | propext, Classical.choice, Quot.sound |
| C34 | `C34_set_twice` | propext, Classical.choice, Quot.sound |
| C34 | `C34_drop` | propext, Classical.choice, Quot.sound |
| C34 | `C34_get_missing` | propext, Classical.choice, Quot.sound |
| C35 | `C35_listing_partial` | propext, Classical.choice, Quot.sound |
| C35 | `C35_listing_built` | propext, Classical.choice, Quot.sound |
| C35 | `C35_listing_exact` | propext, Classical.choice, Quot.sound |
| C35 | `C35_empty_group_violated` | propext, Classical.choice, Quot.sound |
| C35 | `C35_rejected_set_violated` | propext, Classical.choice, Quot.sound |
| C36 | `C36_replace_partial` | propext, Classical.choice, Quot.sound |
| C36 | `C36_rupture_replace_partial` | propext, Classical.choice, Quot.sound |
| C36 | `C36_station_partial` | propext, Classical.choice, Quot.sound |
| C36 | `C36_rupture_violated` | propext, Classical.choice, Quot.sound |
| C36 | `C36_unserialisable_violated` | propext, Classical.choice, Quot.sound |
| C37 | `C37_never_mixed` | propext, Classical.choice, Quot.sound |
| C38 | `C38_unchanged_partial` | propext, Classical.choice, Quot.sound |
| C38 | `C38_new_container_violated` | propext, Classical.choice, Quot.sound |
| C38 | `C38_retry_fails_violated` | propext, Classical.choice, Quot.sound |
| C39 | `C39_factory` | propext, Classical.choice, Quot.sound |
| C40 | `C40_validation_partial` | propext, Classical.choice, Quot.sound |
| C40 | `C40_missing_directory_violated` | propext, Classical.choice, Quot.sound |
| C41 | `C41_delivery_partial` | propext, Classical.choice, Quot.sound |
| C41 | `C41_recurring_directory_violated` | propext, Classical.choice, Quot.sound |
| C41 | `C41_relative_remote_violated` | propext, Classical.choice, Quot.sound |
| C42 | `C42_counted_twice_violated` | propext, Classical.choice, Quot.sound |
| C42 | `C42_listed_only_partial` | propext, Classical.choice, Quot.sound |
| C43 | `C43_copy_atomic` | propext, Classical.choice, Quot.sound |
| C43 | `C43_ftp_atomic` | propext, Classical.choice, Quot.sound |
| C44 | `C44_history_partial` | propext, Classical.choice, Quot.sound |
| C44 | `C44_failed_send_violated` | propext, Classical.choice, Quot.sound |
| C45 | `C45_create_directory` | propext, Classical.choice, Quot.sound |
| C46 | `C46_count_partial` | propext, Classical.choice, Quot.sound |
| C46 | `C46_relative_remote_violated` | propext, Classical.choice, Quot.sound |
| C46 | `C46_listed_failure_violated` | propext, Classical.choice, Quot.sound |
| C47 | `C47_command` | propext, Classical.choice, Quot.sound |
| C47 | `C47_placeholder_value` | propext, Classical.choice, Quot.sound |
| C48 | `C48_send` | propext, Classical.choice, Quot.sound |
| C49 | `C49_partition` | propext, Classical.choice, Quot.sound |
| C49 | `C49_one_copy` | propext, Classical.choice, Quot.sound |
| C49 | `C49_default_size` | propext, Classical.choice, Quot.sound |
| C50 | `C50_termination_partial` | propext, Quot.sound |
| C50 | `C50_one_violated` | propext, Quot.sound |
| C51 | `C51_failover_partial` | propext, Quot.sound |
| C51 | `C51_quit_violated` | propext, Quot.sound |
| C51 | `C51_refused_violated` | propext, Quot.sound |
| C52 | `C52_sources_partial` | propext, Classical.choice, Quot.sound |
| C52 | `C52_no_prefix_violated` | propext, Classical.choice, Quot.sound |
| C53 | `C53_associated_ids` | propext, Classical.choice, Quot.sound |
| C54 | `C54_first_answer_partial` | none |
| C54 | `C54_retry_violated` | none |
| C54 | `C54_other_code_violated` | propext |
| C55 | `C55_quoting_partial` | propext, Classical.choice, Quot.sound |
| C55 | `C55_tilde_violated` | propext, Classical.choice, Quot.sound |
| C55 | `C55_empty_violated` | propext, Classical.choice, Quot.sound |
| C56 | `C56_recursive_partial` | propext, Classical.choice, Quot.sound |
| C56 | `C56_trailing_slash_violated` | propext, Classical.choice, Quot.sound |
| C56 | `C56_root_violated` | propext, Classical.choice, Quot.sound |
| C56 | `C56_newline_violated` | propext, Classical.choice, Quot.sound |
| C57 | `C57_inside_partial` | propext, Classical.choice, Quot.sound |
| C57 | `C57_absolute_violated` | propext |
| C57 | `C57_parent_violated` | propext, Classical.choice, Quot.sound |
| C58 | `C58_vector_algebra` | propext, Classical.choice, Quot.sound |
| C59 | `C59_longitude` | propext, Classical.choice, Quot.sound |
| C60 | `C60_check_polygon` | propext, Classical.choice, Quot.sound |
| C61 | `C61_rotate_polygon` | propext, Classical.choice, Quot.sound |
| C62 | `C62_repair_partial` | propext, Classical.choice, Quot.sound |
| C62 | `C62_single_point_violated` | propext, Classical.choice, Quot.sound |
| C63 | `C63_always_accepted_violated` | propext, Classical.choice, Quot.sound |
| C63 | `C63_corrected_partial` | propext, Classical.choice, Quot.sound |
| C64 | `C64_plane_distance` | propext, Classical.choice, Quot.sound |
| C64 | `C64_origin_violated` | propext, Classical.choice, Quot.sound |
| C65 | `C65_segment_distance` | propext, Classical.choice, Quot.sound |
| C66 | `C66_unit_partial` | propext, Classical.choice, Quot.sound |
| C66 | `C66_unit_violated` | propext, Classical.choice, Quot.sound |
| C66 | `C66_binary_violated` | propext, Classical.choice, Quot.sound |
| C67 | `C67_decomposition` | propext, Classical.choice, Quot.sound |
| C68 | `C68_rake_to_mech` | propext, Classical.choice, Quot.sound |
| C69 | `C69_set_mechanism_partial` | propext, Classical.choice, Quot.sound |
| C69 | `C69_nan_violated` | propext, Classical.choice, Quot.sound |
| C70 | `C70_construct_partial` | propext, Classical.choice, Quot.sound |
| C70 | `C70_nan_violated` | propext, Classical.choice, Quot.sound |
| C71 | `C71_quads_partial` | propext, Classical.choice, Quot.sound |
| C71 | `C71_gap_violated` | propext, Classical.choice, Quot.sound |
| C72 | `C72_quads_partial` | propext, Classical.choice, Quot.sound |
| C72 | `C72_second_group_violated` | propext, Classical.choice, Quot.sound |
| C73 | `C73_area` | propext, Classical.choice, Quot.sound |
| C74 | `C74_between` | propext, Classical.choice, Quot.sound |
| C74 | `C74_traces` | propext, Classical.choice, Quot.sound |
| C74 | `weight_pos` | propext, Classical.choice, Quot.sound |
| C75 | `C75_one_leg_partial` | propext, Classical.choice, Quot.sound |
| C75 | `C75_on_trace_violated` | propext, Classical.choice, Quot.sound |
| C75 | `C75_bend_violated` | propext, Classical.choice, Quot.sound |
| C76 | `C76_ry0` | propext, Classical.choice, Quot.sound |
| C77 | `C77_get_distance` | propext, Classical.choice, Quot.sound |
| C78 | `C78_great_circle` | propext, Classical.choice, Quot.sound |
| C78 | `C78_metric` | propext, Classical.choice, Quot.sound |
| C78 | `C78_azimuth` | propext, Classical.choice, Quot.sound |
| C79 | `C79_extent` | propext, Classical.choice, Quot.sound |
| C80 | `C80_fix_lons` | propext, Classical.choice, Quot.sound |
| C80 | `C80_fix_box_partial` | propext, Classical.choice, Quot.sound |
| C80 | `C80_fix_box_violated` | propext, Classical.choice, Quot.sound |
| C81 | `C81_small_step_partial` | propext, Classical.choice, Quot.sound |
| C81 | `C81_exponent_step_violated` | propext, Classical.choice, Quot.sound |
| C82 | `C82_guard_misses_violated` | propext, Classical.choice, Quot.sound |
| C82 | `C82_guard_sound` | propext, Quot.sound |
| C82 | `C82_rejects_partial` | propext, Classical.choice, Quot.sound |
| C83 | `C83_getTimeStr_partial` | propext, Classical.choice, Quot.sound |
| C83 | `C83_unknown` | propext, Classical.choice, Quot.sound |
| C83 | `C83_second_violated` | propext, Classical.choice, Quot.sound |
| C84 | `C84_placement` | propext, Classical.choice, Quot.sound |
| C85 | `C85_interpolates` | propext, Classical.choice, Quot.sound |
| C86 | `C86_from_color_map` | propext, Classical.choice, Quot.sound |
| C87 | `C87_grids_roundtrip` | propext, Classical.choice, Quot.sound |
| C87 | `C87_points_roundtrip` | propext, Classical.choice, Quot.sound |
| C87 | `C87_drop` | propext, Classical.choice, Quot.sound |
| C87 | `C87_listings` | propext, Classical.choice, Quot.sound |
| C88 | `C88_bcc_disclosed_violated` | propext, Classical.choice, Quot.sound |
| C89 | `C89_attachments_partial` | propext, Classical.choice, Quot.sound |
| C89 | `C89_directory_only_violated` | propext, Classical.choice, Quot.sound |
| C89 | `C89_zip_names_violated` | propext, Classical.choice, Quot.sound |
| C90 | `C90_cancel_text_partial` | propext, Classical.choice, Quot.sound |
| C90 | `C90_argument_ignored_violated` | propext, Classical.choice, Quot.sound |
| C91 | `C91_constructor_partial` | propext, Quot.sound |
| C91 | `C91_geoserve_violated` | propext |
| C92 | `C92_grid_partial` | propext, Classical.choice, Quot.sound |
| C92 | `C92_emptied_violated` | propext |
| C93 | `C93_time_partial` | propext, Classical.choice, Quot.sound |
| C93 | `C93_before_1970_violated` | propext, Classical.choice, Quot.sound |
| C94 | `C94_geoserve_partial` | propext, Classical.choice, Quot.sound |
| C94 | `C94_metadata_violated` | propext, Classical.choice, Quot.sound |
| C95 | `C95_surface_roundtrip` | propext, Classical.choice, Quot.sound |
| C95 | `C95_equator_roundtrip` | propext, Classical.choice, Quot.sound |
| C95 | `C95_pole_roundtrip` | propext, Classical.choice, Quot.sound |
| C96 | `C96_surface_distance` | propext, Classical.choice, Quot.sound |
| C96 | `C96_distance_km` | propext, Classical.choice, Quot.sound |
| C97 | `C97_frame` | propext, Classical.choice, Quot.sound |
| C98 | `C98_width_dip` | propext, Classical.choice, Quot.sound |
| C99 | `C99_mesh` | propext, Classical.choice, Quot.sound |
| C100 | `C100_text_partial` | propext, Classical.choice, Quot.sound |
| C100 | `C100_commas_violated` | propext, Classical.choice, Quot.sound |
| C101 | `C101_kind_partial` | propext, Classical.choice, Quot.sound |
| C101 | `C101_plane_violated` | propext, Classical.choice, Quot.sound |
| C102 | `C102_outline_partial` | propext, Classical.choice, Quot.sound |
| C102 | `C102_reversed_violated` | propext, Classical.choice, Quot.sound |
| C103 | `C103_from_vertices` | propext, Classical.choice, Quot.sound |
| C104 | `C104_distances` | propext, Classical.choice, Quot.sound |
| C105 | `C105_summaries` | propext, Classical.choice, Quot.sound |
| C106 | `C106_strike` | propext, Classical.choice, Quot.sound |
| C107 | `C107_depth_partial` | propext, Classical.choice, Quot.sound |
| C107 | `C107_depth_violated` | propext, Classical.choice, Quot.sound |
| C108 | `C108_trace` | propext, Classical.choice, Quot.sound |
| C109 | `C109_area_partial` | propext, Classical.choice, Quot.sound |
| C109 | `C109_area_violated` | propext, Classical.choice, Quot.sound |
| C110 | `C110_trace_groups_partial` | propext, Classical.choice, Quot.sound |
| C110 | `C110_short_index_violated` | propext, Classical.choice, Quot.sound |
| C111 | `C111_write_read_partial` | propext, Classical.choice, Quot.sound |
| C111 | `C111_default_format_violated` | propext, Classical.choice, Quot.sound |
| C112 | `C112_from_arrays` | propext, Classical.choice, Quot.sound |
| C113 | `C113_strike_dip_partial` | propext, Classical.choice, Quot.sound |
| C113 | `sums_form` | propext, Classical.choice, Quot.sound |
| C113 | `C113_vertical_violated` | propext, Classical.choice, Quot.sound |
| C113 | `C113_sums` | propext, Classical.choice, Quot.sound |
| C114 | `C114_mesh_distance_partial` | propext, Classical.choice, Quot.sound |
| C114 | `C114_over_violated` | propext, Classical.choice, Quot.sound |
| C115 | `C115_argument_partial` | propext, Quot.sound |
| C115 | `C115_argument_violated` | propext, Classical.choice, Quot.sound |
| C116 | `C116_source_partial` | propext, Classical.choice, Quot.sound |
| C116 | `C116_blank_violated` | propext |
| C116 | `C116_second_equals_violated` | propext, Classical.choice, Quot.sound |
| C117 | `C117_event_file_partial` | propext, Classical.choice, Quot.sound |
| C117 | `C117_kind_violated` | propext, Classical.choice, Quot.sound |
| C117 | `C117_python_partial` | propext, Classical.choice, Quot.sound |
| C117 | `C117_year_violated` | propext, Classical.choice, Quot.sound |
| C117 | `C117_required` | propext, Quot.sound |
| C118 | `C118_old_dates_violated` | propext, Quot.sound |
| C119 | `C119_gc2` | propext, Classical.choice, Quot.sound |
| C119 | `weight_integral` | propext, Classical.choice, Quot.sound |
| C119 | `C76_ry0` | propext, Classical.choice, Quot.sound |
| C120 | `C120_traces_partial` | propext, Classical.choice, Quot.sound |
| C120 | `C120_opposite_violated` | propext, Classical.choice, Quot.sound |
| C121 | `C121_candidates_partial` | propext, Classical.choice, Quot.sound |
| C121 | `C121_inner_corners_violated` | propext, Classical.choice, Quot.sound |
| C122 | `C122_edge_groups_violated` | propext, Classical.choice, Quot.sound |
| C123 | `C123_ry0_partial` | propext, Classical.choice, Quot.sound |
| C123 | `C123_ry0_violated` | propext, Classical.choice, Quot.sound |
| C124 | `C124_box_partial` | propext, Classical.choice, Quot.sound |
| C124 | `C124_box_violated` | propext, Classical.choice, Quot.sound |
| C125 | `C125_distance` | propext, Classical.choice, Quot.sound |
| C126 | `C126_same_partial` | propext, Classical.choice, Quot.sound |
| C126 | `C126_clean` | propext, Classical.choice, Quot.sound |
| C126 | `C126_transitive_violated` | propext, Classical.choice, Quot.sound |
| C127 | `C127_coordinates` | propext, Classical.choice, Quot.sound |
| C128 | `C128_triangle` | propext, Classical.choice, Quot.sound |
| C128 | `C128_normalized` | propext, Classical.choice, Quot.sound |
| C129 | `C129_point` | propext, Classical.choice, Quot.sound |
| C130 | `C130_forward` | propext, Classical.choice, Quot.sound |
| C130 | `C130_contraction` | propext, Classical.choice, Quot.sound |
| C130 | `C130_roundtrip` | propext, Classical.choice, Quot.sound |
| C131 | `C131_mesh_violated` | propext, Classical.choice, Quot.sound |
| C132 | `C132_context` | propext, Classical.choice, Quot.sound |
| C132 | `C132_no_rupture_violated` | propext, Classical.choice, Quot.sound |
| C133 | `C133_distances` | propext, Classical.choice, Quot.sound |
| C133 | `C133_deep_site_violated` | propext, Classical.choice, Quot.sound |
| C134 | `C134_parameters` | propext, Classical.choice, Quot.sound |
| C134 | `C134_range` | propext, Classical.choice, Quot.sound |
| C134 | `C134_gc2` | propext, Classical.choice, Quot.sound |
| C134 | `C134_tables` | propext, Classical.choice, Quot.sound |
| C135 | `C135_rake` | propext, Classical.choice, Quot.sound |
| C136 | `C136_atomic_partial` | propext, Classical.choice, Quot.sound |
| C136 | `C136_backslash_violated` | propext, Classical.choice, Quot.sound |
| C137 | `C137_delivery_partial` | propext, Classical.choice, Quot.sound |
| C137 | `C137_silent_failure_violated` | propext, Classical.choice, Quot.sound |
| C137 | `C137_blank_violated` | propext, Classical.choice, Quot.sound |
| C137 | `C137_folder` | propext, Classical.choice, Quot.sound |
| C138 | `C138_marker_stays_violated` | propext, Classical.choice, Quot.sound |
| C139 | `C139_file_removed_violated` | propext, Classical.choice, Quot.sound |
| C140 | `C140_cancel_partial` | propext, Classical.choice, Quot.sound |
| C140 | `C140_default_text_violated` | propext, Classical.choice, Quot.sound |
| C140 | `C140_unquoted_violated` | propext, Classical.choice, Quot.sound |
| C141 | `C141_ftp_delivers` | propext, Classical.choice, Quot.sound |
| C142 | `C142_cancel_partial` | propext, Classical.choice, Quot.sound |
| C142 | `C142_cancel_returns` | propext, Classical.choice, Quot.sound |
| C142 | `C142_relative_violated` | propext, Classical.choice, Quot.sound |
| C142 | `C142_send_keeps_marker_violated` | propext, Classical.choice, Quot.sound |
| C143 | `C143_middle_point_partial` | propext, Classical.choice, Quot.sound |
| C143 | `C143_pole_violated` | propext, Classical.choice, Quot.sound |
| C144 | `C144_point_at_partial` | propext, Classical.choice, Quot.sound |
| C144 | `C144_closer_than` | propext, Classical.choice, Quot.sound |
| C144 | `C144_pole_violated` | propext, Classical.choice, Quot.sound |
| C145 | `C145_plane_fit` | propext, Classical.choice, Quot.sound |
| C146 | `C146_from_trace` | propext, Classical.choice, Quot.sound |
| C146 | `C146_errors` | propext, Classical.choice, Quot.sound |
| C147 | `C147_from_orientation_partial` | propext, Classical.choice, Quot.sound |
| C147 | `C147_negative_dy_violated` | propext, Classical.choice, Quot.sound |
| C148 | `C148_validate` | propext, Classical.choice, Quot.sound |
| C149 | `C149_arguments` | propext, Classical.choice, Quot.sound |
| C149 | `C149_json` | propext, Classical.choice, Quot.sound |
| C149 | `C149_text_partial` | propext, Classical.choice, Quot.sound |
| C149 | `C149_refusal` | propext, Classical.choice, Quot.sound |
| C149 | `C149_exceptions` | propext, Classical.choice, Quot.sound |
| C149 | `C149_text_quad_violated` | propext, Classical.choice, Quot.sound |
| C150 | `C150_put` | propext, Classical.choice, Quot.sound |
| C150 | `C150_readable` | propext, Classical.choice, Quot.sound |
| C150 | `C150_missing` | propext, Classical.choice, Quot.sound |
| C150 | `C150_shrinking_violated` | propext, Classical.choice, Quot.sound |
| C150 | `C150_growing_violated` | propext, Classical.choice, Quot.sound |
| C150 | `C150_reuse_violated` | propext |
| C151 | `C151_put_recursive` | propext, Classical.choice, Quot.sound |
| C152 | `C152_get` | propext, Classical.choice, Quot.sound |
| C152 | `C152_rename_file` | propext, Classical.choice, Quot.sound |
| C152 | `C152_rename_dir` | propext, Classical.choice, Quot.sound |
| C152 | `C152_blank_violated` | propext, Classical.choice, Quot.sound |
| C153 | `C153_whole` | propext, Classical.choice, Quot.sound |
| C154 | `C154_refusal_partial` | propext, Classical.choice, Quot.sound |
| C154 | `C154_eof_violated` | propext, Classical.choice, Quot.sound |
| C154 | `C154_split_violated` | propext |
| C154 | `C154_timeout_violated` | propext |
| C155 | `C155_pieces` | propext, Classical.choice, Quot.sound |
| C155 | `C155_describe` | propext, Classical.choice, Quot.sound |
| C155 | `C155_error` | propext, Classical.choice, Quot.sound |
| C155 | `C155_unknown` | propext, Classical.choice, Quot.sound |
| C155 | `C155_abbreviation_violated` | propext, Classical.choice, Quot.sound |
| C155 | `C155_names` | propext, Classical.choice, Quot.sound |
| C156 | `C156_identifies_partial` | propext, Classical.choice, Quot.sound |
| C156 | `C156_plus_violated` | propext, Classical.choice, Quot.sound |
| C156 | `C156_release` | propext, Classical.choice, Quot.sound |
| C156 | `C156_changes` | propext, Classical.choice, Quot.sound |
| C156 | `C156_pre_violated` | propext, Classical.choice, Quot.sound |
| C156 | `C156_style` | propext, Classical.choice, Quot.sound |
| C157 | `C157_pep440` | propext, Classical.choice, Quot.sound |
| C157 | `C157_others_partial` | propext, Classical.choice, Quot.sound |
| C157 | `C157_post_violated` | propext, Classical.choice, Quot.sound |
| C158 | `C158_archive_partial` | propext, Classical.choice, Quot.sound |
| C158 | `C158_branch_violated` | propext, Classical.choice, Quot.sound |
| C158 | `C158_order_violated` | propext, Classical.choice, Quot.sound |
| C158 | `C158_file` | propext, Classical.choice, Quot.sound |
| C159 | `C159_checkout` | propext, Classical.choice, Quot.sound |
| C159 | `C159_archive` | propext, Classical.choice, Quot.sound |
| C159 | `C159_unpacked` | propext, Classical.choice, Quot.sound |
| C159 | `C159_unknown` | propext, Classical.choice, Quot.sound |
| C159 | `C159_raises_partial` | propext, Classical.choice, Quot.sound |
| C159 | `C159_raises_violated` | propext, Classical.choice, Quot.sound |
| C159 | `C159_nested_violated` | propext, Classical.choice, Quot.sound |
| C160 | `C160_nan` | propext, Classical.choice, Quot.sound |
| C160 | `C160_depth_partial` | propext, Classical.choice, Quot.sound |
| C160 | `C160_sizes` | propext, Classical.choice, Quot.sound |
| C160 | `C160_counts` | propext, Classical.choice, Quot.sound |
| C160 | `C107_depth_violated` | propext, Classical.choice, Quot.sound |
| C161 | `C161_strike_partial` | propext, Classical.choice, Quot.sound |
| C161 | `C161_vertical_violated` | propext, Classical.choice, Quot.sound |
| C162 | `C162_cities` | propext, Classical.choice, Quot.sound |
| C162 | `C162_iff` | propext, Classical.choice, Quot.sound |
| C162 | `C162_bad_record` | propext, Classical.choice, Quot.sound |
| C162 | `C162_short_line` | propext, Classical.choice, Quot.sound |
| C162 | `C162_name` | propext, Classical.choice, Quot.sound |
| C162 | `C162_arrays` | propext |
| C162 | `C162_download_violated` | propext, Classical.choice, Quot.sound |
| C162 | `C162_last_line` | propext, Classical.choice, Quot.sound |
| C163 | `C163_file` | propext, Classical.choice, Quot.sound |
| C163 | `C163_missing_heading` | propext, Classical.choice, Quot.sound |
| C163 | `C163_colon_violated` | propext, Classical.choice, Quot.sound |
| C164 | `C164_drawn_partial` | propext, Classical.choice, Quot.sound |
| C164 | `C164_keyError` | propext, Classical.choice, Quot.sound |
| C164 | `C164_center` | propext, Classical.choice, Quot.sound |
| C164 | `C164_edge_violated` | propext, Classical.choice, Quot.sound |
| C164 | `C164_single_violated` | propext, Classical.choice, Quot.sound |
| C164 | `C164_again_violated` | propext, Classical.choice, Quot.sound |
| C164 | `C164_dateline_violated` | propext, Classical.choice, Quot.sound |
| C164 | `C164_dimensions_violated` | propext, Classical.choice, Quot.sound |
| C164 | `C164_label` | propext, Classical.choice, Quot.sound |
| C164 | `C164_margin_partial` | propext, Classical.choice, Quot.sound |
| C165 | `C165_tree_partial` | propext, Classical.choice, Quot.sound |
| C165 | `C165_hit` | propext, Classical.choice, Quot.sound |
| C165 | `C165_bound` | propext, Classical.choice, Quot.sound |
| C165 | `C165_distorted_violated` | propext, Classical.choice, Quot.sound |
| C166 | `C166_polygon` | propext, Classical.choice, Quot.sound |
| C166 | `C166_line_partial` | propext, Classical.choice, Quot.sound |
| C166 | `C166_refused` | propext, Classical.choice, Quot.sound |
| C166 | `C166_three_violated` | propext, Classical.choice, Quot.sound |
| C166 | `C166_ring_violated` | propext, Classical.choice, Quot.sound |
| C167 | `C167_folder_partial` | propext, Classical.choice, Quot.sound |
| C167 | `C167_link` | propext, Classical.choice, Quot.sound |
| C167 | `C167_flat_violated` | propext, Classical.choice, Quot.sound |
| C167 | `C167_folder_entry_violated` | propext, Classical.choice, Quot.sound |
| C167 | `C167_folders_violated` | propext, Classical.choice, Quot.sound |
| C167 | `C167_link_violated` | propext, Classical.choice, Quot.sound |
| C167 | `C167_no_link` | propext, Classical.choice, Quot.sound |
| C168 | `C168_point_partial` | propext, Classical.choice, Quot.sound |
| C168 | `C168_quad_partial` | propext, Classical.choice, Quot.sound |
| C168 | `C168_edge_partial` | propext, Classical.choice, Quot.sound |
| C168 | `C168_context` | propext, Classical.choice, Quot.sound |
| C168 | `C168_point_reference_violated` | propext, Classical.choice, Quot.sound |
| C168 | `C168_edge_reference_violated` | propext, Classical.choice, Quot.sound |
| C168 | `C168_quad_class_violated` | propext, Classical.choice, Quot.sound |
| C168 | `C168_time_violated` | propext, Classical.choice, Quot.sound |
| C168 | `C168_year_violated` | propext, Classical.choice, Quot.sound |
| C169 | `C169_source_partial` | propext, Classical.choice, Quot.sound |
| C169 | `C169_moment_violated` | propext, Quot.sound |
| C169 | `C169_type_violated` | propext, Classical.choice, Quot.sound |
| C170 | `C170_text` | propext, Quot.sound |
| C170 | `C170_save_partial` | propext, Classical.choice, Quot.sound |
| C170 | `C170_columns_violated` | propext, Classical.choice, Quot.sound |
| C170 | `C170_refused` | propext, Classical.choice, Quot.sound |
| C171 | `C171_project_partial` | propext, Classical.choice, Quot.sound |
| C171 | `C171_sort_violated` | none |
| C172 | `C172_history_partial` | propext, Classical.choice, Quot.sound |
| C172 | `C172_like_new` | propext, Classical.choice, Quot.sound |
| C172 | `C172_files_violated` | none |
| C172 | `C172_directory_violated` | propext |
| C172 | `C172_shared_violated` | propext, Classical.choice, Quot.sound |
| C173 | `C173_connection_partial` | propext, Classical.choice, Quot.sound |
| C173 | `C173_send_violated` | propext, Classical.choice, Quot.sound |
| C173 | `C173_cancel_violated` | propext, Classical.choice, Quot.sound |
| C174 | `C174_operands` | propext, Classical.choice, Quot.sound |
| C174 | `C174_symmetric` | propext, Classical.choice, Quot.sound |
| C174 | `C174_scalar_partial` | propext, Classical.choice, Quot.sound |
| C174 | `C174_scalar_violated` | propext, Classical.choice, Quot.sound |
| C174 | `C174_tuple` | propext, Classical.choice, Quot.sound |
| C175 | `C175_wire_partial` | propext, Classical.choice, Quot.sound |
| C175 | `C175_map_partial` | propext, Classical.choice, Quot.sound |
| C175 | `C175_single` | propext, Classical.choice, Quot.sound |
| C175 | `C175_groups_violated` | propext, Classical.choice, Quot.sound |
| C175 | `C175_dateline_violated` | propext, Classical.choice, Quot.sound |
| C175 | `C175_pole_violated` | propext, Classical.choice, Quot.sound |
| C175 | `C175_point_violated` | propext, Classical.choice, Quot.sound |
| C176 | `C176_arithmetic` | propext, Classical.choice, Quot.sound |
| C176 | `C176_floor_partial` | propext, Classical.choice, Quot.sound |
| C176 | `C176_ceil_partial` | propext, Classical.choice, Quot.sound |
| C176 | `C176_round_partial` | propext, Classical.choice, Quot.sound |
| C176 | `C176_population_partial` | propext, Classical.choice, Quot.sound |
| C176 | `C176_time` | propext, Classical.choice, Quot.sound |
| C176 | `C176_large_violated` | propext, Classical.choice, Quot.sound |
| C176 | `C176_tiny_violated` | propext, Classical.choice, Quot.sound |
| C176 | `C176_decimals_violated` | propext, Classical.choice, Quot.sound |
| C176 | `C176_precision_violated` | propext, Classical.choice, Quot.sound |
| C176 | `C176_decimal_fixed` | propext, Classical.choice, Quot.sound |
| C176 | `C176_decimal_round_partial` | propext, Classical.choice, Quot.sound |
| C176 | `C176_precision_partial` | propext, Classical.choice, Quot.sound |
| C177 | `C177_persistent` | propext, Classical.choice, Quot.sound |
| C177 | `C177_load` | propext, Classical.choice, Quot.sound |
| C177 | `C177_closed` | propext, Classical.choice, Quot.sound |
| C177 | `C177_create` | propext, Classical.choice, Quot.sound |
| C178 | `C178_atomic_partial` | propext, Classical.choice, Quot.sound |
| C178 | `C178_delivered_partial` | propext, Classical.choice, Quot.sound |
| C178 | `C178_different_places` | propext, Classical.choice, Quot.sound |
| C178 | `C178_different_seconds_partial` | propext, Classical.choice, Quot.sound |
| C178 | `C178_alone` | propext, Classical.choice, Quot.sound |
| C178 | `C178_same_second_violated` | propext, Classical.choice, Quot.sound |
| C178 | `C178_exception_violated` | propext, Classical.choice, Quot.sound |
| C179 | `C179_arguments_partial` | propext, Classical.choice, Quot.sound |
| C179 | `C179_blank_violated` | propext, Classical.choice, Quot.sound |
| C179 | `C179_quotes_violated` | propext, Classical.choice, Quot.sound |
| C179 | `C179_operator_violated` | propext, Classical.choice, Quot.sound |
| C179 | `C179_cancel_files_violated` | propext, Classical.choice, Quot.sound |
| C180 | `C180_same_partial` | propext, Classical.choice, Quot.sound |
| C180 | `C180_returned` | propext, Classical.choice, Quot.sound |
| C180 | `C180_twice` | propext, Classical.choice, Quot.sound |
| C180 | `C180_histories` | propext, Classical.choice, Quot.sound |
| C180 | `C180_ascii` | propext, Classical.choice, Quot.sound |
| C180 | `C180_tuple_violated` | propext, Classical.choice, Quot.sound |
| C180 | `C180_key_violated` | propext, Classical.choice, Quot.sound |
| C180 | `C180_merged_violated` | propext, Classical.choice, Quot.sound |
| C180 | `C180_types_violated` | propext, Classical.choice, Quot.sound |
| C180 | `C180_trailing` | propext, Classical.choice, Quot.sound |
| C180 | `C180_floats` | propext, Classical.choice, Quot.sound |
| C180 | `C180_read` | propext, Classical.choice, Quot.sound |
| C180 | `C180_python_partial` | propext, Classical.choice, Quot.sound |
| C181 | `C181_file_partial` | propext, Classical.choice, Quot.sound |
| C181 | `C181_complete` | propext, Classical.choice, Quot.sound |
| C181 | `C181_point_partial` | propext, Classical.choice, Quot.sound |
| C181 | `C181_quad_partial` | propext, Classical.choice, Quot.sound |
| C181 | `C181_edge_partial` | propext, Classical.choice, Quot.sound |
| C181 | `C181_time_violated` | propext, Classical.choice, Quot.sound |
| C182 | `C182_documents_partial` | propext, Classical.choice, Quot.sound |
| C182 | `C182_setters` | propext, Classical.choice, Quot.sound |
| C182 | `C182_rupture_partial` | propext, Classical.choice, Quot.sound |
| C182 | `C182_quad_partial` | propext, Classical.choice, Quot.sound |
| C182 | `C182_history_violated` | propext, Classical.choice, Quot.sound |
| C182 | `C182_time_violated` | propext, Classical.choice, Quot.sound |
| C183 | `C183_color_partial` | propext, Classical.choice, Quot.sound |
| C183 | `C183_ends` | propext, Classical.choice, Quot.sound |
| C183 | `C183_order` | propext, Classical.choice, Quot.sound |
| C183 | `C183_nan` | propext, Classical.choice, Quot.sound |
| C183 | `C183_stretch` | propext, Classical.choice, Quot.sound |
| C183 | `C183_log` | propext, Classical.choice, Quot.sound |
| C183 | `C183_bytes` | propext, Classical.choice, Quot.sound |
| C183 | `C183_documented_violated` | propext, Classical.choice, Quot.sound |
| C183 | `C183_top_violated` | propext, Classical.choice, Quot.sound |
| C183 | `C183_unordered_violated` | propext, Classical.choice, Quot.sound |
| C183 | `C183_gap_violated` | propext, Classical.choice, Quot.sound |
| C183 | `C183_presets` | propext, Classical.choice, Quot.sound |
| C183 | `C183_population` | propext, Classical.choice, Quot.sound |
| C183 | `C183_intensity_violated` | propext, Classical.choice, Quot.sound |
| C184 | `C184_spaced_partial` | propext, Classical.choice, Quot.sound |
| C184 | `C184_succeeds` | propext, Classical.choice, Quot.sound |
| C184 | `C184_from_vector` | propext, Classical.choice, Quot.sound |
| C184 | `C184_beyond_violated` | propext, Classical.choice, Quot.sound |
| C185 | `C185_elapsed` | propext, Classical.choice, Quot.sound |
| C185 | `C185_nautical` | propext, Classical.choice, Quot.sound |
| C185 | `C185_zone_partial` | propext, Classical.choice, Quot.sound |
| C185 | `C185_compass_partial` | propext, Classical.choice, Quot.sound |
| C185 | `C185_cell_partial` | propext, Classical.choice, Quot.sound |
| C185 | `C185_zone_violated` | propext, Classical.choice, Quot.sound |
| C185 | `C185_compass_violated` | propext, Classical.choice, Quot.sound |
| C185 | `C185_cell_violated` | propext, Classical.choice, Quot.sound |
| C186 | `C186_asbytes` | propext, Classical.choice, Quot.sound |
| C186 | `C186_asunicode` | propext, Classical.choice, Quot.sound |
| C186 | `C186_round_trip` | propext, Classical.choice, Quot.sound |
| C186 | `C186_name` | propext, Classical.choice, Quot.sound |
| C186 | `C186_put` | propext, Classical.choice, Quot.sound |
| C186 | `C186_put_tree` | propext, Classical.choice, Quot.sound |
| C186 | `C186_get` | propext, Classical.choice, Quot.sound |
| C186 | `C186_pdl` | propext, Classical.choice, Quot.sound |
| C186 | `C186_name_violated` | propext, Classical.choice, Quot.sound |
| C186 | `C186_put_violated` | propext, Classical.choice, Quot.sound |
| C186 | `C186_put_tree_violated` | propext, Classical.choice, Quot.sound |
| C186 | `C186_get_violated` | propext, Classical.choice, Quot.sound |
| C186 | `C186_pdl_violated` | propext, Classical.choice, Quot.sound |
| C187 | `C187_histories` | propext, Classical.choice, Quot.sound |
| C187 | `C187_linked` | propext, Classical.choice, Quot.sound |
| C187 | `C187_zero_in_dictionary` | propext, Classical.choice, Quot.sound |
| C187 | `C187_refused_violated` | propext, Classical.choice, Quot.sound |
| C187 | `C187_zero_violated` | propext, Classical.choice, Quot.sound |
| C188 | `C188_from_dict` | propext, Classical.choice, Quot.sound |
| C188 | `C188_point` | propext, Classical.choice, Quot.sound |
| C188 | `C188_given_partial` | propext, Classical.choice, Quot.sound |
| C188 | `C188_and_origin` | propext, Classical.choice, Quot.sound |
| C188 | `C188_constant` | propext, Classical.choice, Quot.sound |
| C188 | `C188_argument` | propext, Classical.choice, Quot.sound |
| C188 | `C188_twice_violated` | propext, Classical.choice, Quot.sound |
| C188 | `C188_class_violated` | propext, Classical.choice, Quot.sound |
| C188 | `C188_failed_violated` | propext, Classical.choice, Quot.sound |
| C188 | `C188_stale_violated` | propext, Classical.choice, Quot.sound |
| C189 | `C189_like_new` | propext, Quot.sound |
| C189 | `C189_history_partial` | propext, Quot.sound |
| C189 | `C189_tree` | propext, Classical.choice, Quot.sound |
| C189 | `C189_with` | propext, Quot.sound |
| C189 | `C189_time_violated` | propext, Classical.choice, Quot.sound |
| C189 | `C189_dir_violated` | propext, Classical.choice, Quot.sound |
| C189 | `C189_session_violated` | propext, Quot.sound |
| C190 | `C190_amount_partial` | propext, Classical.choice, Quot.sound |
| C190 | `C190_small` | propext, Classical.choice, Quot.sound |
| C190 | `C190_repr` | propext, Classical.choice, Quot.sound |
| C190 | `C190_half_violated` | propext, Classical.choice, Quot.sound |
| C190 | `C190_carry_violated` | propext, Classical.choice, Quot.sound |
| C191 | `C191_color_partial` | propext, Classical.choice, Quot.sound |
| C191 | `C191_order_partial` | propext, Classical.choice, Quot.sound |
| C191 | `C191_ends` | propext, Classical.choice, Quot.sound |
| C191 | `C191_resolution` | propext, Classical.choice, Quot.sound |
| C191 | `C191_steps` | propext, Classical.choice, Quot.sound |
| C191 | `C191_population` | propext, Classical.choice, Quot.sound |
| C191 | `C191_resolution_violated` | propext, Classical.choice, Quot.sound |
| C191 | `C191_order_violated` | propext, Classical.choice, Quot.sound |
| C191 | `C191_bytes_violated` | propext, Classical.choice, Quot.sound |
| C192 | `C192_same` | propext, Classical.choice, Quot.sound |
| C192 | `C192_fields` | propext, Classical.choice, Quot.sound |
| C192 | `C192_grid` | propext, Classical.choice, Quot.sound |
| C192 | `C192_params` | propext, Classical.choice, Quot.sound |
| C192 | `C192_ids` | propext, Classical.choice, Quot.sound |
| C192 | `C192_sources` | propext, Classical.choice, Quot.sound |
| C192 | `C192_authoritative_partial` | propext, Classical.choice, Quot.sound |
| C192 | `C192_places_partial` | propext, Classical.choice, Quot.sound |
| C192 | `C192_regions_violated` | propext, Classical.choice, Quot.sound |
| C192 | `C192_places_violated` | propext, Classical.choice, Quot.sound |
| C192 | `C192_regions_partial` | propext, Classical.choice, Quot.sound |
| C192 | `C192_range` | propext, Classical.choice, Quot.sound |
| C193 | `C193_bounds` | propext, Classical.choice, Quot.sound |
| C193 | `C193_population` | propext, Classical.choice, Quot.sound |
| C193 | `C193_name` | propext, Classical.choice, Quot.sound |
| C193 | `C193_radius` | propext, Classical.choice, Quot.sound |
| C193 | `C193_independent_partial` | propext, Classical.choice, Quot.sound |
| C193 | `C193_arrays_violated` | propext, Classical.choice, Quot.sound |
| C193 | `C193_dist_violated` | propext, Classical.choice, Quot.sound |
| C193 | `C193_limited` | propext, Classical.choice, Quot.sound |
| C193 | `C193_missing` | propext, Classical.choice, Quot.sound |
| C194 | `C194_read` | propext, Classical.choice, Quot.sound |
| C194 | `C194_reads` | propext, Classical.choice, Quot.sound |
| C194 | `C194_reads_alt` | propext, Classical.choice, Quot.sound |
| C194 | `C194_written` | propext, Classical.choice, Quot.sound |
| C194 | `C194_back_partial` | propext, Classical.choice, Quot.sound |
| C194 | `C194_pdl_partial` | propext, Classical.choice, Quot.sound |
| C194 | `C194_ruptures_partial` | propext, Classical.choice, Quot.sound |
| C194 | `C194_events_partial` | propext, Classical.choice, Quot.sound |
| C194 | `C194_year_violated` | propext, Classical.choice, Quot.sound |
| C195 | `C195_linear` | propext, Classical.choice, Quot.sound |
| C195 | `C195_laws` | propext, Classical.choice, Quot.sound |
| C195 | `C195_dot` | propext, Classical.choice, Quot.sound |
| C195 | `C195_cross` | propext, Classical.choice, Quot.sound |
| C195 | `C195_whole` | propext, Classical.choice, Quot.sound |
| C195 | `C195_length_partial` | propext, Classical.choice, Quot.sound |
| C195 | `C195_unit_partial` | propext, Classical.choice, Quot.sound |
| C195 | `C195_distance_partial` | propext, Classical.choice, Quot.sound |
| C195 | `C195_distance_order` | propext, Classical.choice, Quot.sound |
| C195 | `C195_tiny_violated` | propext, Classical.choice, Quot.sound |
| C195 | `C195_laws_violated` | propext, Classical.choice, Quot.sound |
| C196 | `C196_own` | propext, Classical.choice, Quot.sound |
| C196 | `C196_current_partial` | propext, Classical.choice, Quot.sound |
| C196 | `C196_fonts` | propext, Classical.choice, Quot.sound |
| C196 | `C196_failure_violated` | propext, Classical.choice, Quot.sound |
| C196 | `C196_extent_violated` | propext, Classical.choice, Quot.sound |
| C196 | `C196_font_violated` | propext, Classical.choice, Quot.sound |
| C196 | `C196_clone_violated` | propext, Classical.choice, Quot.sound |
| C197 | `C197_cells_partial` | propext, Classical.choice, Quot.sound |
| C197 | `C197_clear_partial` | propext, Classical.choice, Quot.sound |
| C197 | `C197_default_partial` | propext, Classical.choice, Quot.sound |
| C197 | `C197_whole_partial` | propext, Classical.choice, Quot.sound |
| C197 | `C197_edge_violated` | propext, Classical.choice, Quot.sound |
| C197 | `C197_gap_violated` | propext, Classical.choice, Quot.sound |
| C197 | `C197_twice_violated` | propext, Classical.choice, Quot.sound |
| C198 | `C198_float` | propext, Classical.choice, Quot.sound |
| C198 | `C198_int` | propext, Classical.choice, Quot.sound |
| C198 | `C198_origin` | propext, Classical.choice, Quot.sound |
| C198 | `C198_back` | propext, Classical.choice, Quot.sound |
| C198 | `C198_fixed` | propext, Classical.choice, Quot.sound |
| C198 | `C198_rupture_partial` | propext, Classical.choice, Quot.sound |
| C198 | `C198_event_partial` | propext, Classical.choice, Quot.sound |
| C198 | `C198_code_violated` | propext, Classical.choice, Quot.sound |
| C198 | `C198_cities` | propext, Classical.choice, Quot.sound |
| C198 | `C198_refusal` | propext, Classical.choice, Quot.sound |
| C198 | `C198_commas_violated` | propext, Classical.choice, Quot.sound |
| C199 | `C199_arrays` | propext, Classical.choice, Quot.sound |
| C199 | `C199_determined` | propext, Classical.choice, Quot.sound |
| C199 | `C199_nan_violated` | propext, Classical.choice, Quot.sound |
| C199 | `C199_outlines_partial` | propext, Classical.choice, Quot.sound |
| C199 | `C199_edges` | propext, Classical.choice, Quot.sound |
| C199 | `C199_bottom_violated` | propext, Classical.choice, Quot.sound |
| C200 | `C200_distance_partial` | propext, Classical.choice, Quot.sound |
| C200 | `C200_same` | propext, Classical.choice, Quot.sound |
| C200 | `C200_symmetric` | propext, Classical.choice, Quot.sound |
| C200 | `C200_depth_partial` | propext, Classical.choice, Quot.sound |
| C200 | `C200_number` | propext, Classical.choice, Quot.sound |
| C200 | `C200_azimuth` | propext, Classical.choice, Quot.sound |
| C200 | `C200_direction` | propext, Classical.choice, Quot.sound |
| C200 | `C200_nan_violated` | propext, Classical.choice, Quot.sound |
| C201 | `C201_bounds` | propext, Classical.choice, Quot.sound |
| C201 | `C201_some` | propext, Classical.choice, Quot.sound |
| C201 | `C201_own_partial` | propext, Classical.choice, Quot.sound |
| C201 | `C201_own_violated` | propext, Classical.choice, Quot.sound |
| C202 | `C202_fonts_partial` | propext, Classical.choice, Quot.sound |
| C202 | `C202_others` | propext, Classical.choice, Quot.sound |
| C202 | `C202_own_violated` | propext, Classical.choice, Quot.sound |
| C202 | `C202_collision_violated` | propext, Classical.choice, Quot.sound |
| C203 | `C203_near` | propext, Classical.choice, Quot.sound |
| C203 | `C203_point` | propext, Classical.choice, Quot.sound |
| C203 | `C203_mirror` | propext, Classical.choice, Quot.sound |
| C203 | `C203_zero` | propext, Classical.choice, Quot.sound |
| C204 | `C204_roundtrip` | propext, Classical.choice, Quot.sound |
| C204 | `C204_axis` | propext, Classical.choice, Quot.sound |
| C204 | `C204_geodetic` | propext, Classical.choice, Quot.sound |
| C205 | `C205_near` | propext, Classical.choice, Quot.sound |
| C205 | `C205_edge` | propext, Classical.choice, Quot.sound |
| C205 | `C205_same` | propext, Classical.choice, Quot.sound |
| C205 | `C205_grows` | propext, Classical.choice, Quot.sound |
| C206 | `C206_untouched_partial` | propext, Quot.sound |
| C206 | `C206_copy` | propext, Quot.sound |
| C206 | `C206_class` | propext, Quot.sound |
| C206 | `C206_shared_violated` | propext |
| C207 | `C207_near` | propext, Classical.choice, Quot.sound |
| C207 | `C207_spacing` | propext, Classical.choice, Quot.sound |
| C207 | `C207_exact` | propext, Classical.choice, Quot.sound |
| C208 | `C208_near` | propext, Classical.choice, Quot.sound |
| C208 | `C208_point` | propext, Classical.choice, Quot.sound |
| C209 | `C209_rrup` | propext, Classical.choice, Quot.sound |
| C209 | `C209_rjb` | propext, Classical.choice, Quot.sound |
| C210 | `C210_whole` | propext, Classical.choice, Quot.sound |
| C210 | `C210_repeat` | propext, Classical.choice, Quot.sound |
| C210 | `C210_leftover` | propext, Classical.choice, Quot.sound |
| C211 | `C211_whole` | propext, Classical.choice, Quot.sound |
| C211 | `C211_repeat` | propext, Classical.choice, Quot.sound |
| C212 | `C212_whole` | propext, Classical.choice, Quot.sound |
| C212 | `C212_repeat` | propext, Classical.choice, Quot.sound |
| C213 | `C213_text` | propext, Classical.choice, Quot.sound |
| C213 | `C213_same` | propext, Classical.choice, Quot.sound |
| C213 | `C213_wkt` | propext, Classical.choice, Quot.sound |
| C214 | `C214_echo` | propext, Classical.choice, Quot.sound |
| C215 | `C215_refused_partial` | propext, Classical.choice, Quot.sound |
| C215 | `C215_json` | propext, Classical.choice, Quot.sound |
| C215 | `C215_empty_violated` | propext, Classical.choice, Quot.sound |
| C216 | `C216_saved_partial` | propext, Classical.choice, Quot.sound |
| C216 | `C216_rows` | propext, Quot.sound |
| C216 | `C216_lines_violated` | propext, Quot.sound |
| C216 | `C216_last_violated` | propext, Classical.choice, Quot.sound |
| C217 | `C217_text` | propext, Classical.choice, Quot.sound |
| C218 | `C218_interrupted` | propext, Classical.choice, Quot.sound |
| C219 | `C219_utf8` | propext, Classical.choice, Quot.sound |
| C219 | `C219_foreign` | propext, Classical.choice, Quot.sound |
| C220 | `C220_width` | propext, Classical.choice, Quot.sound |
| C220 | `C220_mean` | propext, Classical.choice, Quot.sound |
| C220 | `C220_area` | propext, Classical.choice, Quot.sound |
| C220 | `C220_one` | propext, Classical.choice, Quot.sound |
| C220 | `C220_width_exists` | propext, Classical.choice, Quot.sound |
| C220 | `C220_each` | propext, Classical.choice, Quot.sound |
| C221 | `C221_frame` | propext, Classical.choice, Quot.sound |
| C221 | `C221_dip` | propext, Classical.choice, Quot.sound |
| C221 | `C221_mean` | propext, Classical.choice, Quot.sound |
| C221 | `C221_one` | propext, Classical.choice, Quot.sound |
| C222 | `C222_area` | propext, Classical.choice, Quot.sound |
| C222 | `C222_thin` | propext, Classical.choice, Quot.sound |
| C222 | `C222_one` | propext, Classical.choice, Quot.sound |
| C223 | `C223_length` | propext, Classical.choice, Quot.sound |
| C223 | `C223_width` | propext, Classical.choice, Quot.sound |
| C224 | `C224_dip` | propext, Classical.choice, Quot.sound |
| C224 | `C224_normal` | propext, Classical.choice, Quot.sound |
| C224 | `C224_one` | propext, Classical.choice, Quot.sound |
| C224 | `C224_vertical_violated` | propext, Classical.choice, Quot.sound |
| C224 | `C224_equator_violated` | propext, Classical.choice, Quot.sound |
| C225 | `C225_area` | propext, Classical.choice, Quot.sound |
| C225 | `C225_length` | propext, Classical.choice, Quot.sound |
| C225 | `C225_width` | propext, Classical.choice, Quot.sound |
| C225 | `C225_edge_dip` | propext, Classical.choice, Quot.sound |
| C225 | `C225_quad_dip` | propext, Classical.choice, Quot.sound |
| C226 | `C226_range` | propext, Classical.choice, Quot.sound |
| C226 | `C226_parts` | propext, Classical.choice, Quot.sound |
| C226 | `C226_order` | propext, Classical.choice, Quot.sound |
| C226 | `C226_depth` | propext, Classical.choice, Quot.sound |
| C226 | `C226_edges` | propext, Classical.choice, Quot.sound |
| C227 | `C227_range_partial` | propext, Classical.choice, Quot.sound |
| C227 | `C227_vertical_violated` | propext, Classical.choice, Quot.sound |
| C228 | `C228_range` | propext, Classical.choice, Quot.sound |
| C228 | `C228_direction` | propext, Classical.choice, Quot.sound |
| C229 | `C229_sum` | propext, Classical.choice, Quot.sound |
| C229 | `C229_near` | propext, Classical.choice, Quot.sound |
