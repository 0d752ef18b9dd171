# Axioms of the property theorems

Output of `#print axioms`, one line per theorem.

| theorem | axioms |
|---|---|
| `Qopen.C01_product_preserved` | propext, Classical.choice, Quot.sound |
| `Qopen.C01_missing_stays_missing` | propext, Classical.choice, Quot.sound |
| `Qopen.C02_pins_mean_response` | propext, Classical.choice, Quot.sound |
| `Qopen.C02_measured_all` | propext, Classical.choice, Quot.sound |
| `Qopen.C02_measured_named` | propext, Classical.choice, Quot.sound |
| `Qopen.C02_measured_station` | propext, Classical.choice, Quot.sound |
| `Qopen.C03_consistent_data` | propext, Classical.choice, Quot.sound |
| `Qopen.C04_misfit_not_increased` | propext, Classical.choice, Quot.sound |
| `Qopen.C05_only_largest_area` | propext, Classical.choice, Quot.sound |
| `Qopen.C05_data_remain` | propext, Classical.choice, Quot.sound |
| `Qopen.C06_merge_components` | propext, Classical.choice, Quot.sound |
| `Qopen.C06_names_distinct` | propext, Classical.choice, Quot.sound |
| `Qopen.C06_areas` | propext, Classical.choice, Quot.sound |
| `Qopen.C07_same_system` | propext, Classical.choice, Quot.sound |
| `Qopen.C07_shape` | propext, Classical.choice, Quot.sound |
| `Qopen.C07_same_result` | propext, Classical.choice, Quot.sound |
| `Qopen.C08_solver_independent` | propext, Classical.choice, Quot.sound |
| `Qopen.C09_events_sorted` | propext, Classical.choice, Quot.sound |
| `Qopen.C09_rejects_uneven_bands` | propext, Classical.choice, Quot.sound |
| `Qopen.C10_idempotent` | propext, Classical.choice, Quot.sound |
| `Qopen.C11_listed_stations` | propext, Classical.choice, Quot.sound |
| `Qopen.C11_single_station_partial` | propext, Classical.choice, Quot.sound |
| `Qopen.C11_substring_counterexample` | propext, Classical.choice, Quot.sound |
| `Qopen.C12_means_of_aligned_responses_partial` | propext, Classical.choice, Quot.sound |
| `Qopen.C12_unretained_entry_unchanged` | propext, Classical.choice, Quot.sound |
| `Qopen.C12_stale_mean_counterexample` | propext, Classical.choice, Quot.sound |
| `Qopen.C13_reported_values_are_best_fit` | propext, Classical.choice, Quot.sound |
| `Qopen.C13_reported_error` | propext, Classical.choice, Quot.sound |
| `Qopen.C13_error_degrees_of_freedom` | propext, Classical.choice, Quot.sound |
| `Qopen.C14_geometric_mean_is_R0` | propext, Classical.choice, Quot.sound |
| `Qopen.C15_scaling_of_energies` | propext, Classical.choice, Quot.sound |
| `Qopen.C15_scaling_of_R0` | propext, Classical.choice, Quot.sound |
| `Qopen.C16_exact_recovery` | propext, Classical.choice, Quot.sound |
| `Qopen.C17_misfit_outside` | propext, Classical.choice, Quot.sound |
| `Qopen.C17_result_inside_bounds` | propext, Classical.choice, Quot.sound |
| `Qopen.C17_suppressed_iff` | propext, Classical.choice, Quot.sound |
| `Qopen.C18_windows_belong_to_pairs` | propext, Classical.choice, Quot.sound |
| `Qopen.C18_inversion_of_accepted_pairs` | propext, Classical.choice, Quot.sound |
| `Qopen.C19_error_degrees_of_freedom` | propext, Classical.choice, Quot.sound |
| `Qopen.C19_source_uses_reference_responses` | propext, Classical.choice, Quot.sound |
| `Qopen.C19_source_energy_is_weighted_mean` | propext, Classical.choice, Quot.sound |
| `Qopen.C20_windows_partial` | propext, Classical.choice, Quot.sound |
| `Qopen.C20_velocity` | propext, Classical.choice, Quot.sound |
| `Qopen.C20_front_at_sonset_partial` | propext, Classical.choice, Quot.sound |
| `Qopen.C20_time_axis_partial` | propext, Classical.choice, Quot.sound |
| `Qopen.C20_counterexample` | propext, Classical.choice, Quot.sound |
| `Qopen.C21_prediction` | propext, Classical.choice, Quot.sound |
| `Qopen.C21_bulk_inside_window` | propext, Classical.choice, Quot.sound |
| `Qopen.C21_all_pairs` | propext, Classical.choice, Quot.sound |
| `Qopen.C22_noise_step` | propext, Classical.choice, Quot.sound |
| `Qopen.C22_noise_removal` | propext, Classical.choice, Quot.sound |
| `Qopen.C23_tables` | propext, Classical.choice, Quot.sound |
| `Qopen.C23_stations` | propext, Classical.choice, Quot.sound |
| `Qopen.C23_ignore_network_error` | propext, Classical.choice, Quot.sound |
| `Qopen.C24_sequential` | propext, Classical.choice, Quot.sound |
| `Qopen.C24_schedule` | propext, Classical.choice, Quot.sound |
| `Qopen.C24_any_number_of_workers_partial` | propext, Classical.choice, Quot.sound |
| `Qopen.C24_counterexample` | propext, Classical.choice, Quot.sound |
| `Qopen.C25_order_partial` | propext, Classical.choice, Quot.sound |
| `Qopen.C25_failures` | propext, Classical.choice, Quot.sound |
| `Qopen.C25_equal_times_counterexample` | propext, Classical.choice, Quot.sound |
| `Qopen.C25_empty_counterexample` | propext, Classical.choice, Quot.sound |
| `Qopen.C26_means_partial` | propext, Classical.choice, Quot.sound |
| `Qopen.C26_attenuation_partial` | propext, Classical.choice, Quot.sound |
| `Qopen.C26_zero_error_counterexample` | propext, Classical.choice, Quot.sound |
| `Qopen.C27_fixed_values` | propext, Classical.choice, Quot.sound |
| `Qopen.C27_right_band` | propext, Classical.choice, Quot.sound |
| `Qopen.C27_missing_attenuation` | propext, Classical.choice, Quot.sound |
| `Qopen.C27_order` | propext, Classical.choice, Quot.sound |
| `Qopen.C27_order_sites` | propext, Classical.choice, Quot.sound |
| `Qopen.C27_different_frequencies` | propext, Classical.choice, Quot.sound |
| `Qopen.C27_same_frequencies` | propext, Classical.choice, Quot.sound |
| `Qopen.C28_pairs` | propext, Classical.choice, Quot.sound |
| `Qopen.C28_order` | propext, Classical.choice, Quot.sound |
| `Qopen.C29_band` | propext, Classical.choice, Quot.sound |
| `Qopen.C29_invert_partial` | propext, Classical.choice, Quot.sound |
| `Qopen.C29_counterexample` | propext, Classical.choice, Quot.sound |
| `Qopen.C30_snr` | propext, Classical.choice, Quot.sound |
| `Qopen.C30_snr_after_time` | propext, Classical.choice, Quot.sound |
| `Qopen.C31_time_strings` | propext, Classical.choice, Quot.sound |
| `Qopen.C31_case_insensitive` | propext, Classical.choice, Quot.sound |
| `Qopen.C32_latest_start_earliest_end` | propext, Classical.choice, Quot.sound |
| `Qopen.C33_cut_window` | propext, Classical.choice, Quot.sound |
| `Qopen.C33_cut_at_lowest_minimum` | propext, Classical.choice, Quot.sound |
| `Qopen.C33_no_cut_partial` | propext, Classical.choice, Quot.sound |
| `Qopen.C33_counterexample` | propext, Classical.choice, Quot.sound |
| `Qopen.C34_energy_is_sum_of_channel_energies` | propext, Classical.choice, Quot.sound |
| `Qopen.C34_energy_nonneg` | propext, Classical.choice, Quot.sound |
| `Qopen.C34_rejected_iff` | propext, Classical.choice, Quot.sound |
| `Qopen.C34_quadratic` | propext, Classical.choice, Quot.sound |
| `Qopen.C34_proportional_to_density` | propext, Classical.choice, Quot.sound |
| `Qopen.C35_mean_is_one` | propext, Classical.choice, Quot.sound |
| `Qopen.C35_amplitude_does_not_matter` | propext, Classical.choice, Quot.sound |
| `Qopen.C35_error_degrees_of_freedom` | propext, Classical.choice, Quot.sound |
| `Qopen.C35_best_fit` | propext, Classical.choice, Quot.sound |
| `Qopen.C35_exact_recovery` | propext, Classical.choice, Quot.sound |
| `Qopen.C35_not_with_fixed_attenuation` | propext, Classical.choice, Quot.sound |
| `Qopen.C36_band_width` | propext, Classical.choice, Quot.sound |
| `Qopen.C36_central_frequencies` | propext, Classical.choice, Quot.sound |
| `Qopen.C36_series` | propext, Classical.choice, Quot.sound |
| `Qopen.C36_min_counterexample` | propext, Classical.choice, Quot.sound |
| `Qopen.C36_explicit_bands_partial` | propext, Classical.choice, Quot.sound |
| `Qopen.C36_explicit_bands_counterexample` | propext, Classical.choice, Quot.sound |
| `Qopen.C37_station_name` | propext, Classical.choice, Quot.sound |
| `Qopen.C37_station_name_injective` | propext, Classical.choice, Quot.sound |
| `Qopen.C37_event_id` | propext, Classical.choice, Quot.sound |
| `Qopen.C38_origin` | propext, Classical.choice, Quot.sound |
| `Qopen.C38_magnitude` | propext, Classical.choice, Quot.sound |
| `Qopen.C38_arrivals` | propext, Classical.choice, Quot.sound |
| `Qopen.C38_picks` | propext, Classical.choice, Quot.sound |
| `Qopen.C38_picks_total` | propext, Classical.choice, Quot.sound |
| `Qopen.C39_values` | propext, Classical.choice, Quot.sound |
| `Qopen.C39_event_ids` | propext, Classical.choice, Quot.sound |
| `Qopen.C39_sites` | propext, Classical.choice, Quot.sound |
| `Qopen.C39_nothing_else` | propext, Classical.choice, Quot.sound |
| `Qopen.C40_sort_dict_unknown_key` | propext, Quot.sound |
| `Qopen.C40_sort_dict_lossless` | propext, Quot.sound |
| `Qopen.C40_sort_dict_idempotent` | propext, Quot.sound |
| `Qopen.C40_results_have_known_keys` | propext, Classical.choice, Quot.sound |
| `Qopen.C41_transparent` | propext, Quot.sound |
| `Qopen.C41_evaluated_once` | propext, Quot.sound |
| `Qopen.C41_failure_not_cached` | propext |
| `Qopen.C42_same_length` | propext, Classical.choice, Quot.sound |
| `Qopen.C42_length_without_border` | propext, Classical.choice, Quot.sound |
| `Qopen.C42_rejects` | propext, Classical.choice, Quot.sound |
| `Qopen.C43_weighted_average` | propext, Classical.choice, Quot.sound |
| `Qopen.C43_weighted_average_noborder` | propext, Classical.choice, Quot.sound |
| `Qopen.C43_stays_in_range` | propext, Classical.choice, Quot.sound |
| `Qopen.C43_zeros_range` | propext, Classical.choice, Quot.sound |
| `Qopen.C44_length_partial` | propext, Classical.choice, Quot.sound |
| `Qopen.C44_two_samples_counterexample` | propext, Classical.choice, Quot.sound |
| `Qopen.C44_values` | propext, Classical.choice, Quot.sound |
| `Qopen.C44_rejects_uneven` | propext, Classical.choice, Quot.sound |
| `Qopen.C44_single_sample_counterexample` | propext, Classical.choice, Quot.sound |
| `Qopen.C45_gmean_is_geometric_mean` | propext, Classical.choice, Quot.sound |
| `Qopen.C45_weighted_gmean` | propext, Classical.choice, Quot.sound |
| `Qopen.C45_gmean_between` | propext, Classical.choice, Quot.sound |
| `Qopen.C45_gstat_scale` | propext, Classical.choice, Quot.sound |
| `Qopen.C45_gmean_scale` | propext, Classical.choice, Quot.sound |
| `Qopen.C45_gmean_recip` | propext, Classical.choice, Quot.sound |
| `Qopen.C45_gmean_perm` | propext, Classical.choice, Quot.sound |
| `Qopen.C45_weighted_gmean_perm` | propext, Classical.choice, Quot.sound |
| `Qopen.C45_weights_scale` | propext, Classical.choice, Quot.sound |
| `Qopen.C45_ignores_invalid` | propext, Classical.choice, Quot.sound |
| `Qopen.C46_gerr_bracket` | propext, Classical.choice, Quot.sound |
| `Qopen.C46_gerr_value` | propext, Classical.choice, Quot.sound |
| `Qopen.C47_weights_are_repetitions` | propext, Classical.choice, Quot.sound |
| `Qopen.C47_equal_weights` | propext, Classical.choice, Quot.sound |
| `Qopen.C47_unbiased_ge_biased` | propext, Classical.choice, Quot.sound |
| `Qopen.C47_weighted_value` | propext, Classical.choice, Quot.sound |
| `Qopen.C47_no_error` | propext, Classical.choice, Quot.sound |
| `Qopen.C48_fall_back` | propext, Classical.choice, Quot.sound |
| `Qopen.C48_constant` | propext, Classical.choice, Quot.sound |
| `Qopen.C48_robust_value` | propext, Classical.choice, Quot.sound |
| `Qopen.C49_gmeanlist` | propext, Classical.choice, Quot.sound |
| `Qopen.C49_gmeanlist_robust` | propext, Classical.choice, Quot.sound |
| `Qopen.C50_single` | propext, Classical.choice, Quot.sound |
| `Qopen.C50_times` | propext, Classical.choice, Quot.sound |
| `Qopen.C50_pairs` | propext, Classical.choice, Quot.sound |
| `Qopen.C50_distances_partial` | propext, Classical.choice, Quot.sound |
| `Qopen.C50_distances_counterexample` | propext, Classical.choice, Quot.sound |
| `Qopen.C51_times_partial` | propext, Classical.choice, Quot.sound |
| `Qopen.C51_direct_bin` | propext, Classical.choice, Quot.sound |
| `Qopen.C51_first_sample_counterexample` | propext, Classical.choice, Quot.sound |
| `Qopen.C51_no_direct_counterexample` | propext, Classical.choice, Quot.sound |
| `Qopen.C51_distances` | propext, Classical.choice, Quot.sound |
| `Qopen.C51_pairs` | propext, Classical.choice, Quot.sound |
| `Qopen.C52_positive` | propext, Classical.choice, Quot.sound |
| `Qopen.C53_unit_of_length` | propext, Classical.choice, Quot.sound |
| `Qopen.C53_unit_of_time` | propext, Classical.choice, Quot.sound |
| `Qopen.C54_energy_2d` | propext, Classical.choice, Quot.sound |
| `Qopen.C55_energy_1d` | propext, Classical.choice, Quot.sound |
| `Qopen.C56_energy_diffusion` | propext, Classical.choice, Quot.sound |
| `Qopen.C56_energy_cutoff` | propext, Classical.choice, Quot.sound |
| `Qopen.C57_rt3d_diffusion` | propext, Classical.choice, Quot.sound |
| `Qopen.C57_diffapprox` | propext, Classical.choice, Quot.sound |
| `Qopen.C58_known_types` | propext, Classical.choice, Quot.sound |
| `Qopen.C58_rejects_partial` | propext, Classical.choice, Quot.sound |
| `Qopen.C58_counterexample` | propext, Classical.choice, Quot.sound |
| `Qopen.C59_plot_r` | propext, Classical.choice, Quot.sound |
| `Qopen.C59_plot_rt` | propext, Classical.choice, Quot.sound |
| `Qopen.C59_plot_t_partial` | propext, Classical.choice, Quot.sound |
| `Qopen.C59_plot_t_counterexample` | propext, Classical.choice, Quot.sound |
| `Qopen.C59_calc` | propext, Classical.choice, Quot.sound |
| `Qopen.C60_inverse` | propext, Classical.choice, Quot.sound |
| `Qopen.C60_inverse'` | propext, Classical.choice, Quot.sound |
| `Qopen.C60_increasing` | propext, Classical.choice, Quot.sound |
| `Qopen.C60_increasing'` | propext, Classical.choice, Quot.sound |
| `Qopen.C61_is_omega_model` | propext, Classical.choice, Quot.sound |
| `Qopen.C61_range` | propext, Classical.choice, Quot.sound |
| `Qopen.C61_decreasing` | propext, Classical.choice, Quot.sound |
| `Qopen.C61_increasing_fc` | propext, Classical.choice, Quot.sound |
| `Qopen.C61_linear` | propext, Classical.choice, Quot.sound |
| `Qopen.C61_at_corner` | propext, Classical.choice, Quot.sound |
| `Qopen.C61_low_frequency` | propext, Classical.choice, Quot.sound |
| `Qopen.C61_high_frequency` | propext, Classical.choice, Quot.sound |
| `Qopen.C62_reported_parameters_describe_fit` | propext, Classical.choice, Quot.sound |
| `Qopen.C63_fit_raises_iff` | propext, Classical.choice, Quot.sound |
| `Qopen.C63_fit_reports_iff` | propext, Classical.choice, Quot.sound |
| `Qopen.C63_empty_result_counterexample` | propext, Classical.choice, Quot.sound |
| `Qopen.C63_fit_otherwise_none_partial` | propext, Classical.choice, Quot.sound |
| `Qopen.C63_mean` | propext, Classical.choice, Quot.sound |
| `Qopen.C63_mean_needs_fc` | propext, Classical.choice, Quot.sound |
| `Qopen.C64_optimal` | propext, Classical.choice, Quot.sound |
| `Qopen.C64_exact_data` | propext, Classical.choice, Quot.sound |
| `Qopen.C65_value` | propext, Classical.choice, Quot.sound |
| `Qopen.C65_increasing` | propext, Classical.choice, Quot.sound |
| `Qopen.C65_scaling` | propext, Classical.choice, Quot.sound |
| `Qopen.C66_aligned` | propext, Classical.choice, Quot.sound |
| `Qopen.C67_no_stale_entries_partial` | propext, Classical.choice, Quot.sound |
| `Qopen.C67_rest_unchanged` | propext, Classical.choice, Quot.sound |
| `Qopen.C67_idempotent` | propext, Classical.choice, Quot.sound |
| `Qopen.C67_stale_mw_counterexample` | propext, Classical.choice, Quot.sound |
| `Qopen.C68_options` | propext, Classical.choice, Quot.sound |
| `Qopen.C68_own_options` | propext, Classical.choice, Quot.sound |
| `Qopen.C68_inputs` | propext, Classical.choice, Quot.sound |
| `Qopen.C68_plots` | propext, Classical.choice, Quot.sound |
| `Qopen.C68_command_line` | propext, Quot.sound |
| `Qopen.C68_example` | propext, Classical.choice, Quot.sound |
| `Qopen.C69_lines` | propext, Classical.choice, Quot.sound |
| `Qopen.C69_no_comment` | propext, Classical.choice, Quot.sound |
| `Qopen.C69_comment_text` | propext, Classical.choice, Quot.sound |
| `Qopen.C69_idempotent` | propext, Classical.choice, Quot.sound |
| `Qopen.C69_hash_in_string_counterexample` | propext, Classical.choice, Quot.sound |
| `Qopen.C70_figures_partial` | propext, Classical.choice, Quot.sound |
| `Qopen.C70_output_partial` | propext, Classical.choice, Quot.sound |
| `Qopen.C70_log_partial` | propext, Classical.choice, Quot.sound |
| `Qopen.C70_second_call_counterexample` | propext, Classical.choice, Quot.sound |
| `Qopen.C71_wrapper` | propext |
| `Qopen.C71_as_missing` | propext, Classical.choice, Quot.sound |
| `Qopen.C71_no_failure` | propext, Classical.choice, Quot.sound |
| `Qopen.C71_skipped` | propext, Classical.choice, Quot.sound |
| `Qopen.C72_fixed` | propext, Classical.choice, Quot.sound |
| `Qopen.C72_sites_partial` | propext, Quot.sound |
| `Qopen.C72_run` | propext, Classical.choice, Quot.sound |
| `Qopen.C72_events_counterexample` | propext, Classical.choice, Quot.sound |
| `Qopen.C73_configuration` | propext, Classical.choice, Quot.sound |
| `Qopen.C73_run` | propext, Classical.choice, Quot.sound |
| `Qopen.C73_invalid` | propext, Classical.choice, Quot.sound |
| `Qopen.C74_config` | propext, Classical.choice, Quot.sound |
| `Qopen.C74_plugin_missing` | propext, Classical.choice, Quot.sound |
| `Qopen.C74_passed_partial` | propext, Classical.choice, Quot.sound |
| `Qopen.C74_skip_completed` | propext, Classical.choice, Quot.sound |
| `Qopen.C74_njobs_counterexample` | propext, Classical.choice, Quot.sound |
| `Qopen.C74_repeated` | propext, Classical.choice, Quot.sound |
| `Qopen.C75_none_partial` | propext, Classical.choice, Quot.sound |
| `Qopen.C75_only_if` | propext, Classical.choice, Quot.sound |
| `Qopen.C75_simultaneous_counterexample` | propext, Classical.choice, Quot.sound |
| `Qopen.C76_table` | propext, Classical.choice, Quot.sound |
| `Qopen.C76_relations` | propext, Classical.choice, Quot.sound |
| `Qopen.C76_velocity_counterexample` | propext, Classical.choice, Quot.sound |
| `Qopen.C76_row` | propext, Classical.choice, Quot.sound |
| `Qopen.C77_sites` | propext, Classical.choice, Quot.sound |
| `Qopen.C77_spectra_partial` | propext, Classical.choice, Quot.sound |
| `Qopen.C77_spectra_counterexample` | propext, Classical.choice, Quot.sound |
| `Qopen.C78_encloses` | propext, Classical.choice, Quot.sound |
| `Qopen.C78_half_step` | propext, Classical.choice, Quot.sound |
| `Qopen.C78_single` | propext, Classical.choice, Quot.sound |
| `Qopen.C79_alignment_succeeds` | propext, Classical.choice, Quot.sound |
| `Qopen.C79_no_events` | propext, Classical.choice, Quot.sound |
| `Qopen.C79_succeeds_with_source_model` | propext, Classical.choice, Quot.sound |
| `Qopen.C80_ylabel` | propext, Classical.choice, Quot.sound |
| `Qopen.C80_xlabel_partial` | propext, Classical.choice, Quot.sound |
| `Qopen.C80_xlabel_default` | propext, Classical.choice, Quot.sound |
| `Qopen.C80_xlabel_counterexample` | propext, Classical.choice, Quot.sound |
| `Qopen.C81_panels_partial` | propext, Classical.choice, Quot.sound |
| `Qopen.C81_panels_counterexample` | propext, Classical.choice, Quot.sound |
| `Qopen.C81_record` | propext, Classical.choice, Quot.sound |
| `Qopen.C81_best_counterexample` | propext, Classical.choice, Quot.sound |
| `Qopen.C81_best_partial` | propext, Classical.choice, Quot.sound |
| `Qopen.C81_cross_counterexample` | propext, Classical.choice, Quot.sound |
| `Qopen.C82_regression_figure` | propext, Classical.choice, Quot.sound |
| `Qopen.C82_residual` | propext, Classical.choice, Quot.sound |
| `Qopen.C82_exact` | propext, Classical.choice, Quot.sound |
| `Qopen.C82_times` | propext, Classical.choice, Quot.sound |
| `Qopen.C83_filter` | propext, Classical.choice, Quot.sound |
| `Qopen.C83_above_nyquist` | propext, Classical.choice, Quot.sound |
| `Qopen.C84_course_partial` | propext, Classical.choice, Quot.sound |
| `Qopen.C84_returned` | propext, Classical.choice, Quot.sound |
| `Qopen.C84_rt_counterexample` | propext, Classical.choice, Quot.sound |
| `Qopen.C85_missing` | propext, Classical.choice, Quot.sound |
| `Qopen.C85_selected_partial` | propext, Classical.choice, Quot.sound |
| `Qopen.C85_recalc_counterexample` | propext, Classical.choice, Quot.sound |
| `Qopen.C85_plot` | propext, Classical.choice, Quot.sound |
| `Qopen.C86_nothing` | propext, Classical.choice, Quot.sound |
| `Qopen.C86_no_exception` | propext, Classical.choice, Quot.sound |
| `Qopen.C87_unknown` | propext, Classical.choice, Quot.sound |
| `Qopen.C87_unreadable` | propext, Classical.choice, Quot.sound |
| `Qopen.C87_create` | propext, Classical.choice, Quot.sound |
| `Qopen.C88_figures` | propext, Classical.choice, Quot.sound |
| `Qopen.C88_drawn` | propext, Classical.choice, Quot.sound |
| `Qopen.C88_unchanged_partial` | propext, Classical.choice, Quot.sound |
| `Qopen.C88_v0_counterexample` | propext, Classical.choice, Quot.sound |
| `Qopen.C89_missing` | propext, Classical.choice, Quot.sound |
| `Qopen.C89_plot` | propext, Classical.choice, Quot.sound |
| `Qopen.C90_value` | propext, Classical.choice, Quot.sound |
| `Qopen.C90_bounds` | propext, Classical.choice, Quot.sound |
| `Qopen.C90_units` | propext, Classical.choice, Quot.sound |
| `Qopen.C90_corner_frequencies` | propext, Classical.choice, Quot.sound |
| `Qopen.C91_weighted` | propext, Classical.choice, Quot.sound |
| `Qopen.C91_weighted_attenuation` | propext, Classical.choice, Quot.sound |
| `Qopen.C91_robust` | propext, Classical.choice, Quot.sound |
| `Qopen.C91_equal_weights` | propext, Classical.choice, Quot.sound |
| `Qopen.C92_plugin` | propext, Classical.choice, Quot.sound |
| `Qopen.C92_values` | propext, Classical.choice, Quot.sound |
| `Qopen.C92_calc` | propext, Classical.choice, Quot.sound |
| `Qopen.C92_calc_direct` | propext, Classical.choice, Quot.sound |
| `Qopen.C92_calc_one_type` | propext, Classical.choice, Quot.sound |
| `Qopen.C93_means_partial` | propext, Classical.choice, Quot.sound |
| `Qopen.C93_nobs` | propext, Classical.choice, Quot.sound |
| `Qopen.C93_points` | propext, Classical.choice, Quot.sound |
| `Qopen.C93_error_bars` | propext, Classical.choice, Quot.sound |
| `Qopen.C93_simultaneous_partial` | propext, Classical.choice, Quot.sound |
| `Qopen.C93_simultaneous_counterexample` | propext, Classical.choice, Quot.sound |
| `Qopen.C93_weighted_errors_counterexample` | propext, Classical.choice, Quot.sound |
| `Qopen.C93_nobs_single` | propext, Classical.choice, Quot.sound |
| `Qopen.C93_single_band_weighted` | propext, Classical.choice, Quot.sound |
| `Qopen.C93_event_velocities` | propext, Classical.choice, Quot.sound |
| `Qopen.C94_stations` | propext, Classical.choice, Quot.sound |
| `Qopen.C94_points` | propext, Classical.choice, Quot.sound |
| `Qopen.C94_means_partial` | propext, Classical.choice, Quot.sound |
| `Qopen.C94_single_partial` | propext, Classical.choice, Quot.sound |
| `Qopen.C94_simultaneous_counterexample` | propext, Classical.choice, Quot.sound |
| `Qopen.C95_curve` | propext, Classical.choice, Quot.sound |
| `Qopen.C95_mean_counterexample` | propext, Classical.choice, Quot.sound |
| `Qopen.C95_all_events_partial` | propext, Classical.choice, Quot.sound |
| `Qopen.C95_total_partial` | propext, Classical.choice, Quot.sound |
| `Qopen.C96_points` | propext, Classical.choice, Quot.sound |
| `Qopen.C96_line` | propext, Classical.choice, Quot.sound |
| `Qopen.C96_second_axis` | propext, Classical.choice, Quot.sound |
| `Qopen.C97_values_partial` | propext, Classical.choice, Quot.sound |
| `Qopen.C97_total_partial` | propext, Classical.choice, Quot.sound |
| `Qopen.C97_sites` | propext, Classical.choice, Quot.sound |
| `Qopen.C97_mean_counterexample` | propext, Classical.choice, Quot.sound |
| `Qopen.C98_aligned` | propext, Classical.choice, Quot.sound |
| `Qopen.C98_recalculated` | propext, Classical.choice, Quot.sound |
| `Qopen.C99_figures_partial` | propext, Classical.choice, Quot.sound |
| `Qopen.C99_prefix_counterexample` | propext, Classical.choice, Quot.sound |
| `Qopen.C100_source` | propext, Classical.choice, Quot.sound |
| `Qopen.C100_uncached` | propext, Classical.choice, Quot.sound |
| `Qopen.C100_cached` | propext, Classical.choice, Quot.sound |
| `Qopen.C100_transparent_partial` | propext, Classical.choice, Quot.sound |
| `Qopen.C100_once` | propext, Classical.choice, Quot.sound |
| `Qopen.C100_failure_counterexample` | propext, Classical.choice, Quot.sound |
| `Qopen.C100_directory_counterexample` | propext, Classical.choice, Quot.sound |
| `Qopen.C100_missing_counterexample` | propext, Classical.choice, Quot.sound |
| `Qopen.C101_path_partial` | propext, Classical.choice, Quot.sound |
| `Qopen.C101_init_partial` | propext, Classical.choice, Quot.sound |
| `Qopen.C101_path_counterexample` | propext, Classical.choice, Quot.sound |
| `Qopen.C102_corrected` | propext, Classical.choice, Quot.sound |
| `Qopen.C102_failure` | propext, Classical.choice, Quot.sound |
| `Qopen.C102_off` | propext, Classical.choice, Quot.sound |
| `Qopen.C102_figures_partial` | propext, Classical.choice, Quot.sound |
| `Qopen.C102_figures_counterexample` | propext, Classical.choice, Quot.sound |
| `Qopen.C103_inventory` | propext, Quot.sound |
| `Qopen.C103_events` | propext, Classical.choice, Quot.sound |
| `Qopen.C103_events_read` | propext, Classical.choice, Quot.sound |
| `Qopen.C103_caller_partial` | propext, Classical.choice, Quot.sound |
| `Qopen.C103_caller_counterexample` | propext, Quot.sound |
| `Qopen.C104_onset_partial` | propext, Classical.choice, Quot.sound |
| `Qopen.C104_unadjusted` | propext, Classical.choice, Quot.sound |
| `Qopen.C104_late_counterexample` | propext, Classical.choice, Quot.sound |
| `Qopen.C104_empty_counterexample` | propext, Classical.choice, Quot.sound |
| `Qopen.C105_corner_frequency` | propext, Classical.choice, Quot.sound |
| `Qopen.C105_shape_partial` | propext, Classical.choice, Quot.sound |
| `Qopen.C105_not_worse_than_start` | propext, Classical.choice, Quot.sound |
| `Qopen.C105_shape_counterexample` | propext, Classical.choice, Quot.sound |
| `Qopen.C106_different_files_partial` | propext, Classical.choice, Quot.sound |
| `Qopen.C106_several_events_partial` | propext, Classical.choice, Quot.sound |
| `Qopen.C106_close_bands_counterexample` | propext, Classical.choice, Quot.sound |
| `Qopen.C106_result_unchanged` | propext, Classical.choice, Quot.sound |
| `Qopen.C106_all_drawn` | propext, Classical.choice, Quot.sound |
| `Qopen.C106_before_failure_partial` | propext, Classical.choice, Quot.sound |
| `Qopen.C106_failure_counterexample` | propext, Classical.choice, Quot.sound |
| `Qopen.C107_panels` | propext, Classical.choice, Quot.sound |
| `Qopen.C107_whole_trace` | propext, Classical.choice, Quot.sound |
| `Qopen.C107_data` | propext, Classical.choice, Quot.sound |
| `Qopen.C107_shows_reported_fit_partial` | propext, Classical.choice, Quot.sound |
| `Qopen.C107_fixed_sites_partial` | propext, Classical.choice, Quot.sound |
| `Qopen.C107_limits_partial` | propext, Classical.choice, Quot.sound |
| `Qopen.C107_drawn` | propext, Classical.choice, Quot.sound |
| `Qopen.C107_lower_limit_counterexample` | propext, Classical.choice, Quot.sound |
| `Qopen.C107_fixed_sites_counterexample` | propext, Classical.choice, Quot.sound |
| `Qopen.C108_rows` | propext, Classical.choice, Quot.sound |
| `Qopen.C108_windows_partial` | propext, Classical.choice, Quot.sound |
| `Qopen.C108_drawn_partial` | propext, Classical.choice, Quot.sound |
| `Qopen.C108_downsample_counterexample` | propext, Classical.choice, Quot.sound |
| `Qopen.C108_coda_window_counterexample` | propext, Classical.choice, Quot.sound |
| `Qopen.C109_unsmoothed_counterexample` | propext, Classical.choice, Quot.sound |
| `Qopen.C109_bundled_partial` | propext, Classical.choice, Quot.sound |
| `Qopen.C109_first_sample_counterexample` | propext, Classical.choice, Quot.sound |
| `Qopen.C109_alike_partial` | propext, Classical.choice, Quot.sound |
| `Qopen.C109_equal_partial` | propext, Classical.choice, Quot.sound |
| `Qopen.C109_border_counterexample` | propext, Classical.choice, Quot.sound |
| `Qopen.C110_call` | propext, Classical.choice, Quot.sound |
| `Qopen.C110_inversion` | propext, Classical.choice, Quot.sound |
| `Qopen.C110_event` | propext, Classical.choice, Quot.sound |
| `Qopen.C110_file_counterexample` | propext, Classical.choice, Quot.sound |
| `Qopen.C111_options` | propext, Classical.choice, Quot.sound |
| `Qopen.C111_result` | propext, Classical.choice, Quot.sound |
| `Qopen.C111_written` | propext, Classical.choice, Quot.sound |
| `Qopen.C111_catalogue_counterexample` | propext, Classical.choice, Quot.sound |
| `Qopen.C112_curves` | propext, Classical.choice, Quot.sound |
| `Qopen.C112_plot_r` | propext, Classical.choice, Quot.sound |
| `Qopen.C112_plot_rt` | propext, Classical.choice, Quot.sound |
| `Qopen.C112_plot_t_partial` | propext, Classical.choice, Quot.sound |
| `Qopen.C112_drawn` | propext, Classical.choice, Quot.sound |
| `Qopen.C112_plot_r_counterexample` | propext, Classical.choice, Quot.sound |
| `Qopen.C112_needed_arguments` | propext, Classical.choice, Quot.sound |
| `Qopen.C113_calibration` | propext, Classical.choice, Quot.sound |
| `Qopen.C113_order` | propext, Classical.choice, Quot.sound |
| `Qopen.C113_coda_normalization` | propext, Classical.choice, Quot.sound |
| `Qopen.C113_source` | propext, Classical.choice, Quot.sound |
| `Qopen.C114_succeeds_partial` | propext, Classical.choice, Quot.sound |
| `Qopen.C114_named_stations_missing` | propext, Classical.choice, Quot.sound |
| `Qopen.C114_all_stations_ignored` | propext, Classical.choice, Quot.sound |
| `Qopen.C114_ignored_band_counterexample` | propext, Classical.choice, Quot.sound |
| `Qopen.C114_succeeds_with_source_model_partial` | propext, Classical.choice, Quot.sound |
| `Qopen.C115_energy` | propext, Classical.choice, Quot.sound |
| `Qopen.C115_borehole_stations_partial` | propext, Classical.choice, Quot.sound |
| `Qopen.C115_network_code_counterexample` | propext, Classical.choice, Quot.sound |
| `Qopen.C115_moved_station_counterexample` | propext, Classical.choice, Quot.sound |
| `Qopen.C116_fixed` | propext, Classical.choice, Quot.sound |
| `Qopen.C116_source` | propext, Classical.choice, Quot.sound |
| `Qopen.C117_references_of_inversions` | propext, Classical.choice, Quot.sound |
| `Qopen.C117_mean_site_responses` | propext, Classical.choice, Quot.sound |
| `Qopen.C117_order_of_events` | propext, Classical.choice, Quot.sound |
| `Qopen.C118_absolute_times` | propext, Classical.choice, Quot.sound |
| `Qopen.C119_coda_normalization` | propext, Classical.choice, Quot.sound |
| `Qopen.C119_energies_of_accepted_pairs` | propext, Classical.choice, Quot.sound |
| `Qopen.C119_calibration` | propext, Classical.choice, Quot.sound |
| `Qopen.C119_source` | propext, Classical.choice, Quot.sound |
| `Qopen.C120_order_of_catalogue` | propext, Classical.choice, Quot.sound |
| `Qopen.C120_other_events` | propext, Classical.choice, Quot.sound |
| `Qopen.C120_events_without_result` | propext, Classical.choice, Quot.sound |
| `Qopen.C120_stop_counterexample` | propext, Classical.choice, Quot.sound |
| `Qopen.C120_unknown_depth` | propext, Classical.choice, Quot.sound |
| `Qopen.C120_picks_counterexample` | propext, Classical.choice, Quot.sound |
| `Qopen.C121_reported` | propext, Classical.choice, Quot.sound |
| `Qopen.C121_pairs_partial` | propext, Classical.choice, Quot.sound |
| `Qopen.C121_same_events_partial` | propext, Classical.choice, Quot.sound |
| `Qopen.C121_counterexample` | propext, Classical.choice, Quot.sound |
| `Qopen.C122_one_event` | propext, Classical.choice, Quot.sound |
| `Qopen.C122_succeeds` | propext, Classical.choice, Quot.sound |
| `Qopen.C122_no_result_counterexample` | propext, Classical.choice, Quot.sound |
| `Qopen.C123_any_moment_partial` | propext, Classical.choice, Quot.sound |
| `Qopen.C123_failed_inversion` | propext, Classical.choice, Quot.sound |
| `Qopen.C123_after` | propext, Classical.choice, Quot.sound |
| `Qopen.C123_success` | propext, Classical.choice, Quot.sound |
| `Qopen.C123_create` | propext, Classical.choice, Quot.sound |
| `Qopen.C123_crash_counterexample` | propext, Classical.choice, Quot.sound |
| `Qopen.C123_create_counterexample` | propext, Classical.choice, Quot.sound |
| `Qopen.C124_same_result` | propext, Classical.choice, Quot.sound |
| `Qopen.C124_steps` | propext, Classical.choice, Quot.sound |
| `Qopen.C124_panels_partial` | propext, Classical.choice, Quot.sound |
| `Qopen.C124_labels_partial` | propext, Classical.choice, Quot.sound |
| `Qopen.C124_blue_partial` | propext, Classical.choice, Quot.sound |
| `Qopen.C124_best_counterexample` | propext, Classical.choice, Quot.sound |
| `Qopen.C125_alignment` | propext, Classical.choice, Quot.sound |
| `Qopen.C125_factor` | propext, Classical.choice, Quot.sound |
| `Qopen.C125_truth` | propext, Classical.choice, Quot.sound |
| `Qopen.C125_mean_site_responses` | propext, Classical.choice, Quot.sound |
| `Qopen.C125_band` | propext, Classical.choice, Quot.sound |
| `Qopen.C125_inversion` | propext, Classical.choice, Quot.sound |
| `Qopen.C125_separate` | propext, Classical.choice, Quot.sound |
| `Qopen.C125_separate_then_align` | propext, Classical.choice, Quot.sound |
| `Qopen.C125_mean_attenuation` | propext, Classical.choice, Quot.sound |
| `Qopen.C125_readable` | propext, Classical.choice, Quot.sound |
| `Qopen.C126_fixed` | propext, Classical.choice, Quot.sound |
| `Qopen.C126_velocity_counterexample` | propext, Classical.choice, Quot.sound |
| `Qopen.C126_source_partial` | propext, Classical.choice, Quot.sound |
| `Qopen.C127_result_unchanged_partial` | propext, Classical.choice, Quot.sound |
| `Qopen.C127_fit` | propext, Classical.choice, Quot.sound |
| `Qopen.C127_skipped` | propext, Classical.choice, Quot.sound |
| `Qopen.C127_optimisation_partial` | propext, Classical.choice, Quot.sound |
| `Qopen.C127_different_files_partial` | propext, Classical.choice, Quot.sound |
| `Qopen.C127_empty_counterexample` | propext, Classical.choice, Quot.sound |
| `Qopen.C127_name_counterexample` | propext, Classical.choice, Quot.sound |
| `Qopen.C128_options_partial` | propext, Classical.choice, Quot.sound |
| `Qopen.C128_upper_case_counterexample` | propext, Classical.choice, Quot.sound |
| `Qopen.C129_perfect_fit_partial` | propext, Classical.choice, Quot.sound |
| `Qopen.C129_recovered_partial` | propext, Classical.choice, Quot.sound |
| `Qopen.C129_from_energies_partial` | propext, Classical.choice, Quot.sound |
| `Qopen.C129_recalculated_partial` | propext, Classical.choice, Quot.sound |
| `Qopen.C129_two_points_counterexample` | propext, Classical.choice, Quot.sound |
| `Qopen.C130_alignment_partial` | propext, Classical.choice, Quot.sound |
| `Qopen.C130_from_envelopes_partial` | propext, Classical.choice, Quot.sound |
| `Qopen.C131_fit` | propext, Classical.choice, Quot.sound |
| `Qopen.C131_recalculated` | propext, Classical.choice, Quot.sound |
| `Qopen.C132_no_energy` | propext, Classical.choice, Quot.sound |
| `Qopen.C132_left_out_partial` | propext, Classical.choice, Quot.sound |
| `Qopen.C132_counterexample` | propext, Classical.choice, Quot.sound |
| `Qopen.C133_inversion` | propext, Classical.choice, Quot.sound |
| `Qopen.C133_source` | propext, Classical.choice, Quot.sound |
| `Qopen.C133_coda_normalization` | propext, Classical.choice, Quot.sound |
| `Qopen.C133_greens_functions` | propext, Classical.choice, Quot.sound |
| `Qopen.C134_accepted_pairs_partial` | propext, Classical.choice, Quot.sound |
| `Qopen.C134_inversion_partial` | propext, Classical.choice, Quot.sound |
| `Qopen.C134_samples_partial` | propext, Classical.choice, Quot.sound |
| `Qopen.C134_counterexample` | propext, Classical.choice, Quot.sound |
| `Qopen.C135_separate` | propext, Classical.choice, Quot.sound |
| `Qopen.C135_sites_figure` | propext, Classical.choice, Quot.sound |
| `Qopen.C135_results_figure` | propext, Classical.choice, Quot.sound |
| `Qopen.C135_simultaneous` | propext, Classical.choice, Quot.sound |
| `Qopen.C135_event_sites` | propext, Classical.choice, Quot.sound |
| `Qopen.C136_greens` | propext, Classical.choice, Quot.sound |
| `Qopen.C136_band` | propext, Classical.choice, Quot.sound |
| `Qopen.C136_inversion` | propext, Classical.choice, Quot.sound |
| `Qopen.C136_noise_level` | propext, Classical.choice, Quot.sound |
| `Qopen.C136_short_record` | propext, Classical.choice, Quot.sound |
| `Qopen.C136_catalogue` | propext, Classical.choice, Quot.sound |
| `Qopen.C137_band` | propext, Classical.choice, Quot.sound |
| `Qopen.C137_inversion` | propext, Classical.choice, Quot.sound |
| `Qopen.C137_source` | propext, Classical.choice, Quot.sound |
| `Qopen.C137_magnitudes` | propext, Classical.choice, Quot.sound |
| `Qopen.C138_band` | propext, Classical.choice, Quot.sound |
| `Qopen.C138_other_events` | propext, Classical.choice, Quot.sound |
| `Qopen.C138_same_results` | propext, Classical.choice, Quot.sound |
| `Qopen.C139_values` | propext, Classical.choice, Quot.sound |
| `Qopen.C139_accepted` | propext, Classical.choice, Quot.sound |
| `Qopen.C139_misspelt` | propext, Classical.choice, Quot.sound |
| `Qopen.C139_exclusive` | propext, Classical.choice, Quot.sound |
| `Qopen.C139_not_mentioned` | propext, Classical.choice, Quot.sound |
| `Qopen.C139_command` | propext, Classical.choice, Quot.sound |
| `Qopen.C139_run` | propext, Classical.choice, Quot.sound |
| `Qopen.C139_no_command_counterexample` | propext, Classical.choice, Quot.sound |
| `Qopen.C140_fit` | propext, Classical.choice, Quot.sound |
| `Qopen.C140_attenuation` | propext, Classical.choice, Quot.sound |
| `Qopen.C140_band` | propext, Classical.choice, Quot.sound |
| `Qopen.C140_inversion` | propext, Classical.choice, Quot.sound |
| `Qopen.C140_aligned` | propext, Classical.choice, Quot.sound |
| `Qopen.C140_magnitudes` | propext, Classical.choice, Quot.sound |
| `Qopen.C141_values` | propext, Classical.choice, Quot.sound |
| `Qopen.C141_command` | propext, Classical.choice, Quot.sound |
| `Qopen.C141_between` | propext, Classical.choice, Quot.sound |
| `Qopen.C141_type` | propext, Classical.choice, Quot.sound |
| `Qopen.C142_joined` | propext, Classical.choice, Quot.sound |
| `Qopen.C142_near_stations_partial` | propext, Classical.choice, Quot.sound |
| `Qopen.C142_returns` | propext, Classical.choice, Quot.sound |
| `Qopen.C142_coordinates` | propext, Quot.sound |
| `Qopen.C142_links_counterexample` | propext, Classical.choice, Quot.sound |
| `Qopen.C142_corner_counterexample` | propext, Classical.choice, Quot.sound |
| `Qopen.C142_site_counterexample` | propext, Classical.choice, Quot.sound |
| `Qopen.C142_small_area_counterexample` | propext, Classical.choice, Quot.sound |
| `Qopen.C143_returns` | propext, Classical.choice, Quot.sound |
| `Qopen.C143_no_result` | propext, Classical.choice, Quot.sound |
| `Qopen.ReturnsExample.C143_no_result_counterexample` | propext, Classical.choice, Quot.sound |
| `Qopen.C144_other_bands_partial` | propext, Classical.choice, Quot.sound |
| `Qopen.C144_no_result_partial` | propext, Classical.choice, Quot.sound |
| `Qopen.C144_spectra_partial` | propext, Classical.choice, Quot.sound |
| `Qopen.C144_shared_counterexample` | propext, Classical.choice, Quot.sound |
| `Qopen.C144_velocity_partial` | propext, Classical.choice, Quot.sound |
| `Qopen.C144_separate_partial` | propext, Classical.choice, Quot.sound |
| `Qopen.C144_velocity_counterexample` | propext, Classical.choice, Quot.sound |
| `Qopen.C145_source` | propext, Classical.choice, Quot.sound |
| `Qopen.C145_inversion` | propext, Classical.choice, Quot.sound |
| `Qopen.C145_separate` | propext, Classical.choice, Quot.sound |
| `Qopen.C146_separate` | propext, Classical.choice, Quot.sound |
| `Qopen.C146_simultaneous_partial` | propext, Classical.choice, Quot.sound |
| `Qopen.C146_simultaneous_counterexample` | propext, Classical.choice, Quot.sound |
| `Qopen.C146_documented_nothing` | propext, Classical.choice, Quot.sound |
| `Qopen.C146_without_method` | propext, Classical.choice, Quot.sound |
| `Qopen.C146_forgotten_counterexample` | propext, Classical.choice, Quot.sound |
| `Qopen.C147_last_wins` | propext, Classical.choice, Quot.sound |
| `Qopen.C147_kept_apart_partial` | propext, Classical.choice, Quot.sound |
| `Qopen.C147_overwritten_counterexample` | propext, Classical.choice, Quot.sound |
| `Qopen.C147_together` | propext, Classical.choice, Quot.sound |
| `Qopen.C147_together_counterexample` | propext, Classical.choice, Quot.sound |
| `Qopen.C148_inversion` | propext, Classical.choice, Quot.sound |
| `Qopen.C148_separate` | propext, Classical.choice, Quot.sound |
| `Qopen.C148_recalculated` | propext, Classical.choice, Quot.sound |
| `Qopen.C149_aligned` | propext, Classical.choice, Quot.sound |
| `Qopen.C149_separate` | propext, Classical.choice, Quot.sound |
| `Qopen.C149_records` | propext, Classical.choice, Quot.sound |
| `Qopen.C149_inversion` | propext, Classical.choice, Quot.sound |
| `Qopen.C149_reasons` | propext, Classical.choice, Quot.sound |
| `Qopen.C150_aligned` | propext, Classical.choice, Quot.sound |
| `Qopen.C150_records` | propext, Classical.choice, Quot.sound |
| `Qopen.C150_inversion` | propext, Classical.choice, Quot.sound |
| `Qopen.C150_separate` | propext, Classical.choice, Quot.sound |
| `Qopen.C151_nothing_else` | propext, Classical.choice, Quot.sound |
| `Qopen.C151_without_density` | propext, Classical.choice, Quot.sound |
| `Qopen.C152_solver_independent` | propext, Classical.choice, Quot.sound |
| `Qopen.C152_repeated` | propext, Classical.choice, Quot.sound |
| `Qopen.C152_references_of_inversions` | propext, Classical.choice, Quot.sound |
| `Qopen.C153_inversion` | propext, Classical.choice, Quot.sound |
| `Qopen.C153_requirements` | propext, Classical.choice, Quot.sound |
| `Qopen.C153_alignment_succeeds` | propext, Classical.choice, Quot.sound |
| `Qopen.C154_no_result` | propext, Classical.choice, Quot.sound |
| `Qopen.C154_simultaneous` | propext, Classical.choice, Quot.sound |
| `Qopen.C154_no_sites_or_energies` | propext, Classical.choice, Quot.sound |
| `Qopen.C154_separate` | propext, Classical.choice, Quot.sound |
| `Qopen.C154_which_runs` | propext, Classical.choice, Quot.sound |
| `Qopen.C155_inversion` | propext, Classical.choice, Quot.sound |
| `Qopen.C155_not_wanted` | propext, Classical.choice, Quot.sound |
| `Qopen.C155_no_model_after_alignment` | propext, Classical.choice, Quot.sound |
| `Qopen.C155_plotted` | propext, Classical.choice, Quot.sound |
| `Qopen.C155_shows_model_partial` | propext, Classical.choice, Quot.sound |
