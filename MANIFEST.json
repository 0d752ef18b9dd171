{
 "claims": [
  {
   "property": "C01",
   "status": "proved",
   "theorems": [
    "Qopen.C01_product_preserved",
    "Qopen.C01_missing_stays_missing"
   ],
   "note": ""
  },
  {
   "property": "C02",
   "status": "proved",
   "theorems": [
    "Qopen.C02_pins_mean_response",
    "Qopen.C02_measured_all",
    "Qopen.C02_measured_named",
    "Qopen.C02_measured_station"
   ],
   "note": ""
  },
  {
   "property": "C03",
   "status": "proved",
   "theorems": [
    "Qopen.C03_consistent_data"
   ],
   "note": ""
  },
  {
   "property": "C04",
   "status": "proved",
   "theorems": [
    "Qopen.C04_misfit_not_increased"
   ],
   "note": ""
  },
  {
   "property": "C05",
   "status": "proved",
   "theorems": [
    "Qopen.C05_only_largest_area",
    "Qopen.C05_data_remain"
   ],
   "note": ""
  },
  {
   "property": "C06",
   "status": "proved",
   "theorems": [
    "Qopen.C06_merge_components",
    "Qopen.C06_names_distinct",
    "Qopen.C06_areas"
   ],
   "note": ""
  },
  {
   "property": "C07",
   "status": "proved",
   "theorems": [
    "Qopen.C07_same_system",
    "Qopen.C07_shape",
    "Qopen.C07_same_result"
   ],
   "note": ""
  },
  {
   "property": "C08",
   "status": "proved",
   "theorems": [
    "Qopen.C08_solver_independent"
   ],
   "note": ""
  },
  {
   "property": "C09",
   "status": "proved",
   "theorems": [
    "Qopen.C09_events_sorted",
    "Qopen.C09_rejects_uneven_bands"
   ],
   "note": ""
  },
  {
   "property": "C10",
   "status": "proved",
   "theorems": [
    "Qopen.C10_idempotent"
   ],
   "note": ""
  },
  {
   "property": "C11",
   "status": "partial",
   "theorems": [
    "Qopen.C11_listed_stations",
    "Qopen.C11_single_station_partial",
    "Qopen.C11_substring_counterexample"
   ],
   "note": "Full statement is false of the code: `align_site_responses(station='ABC')` also uses stations whose name is a substring of the argument"
  },
  {
   "property": "C12",
   "status": "partial",
   "theorems": [
    "Qopen.C12_means_of_aligned_responses_partial",
    "Qopen.C12_unretained_entry_unchanged",
    "Qopen.C12_stale_mean_counterexample"
   ],
   "note": "Full statement is false of the code: means of site responses of stations without any remaining data keep the values from before the alignment"
  },
  {
   "property": "C13",
   "status": "proved",
   "theorems": [
    "Qopen.C13_reported_values_are_best_fit",
    "Qopen.C13_reported_error",
    "Qopen.C13_error_degrees_of_freedom"
   ],
   "note": ""
  },
  {
   "property": "C14",
   "status": "proved",
   "theorems": [
    "Qopen.C14_geometric_mean_is_R0"
   ],
   "note": ""
  },
  {
   "property": "C15",
   "status": "proved",
   "theorems": [
    "Qopen.C15_scaling_of_energies",
    "Qopen.C15_scaling_of_R0"
   ],
   "note": ""
  },
  {
   "property": "C16",
   "status": "proved",
   "theorems": [
    "Qopen.C16_exact_recovery"
   ],
   "note": ""
  },
  {
   "property": "C17",
   "status": "proved",
   "theorems": [
    "Qopen.C17_misfit_outside",
    "Qopen.C17_result_inside_bounds",
    "Qopen.C17_suppressed_iff"
   ],
   "note": ""
  },
  {
   "property": "C18",
   "status": "proved",
   "theorems": [
    "Qopen.C18_windows_belong_to_pairs",
    "Qopen.C18_inversion_of_accepted_pairs"
   ],
   "note": ""
  },
  {
   "property": "C19",
   "status": "proved",
   "theorems": [
    "Qopen.C19_error_degrees_of_freedom",
    "Qopen.C19_source_uses_reference_responses",
    "Qopen.C19_source_energy_is_weighted_mean"
   ],
   "note": ""
  },
  {
   "property": "C20",
   "status": "partial",
   "theorems": [
    "Qopen.C20_windows_partial",
    "Qopen.C20_velocity",
    "Qopen.C20_front_at_sonset_partial",
    "Qopen.C20_time_axis_partial",
    "Qopen.C20_counterexample"
   ],
   "note": "Full statement is false of the code: data which start up to half a second after the window are accepted, their samples get times which are too early"
  },
  {
   "property": "C21",
   "status": "proved",
   "theorems": [
    "Qopen.C21_prediction",
    "Qopen.C21_bulk_inside_window",
    "Qopen.C21_all_pairs"
   ],
   "note": ""
  },
  {
   "property": "C22",
   "status": "proved",
   "theorems": [
    "Qopen.C22_noise_step",
    "Qopen.C22_noise_removal"
   ],
   "note": ""
  },
  {
   "property": "C23",
   "status": "proved",
   "theorems": [
    "Qopen.C23_tables",
    "Qopen.C23_stations",
    "Qopen.C23_ignore_network_error"
   ],
   "note": "Found: `ignore_network_code` with stations without network code raises `IndexError` (theorem `C23_ignore_network_error`)"
  },
  {
   "property": "C24",
   "status": "partial",
   "theorems": [
    "Qopen.C24_sequential",
    "Qopen.C24_schedule",
    "Qopen.C24_any_number_of_workers_partial",
    "Qopen.C24_counterexample"
   ],
   "note": "Full statement is false of the code: with a pool and more bands than four times the number of workers the tasks of a chunk share streams which are filtered in place"
  },
  {
   "property": "C25",
   "status": "partial",
   "theorems": [
    "Qopen.C25_order_partial",
    "Qopen.C25_failures",
    "Qopen.C25_equal_times_counterexample",
    "Qopen.C25_empty_counterexample"
   ],
   "note": "Full statement is false of the code: events with equal origin times raise `TypeError`, an empty catalogue raises `IndexError`"
  },
  {
   "property": "C26",
   "status": "partial",
   "theorems": [
    "Qopen.C26_means_partial",
    "Qopen.C26_attenuation_partial",
    "Qopen.C26_zero_error_counterexample"
   ],
   "note": "Full statement is false of the code: a misfit of zero is left out of the mean misfit like a missing value"
  },
  {
   "property": "C27",
   "status": "proved",
   "theorems": [
    "Qopen.C27_fixed_values",
    "Qopen.C27_right_band",
    "Qopen.C27_missing_attenuation",
    "Qopen.C27_order",
    "Qopen.C27_order_sites",
    "Qopen.C27_different_frequencies",
    "Qopen.C27_same_frequencies"
   ],
   "note": ""
  },
  {
   "property": "C28",
   "status": "proved",
   "theorems": [
    "Qopen.C28_pairs",
    "Qopen.C28_order"
   ],
   "note": ""
  },
  {
   "property": "C29",
   "status": "partial",
   "theorems": [
    "Qopen.C29_band",
    "Qopen.C29_invert_partial",
    "Qopen.C29_counterexample"
   ],
   "note": "Full statement is false of the code: `<=` in one and `<` in the other check of the minimal number of pairs"
  },
  {
   "property": "C30",
   "status": "proved",
   "theorems": [
    "Qopen.C30_snr",
    "Qopen.C30_snr_after_time"
   ],
   "note": ""
  },
  {
   "property": "C31",
   "status": "proved",
   "theorems": [
    "Qopen.C31_time_strings",
    "Qopen.C31_case_insensitive"
   ],
   "note": ""
  },
  {
   "property": "C32",
   "status": "proved",
   "theorems": [
    "Qopen.C32_latest_start_earliest_end"
   ],
   "note": ""
  },
  {
   "property": "C33",
   "status": "partial",
   "theorems": [
    "Qopen.C33_cut_window",
    "Qopen.C33_cut_at_lowest_minimum",
    "Qopen.C33_no_cut_partial",
    "Qopen.C33_counterexample"
   ],
   "note": "Full statement is false of the code: the coda is not cut if the envelope rises again and has no local minimum at all"
  },
  {
   "property": "C34",
   "status": "proved",
   "theorems": [
    "Qopen.C34_energy_is_sum_of_channel_energies",
    "Qopen.C34_energy_nonneg",
    "Qopen.C34_rejected_iff",
    "Qopen.C34_quadratic",
    "Qopen.C34_proportional_to_density"
   ],
   "note": ""
  },
  {
   "property": "C35",
   "status": "proved",
   "theorems": [
    "Qopen.C35_mean_is_one",
    "Qopen.C35_amplitude_does_not_matter",
    "Qopen.C35_error_degrees_of_freedom",
    "Qopen.C35_best_fit",
    "Qopen.C35_exact_recovery",
    "Qopen.C35_not_with_fixed_attenuation"
   ],
   "note": ""
  },
  {
   "property": "C36",
   "status": "partial",
   "theorems": [
    "Qopen.C36_band_width",
    "Qopen.C36_central_frequencies",
    "Qopen.C36_series",
    "Qopen.C36_min_counterexample",
    "Qopen.C36_explicit_bands_partial",
    "Qopen.C36_explicit_bands_counterexample"
   ],
   "note": "Full statement is false of the code: explicit bands with equal central frequency collapse; `max` smaller than `min` by less than a step gives a frequency below `min`"
  },
  {
   "property": "C37",
   "status": "proved",
   "theorems": [
    "Qopen.C37_station_name",
    "Qopen.C37_station_name_injective",
    "Qopen.C37_event_id"
   ],
   "note": ""
  },
  {
   "property": "C38",
   "status": "proved",
   "theorems": [
    "Qopen.C38_origin",
    "Qopen.C38_magnitude",
    "Qopen.C38_arrivals",
    "Qopen.C38_picks",
    "Qopen.C38_picks_total"
   ],
   "note": ""
  },
  {
   "property": "C39",
   "status": "proved",
   "theorems": [
    "Qopen.C39_values",
    "Qopen.C39_event_ids",
    "Qopen.C39_sites",
    "Qopen.C39_nothing_else"
   ],
   "note": ""
  },
  {
   "property": "C40",
   "status": "proved",
   "theorems": [
    "Qopen.C40_sort_dict_unknown_key",
    "Qopen.C40_sort_dict_lossless",
    "Qopen.C40_sort_dict_idempotent",
    "Qopen.C40_results_have_known_keys"
   ],
   "note": ""
  },
  {
   "property": "C41",
   "status": "proved",
   "theorems": [
    "Qopen.C41_transparent",
    "Qopen.C41_evaluated_once",
    "Qopen.C41_failure_not_cached"
   ],
   "note": ""
  },
  {
   "property": "C42",
   "status": "proved",
   "theorems": [
    "Qopen.C42_same_length",
    "Qopen.C42_length_without_border",
    "Qopen.C42_rejects"
   ],
   "note": ""
  },
  {
   "property": "C43",
   "status": "proved",
   "theorems": [
    "Qopen.C43_weighted_average",
    "Qopen.C43_weighted_average_noborder",
    "Qopen.C43_stays_in_range",
    "Qopen.C43_zeros_range"
   ],
   "note": ""
  },
  {
   "property": "C44",
   "status": "partial",
   "theorems": [
    "Qopen.C44_length_partial",
    "Qopen.C44_two_samples_counterexample",
    "Qopen.C44_values",
    "Qopen.C44_rejects_uneven",
    "Qopen.C44_single_sample_counterexample"
   ],
   "note": "Full statement is false of the code: `smooth_func` with two samples returns one value too much, with a single sample it raises `IndexError`"
  },
  {
   "property": "C45",
   "status": "proved",
   "theorems": [
    "Qopen.C45_gmean_is_geometric_mean",
    "Qopen.C45_weighted_gmean",
    "Qopen.C45_gmean_between",
    "Qopen.C45_gstat_scale",
    "Qopen.C45_gmean_scale",
    "Qopen.C45_gmean_recip",
    "Qopen.C45_gmean_perm",
    "Qopen.C45_weighted_gmean_perm",
    "Qopen.C45_weights_scale",
    "Qopen.C45_ignores_invalid"
   ],
   "note": ""
  },
  {
   "property": "C46",
   "status": "proved",
   "theorems": [
    "Qopen.C46_gerr_bracket",
    "Qopen.C46_gerr_value"
   ],
   "note": ""
  },
  {
   "property": "C47",
   "status": "proved",
   "theorems": [
    "Qopen.C47_weights_are_repetitions",
    "Qopen.C47_equal_weights",
    "Qopen.C47_unbiased_ge_biased",
    "Qopen.C47_weighted_value",
    "Qopen.C47_no_error"
   ],
   "note": ""
  },
  {
   "property": "C48",
   "status": "proved",
   "theorems": [
    "Qopen.C48_fall_back",
    "Qopen.C48_constant",
    "Qopen.C48_robust_value"
   ],
   "note": ""
  },
  {
   "property": "C49",
   "status": "proved",
   "theorems": [
    "Qopen.C49_gmeanlist",
    "Qopen.C49_gmeanlist_robust"
   ],
   "note": ""
  },
  {
   "property": "C50",
   "status": "partial",
   "theorems": [
    "Qopen.C50_single",
    "Qopen.C50_times",
    "Qopen.C50_pairs",
    "Qopen.C50_distances_partial",
    "Qopen.C50_distances_counterexample"
   ],
   "note": "Full statement is false of the code: for an array of distances the bin of the direct wave may lie beyond the wave front"
  },
  {
   "property": "C51",
   "status": "partial",
   "theorems": [
    "Qopen.C51_times_partial",
    "Qopen.C51_direct_bin",
    "Qopen.C51_first_sample_counterexample",
    "Qopen.C51_no_direct_counterexample",
    "Qopen.C51_distances",
    "Qopen.C51_pairs"
   ],
   "note": "Full statement is false of the code: for an array of times the first sample after the arrival is zero if the array starts after the arrival or the direct wave is not included"
  },
  {
   "property": "C52",
   "status": "proved",
   "theorems": [
    "Qopen.C52_positive"
   ],
   "note": ""
  },
  {
   "property": "C53",
   "status": "proved",
   "theorems": [
    "Qopen.C53_unit_of_length",
    "Qopen.C53_unit_of_time"
   ],
   "note": ""
  },
  {
   "property": "C54",
   "status": "proved",
   "theorems": [
    "Qopen.C54_energy_2d"
   ],
   "note": ""
  },
  {
   "property": "C55",
   "status": "proved",
   "theorems": [
    "Qopen.C55_energy_1d"
   ],
   "note": ""
  },
  {
   "property": "C56",
   "status": "proved",
   "theorems": [
    "Qopen.C56_energy_diffusion",
    "Qopen.C56_energy_cutoff"
   ],
   "note": ""
  },
  {
   "property": "C57",
   "status": "proved",
   "theorems": [
    "Qopen.C57_rt3d_diffusion",
    "Qopen.C57_diffapprox"
   ],
   "note": ""
  },
  {
   "property": "C58",
   "status": "partial",
   "theorems": [
    "Qopen.C58_known_types",
    "Qopen.C58_rejects_partial",
    "Qopen.C58_counterexample"
   ],
   "note": "Full statement is false of the code: an unknown type is accepted silently for numbers before the arrival (otherwise `UnboundLocalError`)"
  },
  {
   "property": "C59",
   "status": "partial",
   "theorems": [
    "Qopen.C59_plot_r",
    "Qopen.C59_plot_rt",
    "Qopen.C59_plot_t_partial",
    "Qopen.C59_plot_t_counterexample",
    "Qopen.C59_calc"
   ],
   "note": "Full statement is false of the code: `plot_t` uses the absorption at the last time for all samples"
  },
  {
   "property": "C60",
   "status": "proved",
   "theorems": [
    "Qopen.C60_inverse",
    "Qopen.C60_inverse'",
    "Qopen.C60_increasing",
    "Qopen.C60_increasing'"
   ],
   "note": ""
  },
  {
   "property": "C61",
   "status": "proved",
   "theorems": [
    "Qopen.C61_is_omega_model",
    "Qopen.C61_range",
    "Qopen.C61_decreasing",
    "Qopen.C61_increasing_fc",
    "Qopen.C61_linear",
    "Qopen.C61_at_corner",
    "Qopen.C61_low_frequency",
    "Qopen.C61_high_frequency"
   ],
   "note": ""
  },
  {
   "property": "C62",
   "status": "proved",
   "theorems": [
    "Qopen.C62_reported_parameters_describe_fit"
   ],
   "note": ""
  },
  {
   "property": "C63",
   "status": "partial",
   "theorems": [
    "Qopen.C63_fit_raises_iff",
    "Qopen.C63_fit_reports_iff",
    "Qopen.C63_empty_result_counterexample",
    "Qopen.C63_fit_otherwise_none_partial",
    "Qopen.C63_mean",
    "Qopen.C63_mean_needs_fc"
   ],
   "note": "Full statement is false of the code: `fit_sds` returns an empty dictionary instead of `None` if too few values exist; a free `n` or `gamma` without limits (`n_lim=None`) raises an exception of the optimiser"
  },
  {
   "property": "C64",
   "status": "proved",
   "theorems": [
    "Qopen.C64_optimal",
    "Qopen.C64_exact_data"
   ],
   "note": ""
  },
  {
   "property": "C65",
   "status": "proved",
   "theorems": [
    "Qopen.C65_value",
    "Qopen.C65_increasing",
    "Qopen.C65_scaling"
   ],
   "note": ""
  },
  {
   "property": "C66",
   "status": "proved",
   "theorems": [
    "Qopen.C66_aligned"
   ],
   "note": ""
  },
  {
   "property": "C67",
   "status": "partial",
   "theorems": [
    "Qopen.C67_no_stale_entries_partial",
    "Qopen.C67_rest_unchanged",
    "Qopen.C67_idempotent",
    "Qopen.C67_stale_mw_counterexample"
   ],
   "note": "Full statement is false of the code: a magnitude of a former calculation stays if no new moment is found"
  },
  {
   "property": "C68",
   "status": "proved",
   "theorems": [
    "Qopen.C68_options",
    "Qopen.C68_own_options",
    "Qopen.C68_inputs",
    "Qopen.C68_plots",
    "Qopen.C68_command_line",
    "Qopen.C68_example"
   ],
   "note": ""
  },
  {
   "property": "C69",
   "status": "partial",
   "theorems": [
    "Qopen.C69_lines",
    "Qopen.C69_no_comment",
    "Qopen.C69_comment_text",
    "Qopen.C69_idempotent",
    "Qopen.C69_hash_in_string_counterexample"
   ],
   "note": "Full statement is false of the code: `#` inside of a string is taken as comment"
  },
  {
   "property": "C70",
   "status": "partial",
   "theorems": [
    "Qopen.C70_figures_partial",
    "Qopen.C70_output_partial",
    "Qopen.C70_log_partial",
    "Qopen.C70_second_call_counterexample"
   ],
   "note": "Full statement is false of the code: options are changed in place, the second call with the same options adds the prefix twice"
  },
  {
   "property": "C71",
   "status": "proved",
   "theorems": [
    "Qopen.C71_wrapper",
    "Qopen.C71_as_missing",
    "Qopen.C71_no_failure",
    "Qopen.C71_skipped"
   ],
   "note": ""
  },
  {
   "property": "C72",
   "status": "partial",
   "theorems": [
    "Qopen.C72_fixed",
    "Qopen.C72_sites_partial",
    "Qopen.C72_run",
    "Qopen.C72_events_counterexample"
   ],
   "note": "Full statement is false of the code: `input_sites` replaces the responses of an event by the whole dictionary of the event"
  },
  {
   "property": "C73",
   "status": "proved",
   "theorems": [
    "Qopen.C73_configuration",
    "Qopen.C73_run",
    "Qopen.C73_invalid"
   ],
   "note": ""
  },
  {
   "property": "C74",
   "status": "partial",
   "theorems": [
    "Qopen.C74_config",
    "Qopen.C74_plugin_missing",
    "Qopen.C74_passed_partial",
    "Qopen.C74_skip_completed",
    "Qopen.C74_njobs_counterexample",
    "Qopen.C74_repeated"
   ],
   "note": "Full statement is false of the code: the result does not document `G_plugin` (the list for dumping contains the old name); with `njobs=1` the passed `skip` is changed in place, so the documented `skip` contains `coda_window: 0.05` even if not passed, with other values of `njobs` it does not"
  },
  {
   "property": "C75",
   "status": "partial",
   "theorems": [
    "Qopen.C75_none_partial",
    "Qopen.C75_only_if",
    "Qopen.C75_simultaneous_counterexample"
   ],
   "note": "Full statement is false of the code: without result the simultaneous mode raises `TypeError`"
  },
  {
   "property": "C76",
   "status": "partial",
   "theorems": [
    "Qopen.C76_table",
    "Qopen.C76_relations",
    "Qopen.C76_velocity_counterexample",
    "Qopen.C76_row"
   ],
   "note": "Full statement is false of the code: `calc_dependent` raises without velocity also for quantities which need none"
  },
  {
   "property": "C77",
   "status": "partial",
   "theorems": [
    "Qopen.C77_sites",
    "Qopen.C77_spectra_partial",
    "Qopen.C77_spectra_counterexample"
   ],
   "note": "Full statement is false of the code: with one column the colour bar of the spectra lies outside of the grid"
  },
  {
   "property": "C78",
   "status": "proved",
   "theorems": [
    "Qopen.C78_encloses",
    "Qopen.C78_half_step",
    "Qopen.C78_single"
   ],
   "note": ""
  },
  {
   "property": "C79",
   "status": "proved",
   "theorems": [
    "Qopen.C79_alignment_succeeds",
    "Qopen.C79_no_events",
    "Qopen.C79_succeeds_with_source_model"
   ],
   "note": ""
  },
  {
   "property": "C80",
   "status": "partial",
   "theorems": [
    "Qopen.C80_ylabel",
    "Qopen.C80_xlabel_partial",
    "Qopen.C80_xlabel_default",
    "Qopen.C80_xlabel_counterexample"
   ],
   "note": "Full statement is false of the code: grids exist in which no panel carries the label of the x axis"
  },
  {
   "property": "C81",
   "status": "partial",
   "theorems": [
    "Qopen.C81_panels_partial",
    "Qopen.C81_panels_counterexample",
    "Qopen.C81_record",
    "Qopen.C81_best_counterexample",
    "Qopen.C81_best_partial",
    "Qopen.C81_cross_counterexample"
   ],
   "note": "Full statement is false of the code: panels of `plot_optimization` coincide for even `num`; the value marked as best is the last one of the optimiser"
  },
  {
   "property": "C82",
   "status": "proved",
   "theorems": [
    "Qopen.C82_regression_figure",
    "Qopen.C82_residual",
    "Qopen.C82_exact",
    "Qopen.C82_times"
   ],
   "note": ""
  },
  {
   "property": "C83",
   "status": "proved",
   "theorems": [
    "Qopen.C83_filter",
    "Qopen.C83_above_nyquist"
   ],
   "note": ""
  },
  {
   "property": "C84",
   "status": "partial",
   "theorems": [
    "Qopen.C84_course_partial",
    "Qopen.C84_returned",
    "Qopen.C84_rt_counterexample"
   ],
   "note": "Full statement is false of the code: `run('rt')` creates an empty output file and raises `UnboundLocalError`"
  },
  {
   "property": "C85",
   "status": "partial",
   "theorems": [
    "Qopen.C85_missing",
    "Qopen.C85_selected_partial",
    "Qopen.C85_recalc_counterexample",
    "Qopen.C85_plot"
   ],
   "note": "Full statement is false of the code: `recalc_source` with `eventid`, offered on the command line, raises `UnboundLocalError`"
  },
  {
   "property": "C86",
   "status": "proved",
   "theorems": [
    "Qopen.C86_nothing",
    "Qopen.C86_no_exception"
   ],
   "note": ""
  },
  {
   "property": "C87",
   "status": "proved",
   "theorems": [
    "Qopen.C87_unknown",
    "Qopen.C87_unreadable",
    "Qopen.C87_create"
   ],
   "note": ""
  },
  {
   "property": "C88",
   "status": "partial",
   "theorems": [
    "Qopen.C88_figures",
    "Qopen.C88_drawn",
    "Qopen.C88_unchanged_partial",
    "Qopen.C88_v0_counterexample"
   ],
   "note": "Full statement is false of the code: the figure of the results removes `v0` from the result of a simultaneous inversion before it is written"
  },
  {
   "property": "C89",
   "status": "proved",
   "theorems": [
    "Qopen.C89_missing",
    "Qopen.C89_plot"
   ],
   "note": ""
  },
  {
   "property": "C90",
   "status": "proved",
   "theorems": [
    "Qopen.C90_value",
    "Qopen.C90_bounds",
    "Qopen.C90_units",
    "Qopen.C90_corner_frequencies"
   ],
   "note": ""
  },
  {
   "property": "C91",
   "status": "proved",
   "theorems": [
    "Qopen.C91_weighted",
    "Qopen.C91_weighted_attenuation",
    "Qopen.C91_robust",
    "Qopen.C91_equal_weights"
   ],
   "note": ""
  },
  {
   "property": "C92",
   "status": "proved",
   "theorems": [
    "Qopen.C92_plugin",
    "Qopen.C92_values",
    "Qopen.C92_calc",
    "Qopen.C92_calc_direct",
    "Qopen.C92_calc_one_type"
   ],
   "note": ""
  },
  {
   "property": "C93",
   "status": "partial",
   "theorems": [
    "Qopen.C93_means_partial",
    "Qopen.C93_nobs",
    "Qopen.C93_points",
    "Qopen.C93_error_bars",
    "Qopen.C93_simultaneous_partial",
    "Qopen.C93_simultaneous_counterexample",
    "Qopen.C93_weighted_errors_counterexample",
    "Qopen.C93_nobs_single",
    "Qopen.C93_single_band_weighted",
    "Qopen.C93_event_velocities"
   ],
   "note": "Full statement is false of the code: no figure of results for simultaneously inverted events with several bands unless `mean='robust'` (`ValueError`); weighted error bars vanish in each band in which any event has no misfit"
  },
  {
   "property": "C94",
   "status": "partial",
   "theorems": [
    "Qopen.C94_stations",
    "Qopen.C94_points",
    "Qopen.C94_means_partial",
    "Qopen.C94_single_partial",
    "Qopen.C94_simultaneous_counterexample"
   ],
   "note": "Full statement is false of the code: no figure of sites for simultaneously inverted events with several bands unless `mean='robust'`"
  },
  {
   "property": "C95",
   "status": "partial",
   "theorems": [
    "Qopen.C95_curve",
    "Qopen.C95_mean_counterexample",
    "Qopen.C95_all_events_partial",
    "Qopen.C95_total_partial"
   ],
   "note": "Full statement is false of the code: no figure of source spectra for `seismic_moment_method='mean'` (`nobs[freq < fc]` on a list or unassigned); colour bar without scale if the last event has no spectrum"
  },
  {
   "property": "C96",
   "status": "proved",
   "theorems": [
    "Qopen.C96_points",
    "Qopen.C96_line",
    "Qopen.C96_second_axis"
   ],
   "note": ""
  },
  {
   "property": "C97",
   "status": "partial",
   "theorems": [
    "Qopen.C97_values_partial",
    "Qopen.C97_total_partial",
    "Qopen.C97_sites",
    "Qopen.C97_mean_counterexample"
   ],
   "note": "Full statement is false of the code: if neither `W` nor the spectrum is requested, the figure of a single event of several shows the means over all events"
  },
  {
   "property": "C98",
   "status": "proved",
   "theorems": [
    "Qopen.C98_aligned",
    "Qopen.C98_recalculated"
   ],
   "note": ""
  },
  {
   "property": "C99",
   "status": "partial",
   "theorems": [
    "Qopen.C99_figures_partial",
    "Qopen.C99_prefix_counterexample"
   ],
   "note": "Full statement is false of the code: command `plot` without configuration file creates the directory of the prefix, but documented file names get no prefix"
  },
  {
   "property": "C100",
   "status": "partial",
   "theorems": [
    "Qopen.C100_source",
    "Qopen.C100_uncached",
    "Qopen.C100_cached",
    "Qopen.C100_transparent_partial",
    "Qopen.C100_once",
    "Qopen.C100_failure_counterexample",
    "Qopen.C100_directory_counterexample",
    "Qopen.C100_missing_counterexample"
   ],
   "note": "Full statement is false of the code: with a waveform cache a failed request is stored as `None` and never repeated, also after the service has recovered; different sources with the same cache directory get each other's data; a missing option `data` is not reported, all requests are answered with `None`"
  },
  {
   "property": "C101",
   "status": "partial",
   "theorems": [
    "Qopen.C101_path_partial",
    "Qopen.C101_init_partial",
    "Qopen.C101_path_counterexample"
   ],
   "note": "Full statement is false of the code: `.` stays in `sys.path` if a plugin cannot be imported"
  },
  {
   "property": "C102",
   "status": "partial",
   "theorems": [
    "Qopen.C102_corrected",
    "Qopen.C102_failure",
    "Qopen.C102_off",
    "Qopen.C102_figures_partial",
    "Qopen.C102_figures_counterexample"
   ],
   "note": "Full statement is false of the code: with several events inverted simultaneously all figures of the response removal are named after the event of the last pair and overwrite each other"
  },
  {
   "property": "C103",
   "status": "partial",
   "theorems": [
    "Qopen.C103_inventory",
    "Qopen.C103_events",
    "Qopen.C103_events_read",
    "Qopen.C103_caller_partial",
    "Qopen.C103_caller_counterexample"
   ],
   "note": "Full statement is false of the code: the dictionary `read_events_kwargs` of the caller keeps format and inventory of the first call and passes them to the reader in later calls"
  },
  {
   "property": "C104",
   "status": "partial",
   "theorems": [
    "Qopen.C104_onset_partial",
    "Qopen.C104_unadjusted",
    "Qopen.C104_late_counterexample",
    "Qopen.C104_empty_counterexample"
   ],
   "note": "Full statement is false of the code: data which start inside the window: the new S-onset is too early by the missing time; a single pair without data in the window stops the whole inversion (`ValueError` of `np.argmax`) instead of being skipped"
  },
  {
   "property": "C105",
   "status": "partial",
   "theorems": [
    "Qopen.C105_corner_frequency",
    "Qopen.C105_shape_partial",
    "Qopen.C105_not_worse_than_start",
    "Qopen.C105_shape_counterexample"
   ],
   "note": "Full statement is false of the code: if both `n` and `gamma` are free, only their product is limited: each of them can leave its limits (`n_lim`, `gamma_lim`)"
  },
  {
   "property": "C106",
   "status": "partial",
   "theorems": [
    "Qopen.C106_different_files_partial",
    "Qopen.C106_several_events_partial",
    "Qopen.C106_close_bands_counterexample",
    "Qopen.C106_result_unchanged",
    "Qopen.C106_all_drawn",
    "Qopen.C106_before_failure_partial",
    "Qopen.C106_failure_counterexample"
   ],
   "note": "Full statement is false of the code: bands whose corners agree up to two decimals get the same file name, the later figure overwrites the first; a figure which fails suppresses the following ones of the band"
  },
  {
   "property": "C107",
   "status": "partial",
   "theorems": [
    "Qopen.C107_panels",
    "Qopen.C107_whole_trace",
    "Qopen.C107_data",
    "Qopen.C107_shows_reported_fit_partial",
    "Qopen.C107_fixed_sites_partial",
    "Qopen.C107_limits_partial",
    "Qopen.C107_drawn",
    "Qopen.C107_lower_limit_counterexample",
    "Qopen.C107_fixed_sites_counterexample"
   ],
   "note": "Full statement is false of the code: with fixed site responses and several events the response of another station is used in the figure (`R_fix_sites[:Ns]` has one entry per pair); observed energies of a coda window can lie below the energy axis (its lower limit depends on the largest observed energy)"
  },
  {
   "property": "C108",
   "status": "partial",
   "theorems": [
    "Qopen.C108_rows",
    "Qopen.C108_windows_partial",
    "Qopen.C108_drawn_partial",
    "Qopen.C108_downsample_counterexample",
    "Qopen.C108_coda_window_counterexample"
   ],
   "note": "Full statement is false of the code: option `downsample_to` always raises (step of a slice is a float); without bulk window the coda window is not shown"
  },
  {
   "property": "C109",
   "status": "partial",
   "theorems": [
    "Qopen.C109_unsmoothed_counterexample",
    "Qopen.C109_bundled_partial",
    "Qopen.C109_first_sample_counterexample",
    "Qopen.C109_alike_partial",
    "Qopen.C109_equal_partial",
    "Qopen.C109_border_counterexample"
   ],
   "note": "Full statement is false of the code: at the ends of a trace energies are averaged with zeros, the Green's function is not: a coda window within half a smoothing window of the end of the data is biased; the Green's functions of Qopen return zero for the first sample of an array which starts after the arrival: the first sample of the coda window is modelled too small for windows with weights at their ends (flat, hamming), without smoothing (`smooth: null`) its model energy is zero and its logarithm infinite"
  },
  {
   "property": "C110",
   "status": "partial",
   "theorems": [
    "Qopen.C110_call",
    "Qopen.C110_inversion",
    "Qopen.C110_event",
    "Qopen.C110_file_counterexample"
   ],
   "note": "Full statement is false of the code: `eventid`, `print_mag` (and `tutorial`, `plots`) in a configuration file are ignored and passed on to the inversion as unknown options"
  },
  {
   "property": "C111",
   "status": "partial",
   "theorems": [
    "Qopen.C111_options",
    "Qopen.C111_result",
    "Qopen.C111_written",
    "Qopen.C111_catalogue_counterexample"
   ],
   "note": "Full statement is false of the code: `recalc_source` with a catalogue object among the keyword arguments raises `TypeError`, `go` accepts it"
  },
  {
   "property": "C112",
   "status": "partial",
   "theorems": [
    "Qopen.C112_curves",
    "Qopen.C112_plot_r",
    "Qopen.C112_plot_rt",
    "Qopen.C112_plot_t_partial",
    "Qopen.C112_drawn",
    "Qopen.C112_plot_r_counterexample",
    "Qopen.C112_needed_arguments"
   ],
   "note": "Full statement is false of the code: `plot-r` with a distance but without time raises `TypeError`; absorption in `plot-t` belongs to the last time (C59)"
  },
  {
   "property": "C113",
   "status": "proved",
   "theorems": [
    "Qopen.C113_calibration",
    "Qopen.C113_order",
    "Qopen.C113_coda_normalization",
    "Qopen.C113_source"
   ],
   "note": ""
  },
  {
   "property": "C114",
   "status": "partial",
   "theorems": [
    "Qopen.C114_succeeds_partial",
    "Qopen.C114_named_stations_missing",
    "Qopen.C114_all_stations_ignored",
    "Qopen.C114_ignored_band_counterexample",
    "Qopen.C114_succeeds_with_source_model_partial"
   ],
   "note": "Full statement is false of the code: a band with data of ignored stations only raises `TypeError` and no band is aligned"
  },
  {
   "property": "C115",
   "status": "partial",
   "theorems": [
    "Qopen.C115_energy",
    "Qopen.C115_borehole_stations_partial",
    "Qopen.C115_network_code_counterexample",
    "Qopen.C115_moved_station_counterexample"
   ],
   "note": "Full statement is false of the code: with `ignore_network_code` borehole stations get the factor of stations at the surface; in a simultaneous inversion a station at the surface gets the factor of boreholes if it is in a borehole at the time of another event"
  },
  {
   "property": "C116",
   "status": "proved",
   "theorems": [
    "Qopen.C116_fixed",
    "Qopen.C116_source"
   ],
   "note": ""
  },
  {
   "property": "C117",
   "status": "proved",
   "theorems": [
    "Qopen.C117_references_of_inversions",
    "Qopen.C117_mean_site_responses",
    "Qopen.C117_order_of_events"
   ],
   "note": ""
  },
  {
   "property": "C118",
   "status": "proved",
   "theorems": [
    "Qopen.C118_absolute_times"
   ],
   "note": ""
  },
  {
   "property": "C119",
   "status": "proved",
   "theorems": [
    "Qopen.C119_coda_normalization",
    "Qopen.C119_energies_of_accepted_pairs",
    "Qopen.C119_calibration",
    "Qopen.C119_source"
   ],
   "note": ""
  },
  {
   "property": "C120",
   "status": "partial",
   "theorems": [
    "Qopen.C120_order_of_catalogue",
    "Qopen.C120_other_events",
    "Qopen.C120_events_without_result",
    "Qopen.C120_stop_counterexample",
    "Qopen.C120_unknown_depth",
    "Qopen.C120_picks_counterexample"
   ],
   "note": "Full statement is false of the code: one event with unknown depth stops the separate inversion of all events (log message), although it would just be skipped; so does an exception for one event; in simultaneous mode with picks one event without picks leaves nothing to invert"
  },
  {
   "property": "C121",
   "status": "partial",
   "theorems": [
    "Qopen.C121_reported",
    "Qopen.C121_pairs_partial",
    "Qopen.C121_same_events_partial",
    "Qopen.C121_counterexample"
   ],
   "note": "Full statement is false of the code: the \"reduction of mean stdev\" need not be one: with two events and three stations, one of which differs by a factor e, the mean standard deviation rises from 1/6 to 2/9, for every least-squares solver (sums of squares are minimised, means of roots are reported)"
  },
  {
   "property": "C122",
   "status": "partial",
   "theorems": [
    "Qopen.C122_one_event",
    "Qopen.C122_succeeds",
    "Qopen.C122_no_result_counterexample"
   ],
   "note": "Full statement is false of the code: without any result the separate inversion of an event returns nothing, the simultaneous one raises `TypeError`; values which are not positive (b <= 0, error 0) become `None` only in the separate mode"
  },
  {
   "property": "C123",
   "status": "partial",
   "theorems": [
    "Qopen.C123_any_moment_partial",
    "Qopen.C123_failed_inversion",
    "Qopen.C123_after",
    "Qopen.C123_success",
    "Qopen.C123_create",
    "Qopen.C123_crash_counterexample",
    "Qopen.C123_create_counterexample"
   ],
   "note": "Full statement is false of the code: the output file is emptied before the new result is written in place, so a run stopped while it writes destroys the old result; `create` replaces an existing configuration file without asking"
  },
  {
   "property": "C124",
   "status": "partial",
   "theorems": [
    "Qopen.C124_same_result",
    "Qopen.C124_steps",
    "Qopen.C124_panels_partial",
    "Qopen.C124_labels_partial",
    "Qopen.C124_blue_partial",
    "Qopen.C124_best_counterexample"
   ],
   "note": "Full statement is false of the code: the blue cross marks the value tried last, not the result, and is not drawn if its misfit is infinite; the panel of the result is labelled as best only if the result was not among the first tried values; for an even number of panels see C81; for `num = 2` the figure fails (matplotlib finds no space for the main axes)"
  },
  {
   "property": "C125",
   "status": "proved",
   "theorems": [
    "Qopen.C125_alignment",
    "Qopen.C125_factor",
    "Qopen.C125_truth",
    "Qopen.C125_mean_site_responses",
    "Qopen.C125_band",
    "Qopen.C125_inversion",
    "Qopen.C125_separate",
    "Qopen.C125_separate_then_align",
    "Qopen.C125_mean_attenuation",
    "Qopen.C125_readable"
   ],
   "note": ""
  },
  {
   "property": "C126",
   "status": "partial",
   "theorems": [
    "Qopen.C126_fixed",
    "Qopen.C126_velocity_counterexample",
    "Qopen.C126_source_partial"
   ],
   "note": "Full statement is false of the code: if `v0` is not configured, the velocity of `source` differs from that of the inversion which delivered the attenuation and site responses: the mean is taken over all pairs before any is rejected (core.py:640-643), but pairs of stations without site response are removed before (core.py:553-558); times of the coda and source energies change"
  },
  {
   "property": "C127",
   "status": "partial",
   "theorems": [
    "Qopen.C127_result_unchanged_partial",
    "Qopen.C127_fit",
    "Qopen.C127_skipped",
    "Qopen.C127_optimisation_partial",
    "Qopen.C127_different_files_partial",
    "Qopen.C127_empty_counterexample",
    "Qopen.C127_name_counterexample"
   ],
   "note": "Full statement is false of the code: the dump of the optimisation is empty unless the figure of the optimisation is requested as well; a name without place for the band (`fit.pkl`) ends the inversion with `TypeError` (dumps are not protected like figures); close bands as in C106"
  },
  {
   "property": "C128",
   "status": "partial",
   "theorems": [
    "Qopen.C128_options_partial",
    "Qopen.C128_upper_case_counterexample"
   ],
   "note": "Full statement is false of the code: `Brent`, `Golden`, `Bounded` (the names in scipy's documentation, which accepts both) are not recognised: the bounds of g0 are not passed to the optimiser, `Bounded` has no bounds at all"
  },
  {
   "property": "C129",
   "status": "partial",
   "theorems": [
    "Qopen.C129_perfect_fit_partial",
    "Qopen.C129_recovered_partial",
    "Qopen.C129_from_energies_partial",
    "Qopen.C129_recalculated_partial",
    "Qopen.C129_two_points_counterexample"
   ],
   "note": "Full statement is false of the code: the number of frequencies is compared with the number of searched parameters, this is not enough if fall-off or sharpness are free: with two frequencies below the corner frequency two different fall-offs fit the spectrum without error"
  },
  {
   "property": "C130",
   "status": "partial",
   "theorems": [
    "Qopen.C130_alignment_partial",
    "Qopen.C130_from_envelopes_partial"
   ],
   "note": "Full statement is false of the code: as C129: the number of frequencies which is required is too small if fall-off or sharpness are free, and the search need not find the smallest misfit"
  },
  {
   "property": "C131",
   "status": "proved",
   "theorems": [
    "Qopen.C131_fit",
    "Qopen.C131_recalculated"
   ],
   "note": ""
  },
  {
   "property": "C132",
   "status": "partial",
   "theorems": [
    "Qopen.C132_no_energy",
    "Qopen.C132_left_out_partial",
    "Qopen.C132_counterexample"
   ],
   "note": "Full statement is false of the code: if `v0` is not given, the velocity is the mean over all pairs with energies before the checks (core.py:640-643), so that a pair which is rejected later changes the velocity and the result"
  },
  {
   "property": "C133",
   "status": "proved",
   "theorems": [
    "Qopen.C133_inversion",
    "Qopen.C133_source",
    "Qopen.C133_coda_normalization",
    "Qopen.C133_greens_functions"
   ],
   "note": ""
  },
  {
   "property": "C134",
   "status": "partial",
   "theorems": [
    "Qopen.C134_accepted_pairs_partial",
    "Qopen.C134_inversion_partial",
    "Qopen.C134_samples_partial",
    "Qopen.C134_counterexample"
   ],
   "note": "Full statement is false of the code: a coda window shorter than half a second which lies anywhere outside the data passes `_check_times` (the empty slice of obspy starts and ends at the window), so that the pair is kept without a single sample"
  },
  {
   "property": "C135",
   "status": "proved",
   "theorems": [
    "Qopen.C135_separate",
    "Qopen.C135_sites_figure",
    "Qopen.C135_results_figure",
    "Qopen.C135_simultaneous",
    "Qopen.C135_event_sites"
   ],
   "note": ""
  },
  {
   "property": "C136",
   "status": "proved",
   "theorems": [
    "Qopen.C136_greens",
    "Qopen.C136_band",
    "Qopen.C136_inversion",
    "Qopen.C136_noise_level",
    "Qopen.C136_short_record",
    "Qopen.C136_catalogue"
   ],
   "note": "Found: one unusual pair stops the inversion of the band, and with it of all bands and events, instead of being skipped: a record shorter than the smoothing window (`ValueError`, core.py:675-679), a pair without noise level if `remove_noise` is off and a window ends at a signal-to-noise ratio"
  },
  {
   "property": "C137",
   "status": "proved",
   "theorems": [
    "Qopen.C137_band",
    "Qopen.C137_inversion",
    "Qopen.C137_source",
    "Qopen.C137_magnitudes"
   ],
   "note": ""
  },
  {
   "property": "C138",
   "status": "proved",
   "theorems": [
    "Qopen.C138_band",
    "Qopen.C138_other_events",
    "Qopen.C138_same_results"
   ],
   "note": ""
  },
  {
   "property": "C139",
   "status": "partial",
   "theorems": [
    "Qopen.C139_values",
    "Qopen.C139_accepted",
    "Qopen.C139_misspelt",
    "Qopen.C139_exclusive",
    "Qopen.C139_not_mentioned",
    "Qopen.C139_command",
    "Qopen.C139_run",
    "Qopen.C139_no_command_counterexample"
   ],
   "note": "Full statement is false of the code: `qopen` without command is accepted by the parser and ends with `ValueError` of `run` instead of a message about the usage"
  },
  {
   "property": "C140",
   "status": "proved",
   "theorems": [
    "Qopen.C140_fit",
    "Qopen.C140_attenuation",
    "Qopen.C140_band",
    "Qopen.C140_inversion",
    "Qopen.C140_aligned",
    "Qopen.C140_magnitudes"
   ],
   "note": ""
  },
  {
   "property": "C141",
   "status": "proved",
   "theorems": [
    "Qopen.C141_values",
    "Qopen.C141_command",
    "Qopen.C141_between",
    "Qopen.C141_type"
   ],
   "note": ""
  },
  {
   "property": "C142",
   "status": "partial",
   "theorems": [
    "Qopen.C142_joined",
    "Qopen.C142_near_stations_partial",
    "Qopen.C142_returns",
    "Qopen.C142_coordinates",
    "Qopen.C142_links_counterexample",
    "Qopen.C142_corner_counterexample",
    "Qopen.C142_site_counterexample",
    "Qopen.C142_small_area_counterexample"
   ],
   "note": "Full statement is false of the code: each station keeps only one partner: a later pair overwrites an earlier one, so the returned pairs need not connect the joined areas; stations which are not at a corner of the hull do not count for the distance; of stations with equal coordinates only the last one is known; areas with fewer than three stations have no hull and raise"
  },
  {
   "property": "C143",
   "status": "partial",
   "theorems": [
    "Qopen.C143_returns",
    "Qopen.C143_no_result",
    "Qopen.ReturnsExample.C143_no_result_counterexample"
   ],
   "note": "Full statement is false of the code: if no event has a result, `print_mag` ends with TypeError after `null` has replaced the output of an earlier run, and `align_sites` ends with TypeError"
  },
  {
   "property": "C144",
   "status": "partial",
   "theorems": [
    "Qopen.C144_other_bands_partial",
    "Qopen.C144_no_result_partial",
    "Qopen.C144_spectra_partial",
    "Qopen.C144_shared_counterexample",
    "Qopen.C144_velocity_partial",
    "Qopen.C144_separate_partial",
    "Qopen.C144_velocity_counterexample"
   ],
   "note": "Full statement is false of the code: with more than four bands per worker of the pool several bands share the filtered waveforms (C24), so that a band which has a result alone has none together with eight others; without given velocity the reported velocity, and with it the spectrum, is the one of the last band with a result"
  },
  {
   "property": "C145",
   "status": "proved",
   "theorems": [
    "Qopen.C145_source",
    "Qopen.C145_inversion",
    "Qopen.C145_separate"
   ],
   "note": ""
  },
  {
   "property": "C146",
   "status": "partial",
   "theorems": [
    "Qopen.C146_separate",
    "Qopen.C146_simultaneous_partial",
    "Qopen.C146_simultaneous_counterexample",
    "Qopen.C146_documented_nothing",
    "Qopen.C146_without_method",
    "Qopen.C146_forgotten_counterexample"
   ],
   "note": "Full statement is false of the code: in a simultaneous inversion the velocity is part of the result but not of the events: if `v0` is not configured, `recalc_source` finds no velocity (source.py:199) and removes spectrum, moment, corner frequency and fit error without calculating them again, `Mw` stays; `recalc_source` without method and options documents `null` for both (core.py:1957-1961), so that a second recalculation removes the moment"
  },
  {
   "property": "C147",
   "status": "partial",
   "theorems": [
    "Qopen.C147_last_wins",
    "Qopen.C147_kept_apart_partial",
    "Qopen.C147_overwritten_counterexample",
    "Qopen.C147_together",
    "Qopen.C147_together_counterexample"
   ],
   "note": "Full statement is false of the code: events with different resource identifiers but the same part after the last slash (`a/e` and `b/e`, e.g. of two agencies) have the same id (core.py:206-208): their results overwrite each other (core.py:1503) without message, only that of the last one in order of origin time is reported; if they are inverted together, the origin of the last one counts for the waveforms of all (core.py:1074-1075), each energy is appended once per event (core.py:1402-1408), so that with `k` events the spectrum of band `i` is calculated from the energy of band `i // k`"
  },
  {
   "property": "C148",
   "status": "proved",
   "theorems": [
    "Qopen.C148_inversion",
    "Qopen.C148_separate",
    "Qopen.C148_recalculated"
   ],
   "note": ""
  },
  {
   "property": "C149",
   "status": "proved",
   "theorems": [
    "Qopen.C149_aligned",
    "Qopen.C149_separate",
    "Qopen.C149_records",
    "Qopen.C149_inversion",
    "Qopen.C149_reasons"
   ],
   "note": ""
  },
  {
   "property": "C150",
   "status": "proved",
   "theorems": [
    "Qopen.C150_aligned",
    "Qopen.C150_records",
    "Qopen.C150_inversion",
    "Qopen.C150_separate"
   ],
   "note": ""
  },
  {
   "property": "C151",
   "status": "proved",
   "theorems": [
    "Qopen.C151_nothing_else",
    "Qopen.C151_without_density"
   ],
   "note": "Found: holds; note: if the results to be aligned have no density in their configuration, spectrum, moment and magnitude of an earlier calculation stay although the source energies are rescaled (source.py:197)"
  },
  {
   "property": "C152",
   "status": "proved",
   "theorems": [
    "Qopen.C152_solver_independent",
    "Qopen.C152_repeated",
    "Qopen.C152_references_of_inversions"
   ],
   "note": ""
  },
  {
   "property": "C153",
   "status": "proved",
   "theorems": [
    "Qopen.C153_inversion",
    "Qopen.C153_requirements",
    "Qopen.C153_alignment_succeeds"
   ],
   "note": ""
  },
  {
   "property": "C154",
   "status": "proved",
   "theorems": [
    "Qopen.C154_no_result",
    "Qopen.C154_simultaneous",
    "Qopen.C154_no_sites_or_energies",
    "Qopen.C154_separate",
    "Qopen.C154_which_runs"
   ],
   "note": "Found: `--align-sites` together with `invert_events_simultaneously`, with the command `source` or with coda normalisation raises `KeyError` (`'R'` or `'W'`) or `TypeError` after the inversion and before the output is written (core.py:1943 and 1951, site.py:59 and 227), so the result of the inversion is lost."
  },
  {
   "property": "C155",
   "status": "partial",
   "theorems": [
    "Qopen.C155_inversion",
    "Qopen.C155_not_wanted",
    "Qopen.C155_no_model_after_alignment",
    "Qopen.C155_plotted",
    "Qopen.C155_shows_model_partial"
   ],
   "note": "Full statement is false of the code: `invert` writes method and options of the source model into the dictionary `plot_eventresult_options` of the caller (core.py:1430-1432); with `--align-sites` these are `None` and `{}` (core.py:1914), so that the figure of the selected event after the alignment (core.py:1955) never shows the source model, not even if its options name a method"
  }
 ]
}