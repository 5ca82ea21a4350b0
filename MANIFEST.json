{
 "claims": [
  {
   "property": "C01",
   "status": "proved",
   "theorems": [
    "PyF.Subsample.C01_row_cap_exact"
   ],
   "note": "For every lawful random generator; also shows that the call never raises on index-aligned frames."
  },
  {
   "property": "C02",
   "status": "proved",
   "theorems": [
    "PyF.Subsample.C02_aligned_and_stable",
    "PyF.Subsample.C01_row_cap_exact",
    "PyF.Subsample.C02_seed_precedence"
   ],
   "note": "Stability is relative to the drawn order, as in the code."
  },
  {
   "property": "C03",
   "status": "proved",
   "theorems": [
    "PyF.Subsample.C03_fill_terminates",
    "PyF.Subsample.C03_hours_within_available",
    "PyF.Subsample.C03_hour_can_vanish"
   ],
   "note": "The last theorem is the witness that an hour present in the data can lose all its rows."
  },
  {
   "property": "C04",
   "status": "proved",
   "theorems": [
    "PyF.Subsample.C04_inactive_cap",
    "PyF.Subsample.C04_constructor",
    "PyF.Subsample.C04_no_randomness"
   ],
   "note": ""
  },
  {
   "property": "C05",
   "status": "proved",
   "theorems": [
    "PyF.Quantile.C05_is_empirical_quantile",
    "PyF.Quantile.C05_monotone",
    "PyF.Quantile.C05_extremes",
    "PyF.Quantile.C05_order_irrelevant",
    "PyF.Quantile.C05_linear_interpolation"
   ],
   "note": ""
  },
  {
   "property": "C06",
   "status": "proved",
   "theorems": [
    "PyF.Quantile.C06_conditional",
    "PyF.Quantile.C06_hour_noninterference",
    "PyF.Quantile.C06_pooled_fallback",
    "PyF.Quantile.C06_fits_iff"
   ],
   "note": ""
  },
  {
   "property": "C07",
   "status": "proved",
   "theorems": [
    "PyF.Quantile.C07_quantiles_do_not_cross",
    "PyF.Quantile.C07_right_errors"
   ],
   "note": ""
  },
  {
   "property": "C08",
   "status": "proved",
   "theorems": [
    "PyF.Quantile.C08_index_error",
    "PyF.Quantile.C08_correct_iff",
    "PyF.Quantile.C08_pooled_table"
   ],
   "note": "The natural expectation is violated by the code; the theorems characterise exactly when it holds."
  },
  {
   "property": "C09",
   "status": "proved",
   "theorems": [
    "PyF.Reshape.C09_labels",
    "PyF.Reshape.C09_round_trip",
    "PyF.Reshape.C09_empty_frame"
   ],
   "note": ""
  },
  {
   "property": "C10",
   "status": "proved",
   "theorems": [
    "PyF.Reshape.C10_qrf_layout",
    "PyF.Reshape.C10_correct_iff"
   ],
   "note": "Defect: wrong layout as soon as there are two targets and two levels."
  },
  {
   "property": "C11",
   "status": "proved",
   "theorems": [
    "PyF.Pmf.C11_pmf",
    "PyF.Pmf.C11_unique_bin",
    "PyF.Pmf.C11_bad_edges"
   ],
   "note": ""
  },
  {
   "property": "C12",
   "status": "proved",
   "theorems": [
    "PyF.Split.C12_tail_split",
    "PyF.Split.C12_no_ratio",
    "PyF.Split.C12_small_ratio_empty"
   ],
   "note": ""
  },
  {
   "property": "C13",
   "status": "proved",
   "theorems": [
    "PyF.Encode.C13_codes_stable",
    "PyF.Encode.C13_encoders_persist",
    "PyF.Encode.C13_unseen_raises",
    "PyF.Encode.C13_idempotent"
   ],
   "note": ""
  },
  {
   "property": "C14",
   "status": "proved",
   "theorems": [
    "PyF.Encode.C14_half_encoded"
   ],
   "note": ""
  },
  {
   "property": "C15",
   "status": "proved",
   "theorems": [
    "PyF.Refit.C15_lgb_first_fit",
    "PyF.Refit.C15_lgb_refit",
    "PyF.Refit.C15_lgb_never_recovers",
    "PyF.Refit.C15_hybrid_first_fit",
    "PyF.Refit.C15_hybrid_stale",
    "PyF.Refit.C15_hybrid_parallel_refit",
    "PyF.Refit.C15_hybrid_failed_fit_leaks",
    "PyF.Boost.C15_brutal_stale",
    "PyF.Boost.C15_brutal_raises_iff",
    "PyF.Refit.C15_before_fit",
    "PyF.Refit.C15_hybrid_multi_present"
   ],
   "note": "Defect: the model lists are never cleared. Exact characterisation over all fit histories, with the regressors as oracles."
  },
  {
   "property": "C16",
   "status": "proved",
   "theorems": [
    "PyF.Params.C16_set_exact",
    "PyF.Params.C16_get_exact",
    "PyF.Params.C16_set_get_noop",
    "PyF.Params.C16_get_after_set",
    "PyF.Params.C16_frozen_training",
    "PyF.Params.C16_live_training"
   ],
   "note": "The frozen training dictionary is a defect, stated and proved as such."
  },
  {
   "property": "C17",
   "status": "proved",
   "theorems": [
    "PyF.Transform.C17_lagged_features"
   ],
   "note": "Exact rationals, regular grid."
  },
  {
   "property": "C18",
   "status": "proved",
   "theorems": [
    "PyF.Transform.C18_aggregated_features",
    "PyF.Transform.C18_outside_window_irrelevant"
   ],
   "note": "Window width a whole multiple of the grid step; fractional widths in C20."
  },
  {
   "property": "C19",
   "status": "proved",
   "theorems": [
    "PyF.Transform.C19_no_lookahead",
    "PyF.Transform.C19_targets_future_only"
   ],
   "note": "Non-interference on agreeing prefixes/suffixes."
  },
  {
   "property": "C20",
   "status": "proved",
   "theorems": [
    "PyF.Transform.C20_metadata_describes_columns",
    "PyF.Transform.C20_fractional_window"
   ],
   "note": "Defect: fractional windows read one sample before start_time."
  },
  {
   "property": "C21",
   "status": "proved",
   "theorems": [
    "PyF.Binned.C21_binned_values",
    "PyF.Binned.C21_window_is_read",
    "PyF.Binned.C21_times_right_single_lag",
    "PyF.Binned.C21_times_right_single_bin",
    "PyF.Binned.C21_times_wrong",
    "PyF.Binned.C21_function_label_wrong",
    "PyF.Binned.C21_fn_lag_right_single_function",
    "PyF.Binned.C21_relative_unit"
   ],
   "note": "Defect: metadata of binned columns mislabelled."
  },
  {
   "property": "C22",
   "status": "proved",
   "theorems": [
    "PyF.Names.C22_lag_recoverable",
    "PyF.Names.C22_lag_names_injective",
    "PyF.Names.C22_lag_columns_nodup",
    "PyF.Names.C22_agg_names_injective",
    "PyF.Names.C22_agg_collision"
   ],
   "note": "Strings as character lists."
  },
  {
   "property": "C23",
   "status": "proved",
   "theorems": [
    "PyF.Names.C23_duration_recoverable",
    "PyF.Names.C23_hr_timedelta_injective",
    "PyF.Names.C23_empty_iff"
   ],
   "note": "Non-negative durations as integer nanoseconds split in components."
  },
  {
   "property": "C24",
   "status": "proved",
   "theorems": [
    "PyF.Fmt.C24_rows_aligned",
    "PyF.Fmt.C24_prediction_rows",
    "PyF.Fmt.C24_training_subset_prediction"
   ],
   "note": "NaN check reads the generated columns only."
  },
  {
   "property": "C25",
   "status": "proved",
   "theorems": [
    "PyF.Normalize.C25_normalised_values",
    "PyF.Normalize.C25_accepts_iff",
    "PyF.Normalize.C25_round_trip",
    "PyF.Normalize.C25_identity_without_expression",
    "PyF.Normalize.C25_quantile_levels",
    "PyF.Normalize.C25_two_targets_normalise_twice"
   ],
   "note": "Target side; expressions reading df[t] and the normaliser columns."
  },
  {
   "property": "C26",
   "status": "proved",
   "theorems": [
    "PyF.Kfcv.C26_accepts_iff",
    "PyF.Kfcv.C26_folds_separate",
    "PyF.Kfcv.C26_no_training_row_near_test"
   ],
   "note": "Times are integers (ns)."
  },
  {
   "property": "C27",
   "status": "proved",
   "theorems": [
    "PyF.Kfcv.C27_every_row_tested",
    "PyF.Kfcv.C27_two_folds_degenerate"
   ],
   "note": "n_k = 2 is accepted but leaves nothing to train on."
  },
  {
   "property": "C28",
   "status": "proved",
   "theorems": [
    "PyF.Kfcv.C28_short_reach_never_leaks",
    "PyF.Kfcv.C28_longer_lookahead_leaks",
    "PyF.Kfcv.C28_training_features_ignore_test_rows"
   ],
   "note": "Defect: targets of training rows can be samples of the test window."
  },
  {
   "property": "C29",
   "status": "proved",
   "theorems": [
    "PyF.Prune.C29_keeps_exactly_allowed",
    "PyF.Prune.C29_accepts_iff",
    "PyF.Prune.C29_column_iff",
    "PyF.Prune.C29_pruned_up_to",
    "PyF.Prune.C29_pruned_future",
    "PyF.Prune.C29_pruned_late",
    "PyF.Prune.C29_pruned_past"
   ],
   "note": "Defects: 'periodic' is not causal and its tolerance is one sided; keep_last_seconds keeps all the past."
  },
  {
   "property": "C30",
   "status": "proved",
   "theorems": [
    "PyF.Calendar.C30_ranges",
    "PyF.Calendar.C30_same_features_iff",
    "PyF.Calendar.C30_row_local",
    "PyF.Calendar.C30_columns_fixed_by_first_frame",
    "PyF.Calendar.C30_offset_values",
    "PyF.Calendar.C30_refused_iff",
    "PyF.Calendar.C30_day_of_week"
   ],
   "note": ""
  },
  {
   "property": "C31",
   "status": "proved",
   "theorems": [
    "PyF.Calendar.C31_label",
    "PyF.Calendar.C31_same_date_same_label",
    "PyF.Calendar.C31_holiday_label_independent_of_frame",
    "PyF.Calendar.C31_bridge_depends_on_frame"
   ],
   "note": "Holiday and bridge libraries are oracles."
  },
  {
   "property": "C32",
   "status": "proved",
   "theorems": [
    "PyF.GlobalForm.C32_one_table_per_series",
    "PyF.GlobalForm.C32_series_distinct",
    "PyF.GlobalForm.C32_table_recoverable",
    "PyF.GlobalForm.C32_target_check",
    "PyF.GlobalForm.C32_accepts_iff",
    "PyF.GlobalForm.C32_two_level"
   ],
   "note": "Set iteration order is an oracle (the order of the shared columns is not fixed by the input)."
  },
  {
   "property": "C33",
   "status": "proved",
   "theorems": [
    "PyF.Hankel.C33_windows",
    "PyF.Hankel.C33_generated_entries",
    "PyF.Hankel.C33_accepts_iff",
    "PyF.Hankel.C33_rows_overlap",
    "PyF.Hankel.C33_determines_vector",
    "PyF.Hankel.C33_negative_generator_reads_the_end"
   ],
   "note": "Defect: negative generators wrap around."
  },
  {
   "property": "C34",
   "status": "proved",
   "theorems": [
    "PyF.Bench.C34_predict",
    "PyF.Bench.C34_error_table",
    "PyF.Bench.C34_zero_horizon",
    "PyF.Bench.C34_constant_series"
   ],
   "note": "conditional_to_hour=False branch; quantiles as in C05."
  },
  {
   "property": "C35",
   "status": "proved",
   "theorems": [
    "PyF.Bench.C35_predict",
    "PyF.Bench.C35_lag_is_one_too_long",
    "PyF.Bench.C35_exact_iff_constant",
    "PyF.Bench.C35_always_wrong",
    "PyF.Bench.C35_exact_with_period_minus_one"
   ],
   "note": "Defect: seasonal lag is s+1."
  },
  {
   "property": "C36",
   "status": "proved",
   "theorems": [
    "PyF.Bench.C36_probability",
    "PyF.Bench.C36_sub_probability",
    "PyF.Bench.C36_point_forecast"
   ],
   "note": "Time-of-day key abstract. Defect: silent 0 for an unseen time of day."
  },
  {
   "property": "C37",
   "status": "proved",
   "theorems": [
    "PyF.HW.C37_calls_can_be_split",
    "PyF.HW.C37_first_call_looks_ahead"
   ],
   "note": "Exact arithmetic; numba loop transcribed. Defect: look-ahead in the first call."
  },
  {
   "property": "C38",
   "status": "proved",
   "theorems": [
    "PyF.HW.C38_exact_on_seasonal_signal"
   ],
   "note": "Exact arithmetic, float seasonal arrays."
  },
  {
   "property": "C39",
   "status": "proved",
   "theorems": [
    "PyF.HW.C39_written_seasonals_inside",
    "PyF.HW.C39_forecasts_not_constrained"
   ],
   "note": "Exact characterisation; forecasts are unconstrained."
  },
  {
   "property": "C40",
   "status": "proved",
   "theorems": [
    "PyF.HW.C40_missing_poisons_call",
    "PyF.HW.C40_never_heals"
   ],
   "note": "Defect: NaN slots in the seasonal arrays return for ever."
  },
  {
   "property": "C41",
   "status": "proved",
   "theorems": [
    "PyF.Statsmodels.C41_row_uses_strict_past",
    "PyF.Statsmodels.C41_causal",
    "PyF.Statsmodels.C41_following_frame",
    "PyF.Statsmodels.C41_other_frame",
    "PyF.Statsmodels.C41_residuals_of_exact_model",
    "PyF.Statsmodels.C41_ramp_band"
   ],
   "note": "Defect: fit forecasts the training frame with the model that already contains it; first residual compares unrelated times, the others are one step late. The index check of statsmodels' append and the fresh start of apply are contracts (Lawful)."
  },
  {
   "property": "C42",
   "status": "proved",
   "theorems": [
    "PyF.Fast.C42_window",
    "PyF.Fast.C42_split"
   ],
   "note": "start_from=0."
  },
  {
   "property": "C43",
   "status": "proved",
   "theorems": [
    "PyF.Fast.C43_envelope"
   ],
   "note": "Real arithmetic."
  },
  {
   "property": "C44",
   "status": "proved",
   "theorems": [
    "PyF.Kalman.C44_covariance_overconfident",
    "PyF.Kalman.C44_mean_is_posterior_mean",
    "PyF.Kalman.C44_filter_psd"
   ],
   "note": "Real matrices. Defect: Joseph form applied twice."
  },
  {
   "property": "C45",
   "status": "proved",
   "theorems": [
    "PyF.Fast.C45_fourier_predict_pure",
    "PyF.Fast.C45_fk_predict"
   ],
   "note": "FK step abstract; aliasing of stored arrays not modelled."
  },
  {
   "property": "C46",
   "status": "proved",
   "theorems": [
    "PyF.Scenred.C46_probability"
   ],
   "note": "Distances, argmin and argsort abstract; exact arithmetic."
  },
  {
   "property": "C47",
   "status": "proved",
   "theorems": [
    "PyF.Scenred.C47_node_counts",
    "PyF.Scenred.C47_monotone"
   ],
   "note": "Under the hypothesis that survivors do not all coincide; see C92."
  },
  {
   "property": "C48",
   "status": "proved",
   "theorems": [
    "PyF.Scenred.C48_reduction_is_a_tree",
    "PyF.Scenred.C48_merged_share_past"
   ],
   "note": ""
  },
  {
   "property": "C49",
   "status": "proved",
   "theorems": [
    "PyF.Scenred.C49_built_iff_single_root",
    "PyF.Scenred.C49_levels",
    "PyF.Scenred.C49_level_mass",
    "PyF.Scenred.C49_children_mass"
   ],
   "note": "Defect: equal values at a step lose probability."
  },
  {
   "property": "C50",
   "status": "proved",
   "theorems": [
    "PyF.Scenred.C50_paths",
    "PyF.Scenred.C50_values",
    "PyF.Scenred.network_wf"
   ],
   "note": ""
  },
  {
   "property": "C51",
   "status": "proved",
   "theorems": [
    "PyF.Scenred.C51_superimpose",
    "PyF.Scenred.C51_laws",
    "PyF.Scenred.C51_nodes_per_time"
   ],
   "note": "Signal defined at all times of the tree."
  },
  {
   "property": "C52",
   "status": "proved",
   "theorems": [
    "PyF.TreeBuild.C52_built_iff_divisible",
    "PyF.TreeBuild.C52_quantile_tree"
   ],
   "note": "base_tree='quantiles'; probabilities exact."
  },
  {
   "property": "C53",
   "status": "proved",
   "theorems": [
    "PyF.TreeBuild.C53_values_one_step_late",
    "PyF.TreeBuild.C53_siblings_sorted",
    "PyF.TreeBuild.C53_no_scenario_dropped",
    "PyF.TreeBuild.C53_last_step_irrelevant",
    "PyF.TreeBuild.C53_known_present"
   ],
   "note": "Defect: values one step late."
  },
  {
   "property": "C54",
   "status": "proved",
   "theorems": [
    "PyF.ScenGen.C54_interpolation",
    "PyF.ScenGen.C54_monotone",
    "PyF.ScenGen.C54_between",
    "PyF.ScenGen.C54_order_of_levels",
    "PyF.ScenGen.C54_scenarios"
   ],
   "note": "Any ordered field; noise terms are parameters."
  },
  {
   "property": "C55",
   "status": "proved",
   "theorems": [
    "PyF.ScenGen.C55_samples",
    "PyF.ScenGen.C55_ranks"
   ],
   "note": "Draws, covariances and norm.cdf are parameters. Defect: n_scen=1."
  },
  {
   "property": "C56",
   "status": "proved",
   "theorems": [
    "PyF.Metrics.C56_entries",
    "PyF.Metrics.C56_proper",
    "PyF.Metrics.C56_minimised_by_quantile",
    "PyF.Metrics.C56_score_minimised",
    "PyF.Metrics.C56_default_levels"
   ],
   "note": "Preferred layout; exact rationals."
  },
  {
   "property": "C57",
   "status": "proved",
   "theorems": [
    "PyF.Metrics.C57_reliability",
    "PyF.Metrics.C57_frame_needs_levels",
    "PyF.Metrics.C57_default_levels"
   ],
   "note": "Preferred layout. Defect: default levels."
  },
  {
   "property": "C58",
   "status": "proved",
   "theorems": [
    "PyF.Metrics.C58_aggregation",
    "PyF.Metrics.C58_zero_iff_perfect",
    "PyF.Metrics.C58_rmse_symmetric",
    "PyF.Metrics.C58_rmse_scale"
   ],
   "note": "No missing values."
  },
  {
   "property": "C59",
   "status": "proved",
   "theorems": [
    "PyF.Trainer.C59_full",
    "PyF.Trainer.C59_full_single",
    "PyF.Trainer.C59_random_fold_dict",
    "PyF.Trainer.C59_unknown_type"
   ],
   "note": "fit/score/clone are parameters. Defect: random_fold with a dictionary of scores."
  },
  {
   "property": "C60",
   "status": "proved",
   "theorems": [
    "PyF.Recon.C60_values_coherent",
    "PyF.Recon.C60_predict_coherent"
   ],
   "note": "Base forecasters and weights are parameters; real numbers."
  },
  {
   "property": "C61",
   "status": "proved",
   "theorems": [
    "PyF.Recon.C61_positive_definite_fits",
    "PyF.Recon.C61_fit_succeeds",
    "PyF.Recon.C61_projection",
    "PyF.Recon.C61_closest_coherent"
   ],
   "note": "Methods dummy and minT."
  },
  {
   "property": "C62",
   "status": "proved",
   "theorems": [
    "PyF.Recon.C62_labels"
   ],
   "note": "Defect."
  },
  {
   "property": "C63",
   "status": "proved",
   "theorems": [
    "PyF.Recon.C63_unrolled",
    "PyF.Recon.C63_acyclic_succeeds",
    "PyF.Recon.C63_cyclic_refused",
    "PyF.Recon.C63_summation_matrix"
   ],
   "note": ""
  },
  {
   "property": "C64",
   "status": "proved",
   "theorems": [
    "PyF.Recon.C64_last_matrix"
   ],
   "note": "Defect."
  },
  {
   "property": "C65",
   "status": "proved",
   "theorems": [
    "PyF.BigData.C65_partition",
    "PyF.BigData.C65_sizes",
    "PyF.BigData.C65_frames"
   ],
   "note": "Sizes for exact split points; partition for any increasing ones."
  },
  {
   "property": "C66",
   "status": "proved",
   "theorems": [
    "PyF.BigData.C66_lists",
    "PyF.BigData.C66_no_ray_rows",
    "PyF.BigData.C66_no_ray_columns",
    "PyF.BigData.C66_fallback",
    "PyF.BigData.C66_ray_rows",
    "PyF.BigData.C66_ray_columns",
    "PyF.BigData.C66_parallel_trees",
    "PyF.BigData.C66_cpu_folds",
    "PyF.BigData.C66_test_slice"
   ],
   "note": "Defect."
  },
  {
   "property": "C67",
   "status": "proved",
   "theorems": [
    "PyF.BigData.C67_integers",
    "PyF.BigData.C67_caller_changed"
   ],
   "note": ""
  },
  {
   "property": "C68",
   "status": "proved",
   "theorems": [
    "PyF.NNTrain.C68_batches",
    "PyF.NNTrain.C68_steps",
    "PyF.NNTrain.C68_evaluations",
    "PyF.NNTrain.C68_result",
    "PyF.NNTrain.C68_best",
    "PyF.NNTrain.C68_exhausted"
   ],
   "note": "Losses are exact; the training step is a parameter."
  },
  {
   "property": "C69",
   "status": "proved",
   "theorems": [
    "PyF.SaveLoad.C69_saved_iff",
    "PyF.SaveLoad.C69_restored",
    "PyF.SaveLoad.C69_lost",
    "PyF.SaveLoad.C69_reload",
    "PyF.SaveLoad.C69_networks",
    "PyF.SaveLoad.C69_dunder",
    "PyF.SaveLoad.C69_runtime",
    "PyF.SaveLoad.C69_arch_sets"
   ],
   "note": "The attributes read by set_arch and predict are tables transcribed from the code; pickling is assumed faithful on them."
  },
  {
   "property": "C70",
   "status": "proved",
   "theorems": [
    "PyF.ICNN.C70_convex",
    "PyF.ICNN.C70_convex_probabilistic",
    "PyF.ICNN.C70_variance_pos",
    "PyF.ICNN.C70_bounds_quasiconvex"
   ],
   "note": "Exact real arithmetic; layer normalisation is always off in the code."
  },
  {
   "property": "C71",
   "status": "proved",
   "theorems": [
    "PyF.ICNN.C71_monotone",
    "PyF.ICNN.C71_monotone_probabilistic",
    "PyF.ICNN.C71_decoder_monotone",
    "PyF.ICNN.C71_augment_not_monotone"
   ],
   "note": ""
  },
  {
   "property": "C72",
   "status": "proved",
   "theorems": [
    "PyF.INN.C72_invert_embed",
    "PyF.INN.C72_embed_invert",
    "PyF.INN.C72_one_layer",
    "PyF.INN.C72_causal_embed",
    "PyF.INN.C72_causal_invert",
    "PyF.INN.C72_not_injective",
    "PyF.INN.C72_triangle",
    "PyF.INN.C72_activation_inverse",
    "PyF.INN.C72_activation_exact_iff",
    "PyF.INN.C72_inverse_activation",
    "PyF.INN.C72_near_identity"
   ],
   "note": "Real arithmetic. Defect: not injective near zero."
  },
  {
   "property": "C73",
   "status": "proved",
   "theorems": [
    "PyF.ICNN.C73_pointwise",
    "PyF.ICNN.C73_nonneg",
    "PyF.ICNN.C73_keeps",
    "PyF.ICNN.C73_idempotent",
    "PyF.ICNN.C73_names",
    "PyF.ICNN.C73_succeeds_iff"
   ],
   "note": ""
  },
  {
   "property": "C74",
   "status": "proved",
   "theorems": [
    "PyF.Boost.C74_residual_invariant",
    "PyF.Boost.C74_training_error_monotone",
    "PyF.Boost.C74_brutal_first_fit"
   ],
   "note": ""
  },
  {
   "property": "C75",
   "status": "proved",
   "theorems": [
    "PyF.Lstm.C75_training",
    "PyF.Lstm.C75_predict",
    "PyF.Lstm.C75_no_lookahead",
    "PyF.Lstm.C75_newest_unused",
    "PyF.Lstm.C75_prefix",
    "PyF.Lstm.C75_fit_outcome"
   ],
   "note": "Defect: the newest observation is never used."
  },
  {
   "property": "C76",
   "status": "proved",
   "theorems": [
    "PyF.Reshape.C76_qrf_single_target"
   ],
   "note": "Defect: one target and several rows raise."
  },
  {
   "property": "C77",
   "status": "proved",
   "theorems": [
    "PyF.Params.C77_clone_exact",
    "PyF.Params.C77_clone_keeps_iff",
    "PyF.Params.C77_trial",
    "PyF.Params.C77_unstored_trial_ignored"
   ],
   "note": "Defect: parameters lost by clone."
  },
  {
   "property": "C78",
   "status": "proved",
   "theorems": [
    "PyF.Boost.C78_stage_nan_iff"
   ],
   "note": ""
  },
  {
   "property": "C79",
   "status": "proved",
   "theorems": [
    "PyF.Transform.C79_same_grid_idempotent",
    "PyF.Transform.C79_frozen_value",
    "PyF.Transform.C79_coarser_grid_collapses_lags"
   ],
   "note": "Defect: state of the first call leaks in later calls."
  },
  {
   "property": "C80",
   "status": "proved",
   "theorems": [
    "PyF.Transform.C80_parallel_eq_sequential",
    "PyF.Transform.C80_parallel_fails_on_chained"
   ],
   "note": "Defect: parallel branch raises on chained transformers."
  },
  {
   "property": "C81",
   "status": "proved",
   "theorems": [
    "PyF.Fmt.C81_serving_equals_training"
   ],
   "note": ""
  },
  {
   "property": "C82",
   "status": "proved",
   "theorems": [
    "PyF.GlobalForm.C82_each_series_alone",
    "PyF.GlobalForm.C82_accepts_iff"
   ],
   "note": "Without memory reduction, normalisers and calendar features."
  },
  {
   "property": "C83",
   "status": "proved",
   "theorems": [
    "PyF.GlobalForm.C83_serving_uses_last_order",
    "PyF.GlobalForm.C83_same_features_iff",
    "PyF.GlobalForm.C83_serving_first_refused"
   ],
   "note": "Defect: the order stored is that of the last series."
  },
  {
   "property": "C84",
   "status": "proved",
   "theorems": [
    "PyF.HW.C84_integer_column_never_learns_seasons"
   ],
   "note": "Defect. numpy integer arrays truncate on assignment (numba cast)."
  },
  {
   "property": "C85",
   "status": "proved",
   "theorems": [
    "PyF.HW.C85_forecast_source",
    "PyF.HW.C85_error_table_mismatch"
   ],
   "note": "Defect: fit sets k to the number of quantile levels. Submodels abstract."
  },
  {
   "property": "C86",
   "status": "proved",
   "theorems": [
    "PyF.HW.C86_table_understates_errors",
    "PyF.HW.C86_residuals_aligned"
   ],
   "note": "Defect: correction in fit not applied by predict."
  },
  {
   "property": "C87",
   "status": "proved",
   "theorems": [
    "PyF.HW.C87_refit_continues",
    "PyF.HW.C87_refit_differs"
   ],
   "note": "Hyper-parameter search not modelled."
  },
  {
   "property": "C88",
   "status": "proved",
   "theorems": [
    "PyF.Fast.C88_exact_in_phase",
    "PyF.Fast.C88_split",
    "PyF.Fast.C88_phase_restarts",
    "PyF.Fast.C88_phase_witness",
    "PyF.Fast.C88_coefficients"
   ],
   "note": "Real arithmetic. Defect: phase not stored."
  },
  {
   "property": "C89",
   "status": "proved",
   "theorems": [
    "PyF.Fast.C89_expert_errors_misaligned"
   ],
   "note": "Defect: misaligned by one step."
  },
  {
   "property": "C90",
   "status": "proved",
   "theorems": [
    "PyF.Fast.C90_horizon_longer_than_window",
    "PyF.Fast.C90_accepts"
   ],
   "note": "Defect: IndexError for n_sa > m."
  },
  {
   "property": "C91",
   "status": "proved",
   "theorems": [
    "PyF.Fast.C91_nyquist_doubled"
   ],
   "note": "Defect."
  },
  {
   "property": "C92",
   "status": "proved",
   "theorems": [
    "PyF.Scenred.C92_coinciding_scenarios_stall",
    "PyF.Scenred.C92_known_present_fails"
   ],
   "note": "Defect."
  },
  {
   "property": "C93",
   "status": "proved",
   "theorems": [
    "PyF.Scenred.C93_tolerance_mode"
   ],
   "note": "Defect: explicit request ignored."
  },
  {
   "property": "C94",
   "status": "proved",
   "theorems": [
    "PyF.Scenred.C94_graph_labels",
    "PyF.Scenred.C94_single_step"
   ],
   "note": "Defect for one step."
  },
  {
   "property": "C95",
   "status": "proved",
   "theorems": [
    "PyF.Scenred.C95_greedy",
    "PyF.Scenred.C95_start"
   ],
   "note": ""
  },
  {
   "property": "C96",
   "status": "proved",
   "theorems": [
    "PyF.TreeBuild.C96_additional_node"
   ],
   "note": "Defect."
  },
  {
   "property": "C97",
   "status": "proved",
   "theorems": [
    "PyF.TreeBuild.C97_reconcile",
    "PyF.TreeBuild.C97_training_sound",
    "PyF.TreeBuild.C97_dead_end_fails"
   ],
   "note": "Draws, gains and argsort are parameters."
  },
  {
   "property": "C98",
   "status": "proved",
   "theorems": [
    "PyF.TreeBuild.C98_ranks_are_not_ranks",
    "PyF.TreeBuild.C98_farthest_moves_most",
    "PyF.TreeBuild.C98_tolerance_ignored"
   ],
   "note": "Defect."
  },
  {
   "property": "C99",
   "status": "proved",
   "theorems": [
    "PyF.TreeBuild.C99_no_decay_and_stale_scenarios",
    "PyF.TreeBuild.C99_stopping"
   ],
   "note": "Loss and gradient are parameters; init='quantiles'. Defect."
  },
  {
   "property": "C100",
   "status": "proved",
   "theorems": [
    "PyF.Metrics.C100_layout"
   ],
   "note": "Defect."
  },
  {
   "property": "C101",
   "status": "proved",
   "theorems": [
    "PyF.Metrics.C101_scorer_value",
    "PyF.Metrics.C101_single_target_is_mae"
   ],
   "note": "Defect."
  },
  {
   "property": "C102",
   "status": "proved",
   "theorems": [
    "PyF.ScenGen.C102_additional_node_scenarios"
   ],
   "note": "Defect."
  },
  {
   "property": "C103",
   "status": "proved",
   "theorems": [
    "PyF.ScenGen.C103_cross_validated_hour"
   ],
   "note": "Defect."
  },
  {
   "property": "C104",
   "status": "proved",
   "theorems": [
    "PyF.ScenGen.C104_seed_restarts"
   ],
   "note": "Generator abstract: a fixed seed makes draws independent of the call."
  },
  {
   "property": "C105",
   "status": "proved",
   "theorems": [
    "PyF.ScenGen.C105_prefit",
    "PyF.ScenGen.C105_offline",
    "PyF.ScenGen.C105_offline_refused"
   ],
   "note": "Tree builder and superposition are parameters; sequential branch."
  },
  {
   "property": "C106",
   "status": "proved",
   "theorems": [
    "PyF.ScenGen.C106_frame_layout"
   ],
   "note": "Defect."
  },
  {
   "property": "C107",
   "status": "proved",
   "theorems": [
    "PyF.Trainer.C107_positions_read_as_labels",
    "PyF.Trainer.C107_kfold_on_time_index",
    "PyF.Trainer.C107_generator"
   ],
   "note": "Defect."
  },
  {
   "property": "C108",
   "status": "proved",
   "theorems": [
    "PyF.Trainer.C108_trained_object"
   ],
   "note": "fit and score are parameters."
  },
  {
   "property": "C109",
   "status": "proved",
   "theorems": [
    "PyF.Recon.C109_bayes_always_fails"
   ],
   "note": "Defect. Shapes and labels only."
  },
  {
   "property": "C110",
   "status": "proved",
   "theorems": [
    "PyF.Recon.C110_scenario_rows",
    "PyF.Recon.C110_vanilla_uses_reconciled_errors"
   ],
   "note": "Defect."
  },
  {
   "property": "C111",
   "status": "proved",
   "theorems": [
    "PyF.Recon.C111_scenarios_coherent"
   ],
   "note": ""
  },
  {
   "property": "C112",
   "status": "proved",
   "theorems": [
    "PyF.Recon.C112_levels",
    "PyF.Recon.C112_last_child"
   ],
   "note": ""
  },
  {
   "property": "C113",
   "status": "proved",
   "theorems": [
    "PyF.BigData.C113_sorted_labels"
   ],
   "note": "Defect."
  },
  {
   "property": "C114",
   "status": "proved",
   "theorems": [
    "PyF.BigData.C114_floats"
   ],
   "note": "Defect (silent rounding; default of global_form)."
  },
  {
   "property": "C115",
   "status": "proved",
   "theorems": [
    "PyF.ICNN.C115_point_evaluates",
    "PyF.ICNN.C115_recstable_augment",
    "PyF.ICNN.C115_probabilistic",
    "PyF.ICNN.C115_layer_value"
   ],
   "note": "Defect."
  },
  {
   "property": "C116",
   "status": "proved",
   "theorems": [
    "PyF.ICNN.C116_minimum_at_zero",
    "PyF.ICNN.C116_single_layer_convex",
    "PyF.ICNN.C116_not_quasiconvex"
   ],
   "note": "Defect."
  },
  {
   "property": "C117",
   "status": "proved",
   "theorems": [
    "PyF.ICNN.C117_convex_in_embedding",
    "PyF.ICNN.C117_not_convex_in_controls"
   ],
   "note": "Defect."
  },
  {
   "property": "C118",
   "status": "proved",
   "theorems": [
    "PyF.NNTrain.C118_nan_free",
    "PyF.NNTrain.C118_nan_raises"
   ],
   "note": "Defect."
  },
  {
   "property": "C119",
   "status": "proved",
   "theorems": [
    "PyF.NNTrain.C119_default_batch",
    "PyF.NNTrain.C119_large_batch"
   ],
   "note": "Defect."
  },
  {
   "property": "C120",
   "status": "proved",
   "theorems": [
    "PyF.NNTrain.C120_stopping_rounds_dead",
    "PyF.NNTrain.C120_first_rise_stops"
   ],
   "note": "Defect."
  },
  {
   "property": "C121",
   "status": "proved",
   "theorems": [
    "PyF.SaveLoad.C121_latent_layers",
    "PyF.SaveLoad.C121_read_not_declared",
    "PyF.SaveLoad.C121_only_these"
   ],
   "note": "Defect."
  },
  {
   "property": "C122",
   "status": "proved",
   "theorems": [
    "PyF.SaveLoad.C122_hours",
    "PyF.SaveLoad.C122_quantiles_after_reload"
   ],
   "note": "Defect."
  },
  {
   "property": "C123",
   "status": "proved",
   "theorems": [
    "PyF.SaveLoad.C123_inverter_rate"
   ],
   "note": "Defect."
  },
  {
   "property": "C124",
   "status": "proved",
   "theorems": [
    "PyF.SaveLoad.C124_set_params"
   ],
   "note": ""
  },
  {
   "property": "C125",
   "status": "proved",
   "theorems": [
    "PyF.INN.C125_exact_activations",
    "PyF.INN.C125_leaky",
    "PyF.INN.C125_invcondiff",
    "PyF.INN.C125_identity",
    "PyF.INN.C125_softplus"
   ],
   "note": "Defect."
  },
  {
   "property": "C126",
   "status": "proved",
   "theorems": [
    "PyF.INN.C126_equal_lengths",
    "PyF.INN.C126_shift_commutes",
    "PyF.INN.C126_one_layer_iff",
    "PyF.INN.C126_offset"
   ],
   "note": "Defect."
  },
  {
   "property": "C127",
   "status": "proved",
   "theorems": [
    "PyF.INN.C127_hidden_ignored",
    "PyF.INN.C127_widths",
    "PyF.INN.C127_scaling_ignored",
    "PyF.INN.C127_scaling_used",
    "PyF.INN.C127_outcomes"
   ],
   "note": "Defect."
  },
  {
   "property": "C128",
   "status": "proved",
   "theorems": [
    "PyF.INN.C128_order",
    "PyF.INN.C128_missing",
    "PyF.INN.C128_position_irrelevant",
    "PyF.INN.C128_window"
   ],
   "note": ""
  },
  {
   "property": "C129",
   "status": "proved",
   "theorems": [
    "PyF.Lstm.C129_partition",
    "PyF.Lstm.C129_overlap"
   ],
   "note": "Defect."
  },
  {
   "property": "C130",
   "status": "proved",
   "theorems": [
    "PyF.Lstm.C130_units",
    "PyF.Lstm.C130_same_weights"
   ],
   "note": "Training is a deterministic function of the arrays; StandardScaler statistics are a parameter with the stated law."
  },
  {
   "property": "C131",
   "status": "proved",
   "theorems": [
    "PyF.NNQuant.C131_second_output_is_variance"
   ],
   "note": ""
  },
  {
   "property": "C132",
   "status": "proved",
   "theorems": [
    "PyF.NNQuant.C132_normalised_iff",
    "PyF.NNQuant.C132_error",
    "PyF.NNQuant.C132_crossing",
    "PyF.NNQuant.C132_nan"
   ],
   "note": "Defect: exact characterisation of when the quantiles are right."
  },
  {
   "property": "C133",
   "status": "proved",
   "theorems": [
    "PyF.NNQuant.C133_unnormalised_iff",
    "PyF.NNQuant.C133_order",
    "PyF.NNQuant.C133_raw"
   ],
   "note": "Defect: exact characterisation of when the quantiles are right."
  },
  {
   "property": "C134",
   "status": "proved",
   "theorems": [
    "PyF.NNQuant.C134_normal",
    "PyF.NNQuant.C134_moments",
    "PyF.NNQuant.C134_monotone",
    "PyF.NNQuant.C134_negative_objective"
   ],
   "note": "Defect for negative objectives."
  },
  {
   "property": "C135",
   "status": "proved",
   "theorems": [
    "PyF.NNQuant.C135_structured_normalised",
    "PyF.NNQuant.C135_error"
   ],
   "note": "Defect: exact characterisation; shapes only."
  },
  {
   "property": "C136",
   "status": "proved",
   "theorems": [
    "PyF.NNOpt.C136_optimize",
    "PyF.NNOpt.C136_monotone_before_last"
   ],
   "note": "Defect for n_iter below ten."
  },
  {
   "property": "C137",
   "status": "proved",
   "theorems": [
    "PyF.NNOpt.C137_descent",
    "PyF.NNOpt.C137_divergence",
    "PyF.NNOpt.C137_value_lags"
   ],
   "note": "Descent is a hypothesis on the optimiser; Defect otherwise."
  },
  {
   "property": "C138",
   "status": "proved",
   "theorems": [
    "PyF.NNOpt.C138_frame"
   ],
   "note": "One row, which is all that the assignment of raveled values supports."
  },
  {
   "property": "C139",
   "status": "proved",
   "theorems": [
    "PyF.NNOpt.C139_penalty"
   ],
   "note": "The Jacobian is a parameter."
  },
  {
   "property": "C140",
   "status": "proved",
   "theorems": [
    "PyF.NNOpt.C140_causal_training",
    "PyF.NNOpt.C140_distribution"
   ],
   "note": "Defect: exact characterisation."
  },
  {
   "property": "C141",
   "status": "proved",
   "theorems": [
    "PyF.Hybrid.C141_exact",
    "PyF.Hybrid.C141_too_many"
   ],
   "note": "LGBMRegressor is a parameter."
  },
  {
   "property": "C142",
   "status": "proved",
   "theorems": [
    "PyF.Hybrid.C142_batch"
   ],
   "note": "Exact arithmetic."
  },
  {
   "property": "C143",
   "status": "proved",
   "theorems": [
    "PyF.Hybrid.C143_exact",
    "PyF.Hybrid.C143_unbalance"
   ],
   "note": "LGBMRegressor is a parameter."
  },
  {
   "property": "C144",
   "status": "proved",
   "theorems": [
    "PyF.Hybrid.C144_needs_all_single",
    "PyF.Hybrid.C144_parallel"
   ],
   "note": "Defect."
  },
  {
   "property": "C145",
   "status": "proved",
   "theorems": [
    "PyF.Hybrid.C145_refit_no_effect"
   ],
   "note": "Defect."
  },
  {
   "property": "C146",
   "status": "proved",
   "theorems": [
    "PyF.Hybrid.C146_error_rows",
    "PyF.Hybrid.C146_in_sample",
    "PyF.Hybrid.C146_error_values"
   ],
   "note": "Defect for LGBEnergyAware."
  },
  {
   "property": "C147",
   "status": "proved",
   "theorems": [
    "PyF.FmtNorm.C147_feature_values",
    "PyF.FmtNorm.C147_right",
    "PyF.FmtNorm.C147_unrelated_scaled"
   ],
   "note": "Defect: features of other variables are normalised too."
  },
  {
   "property": "C148",
   "status": "proved",
   "theorems": [
    "PyF.FmtNorm.C148_value",
    "PyF.FmtNorm.C148_ok_iff",
    "PyF.FmtNorm.C148_error"
   ],
   "note": "Defect: every feature must be present."
  },
  {
   "property": "C149",
   "status": "proved",
   "theorems": [
    "PyF.FmtNorm.C149_added_iff",
    "PyF.FmtNorm.C149_duplicate",
    "PyF.FmtNorm.C149_list_lags",
    "PyF.FmtNorm.C149_refusals"
   ],
   "note": "Defect: numbers and lists as lags always raise. What the Transformer constructor itself raises is not modelled."
  },
  {
   "property": "C150",
   "status": "proved",
   "theorems": [
    "PyF.FmtNorm.C150_limits",
    "PyF.FmtNorm.C150_listed",
    "PyF.FmtNorm.C150_extremes",
    "PyF.FmtNorm.C150_unused",
    "PyF.FmtNorm.C150_used",
    "PyF.FmtNorm.C150_target_unused",
    "PyF.FmtNorm.C150_empty"
   ],
   "note": "Defect for target transformers not used yet. Simulated windows are a parameter."
  },
  {
   "property": "C151",
   "status": "proved",
   "theorems": [
    "PyF.FmtNorm.C151_simultaneous",
    "PyF.FmtNorm.C151_clean",
    "PyF.FmtNorm.C151_idempotent",
    "PyF.FmtNorm.C151_units",
    "PyF.FmtNorm.C151_inside_words"
   ],
   "note": "Strings; other arguments are returned as they are."
  },
  {
   "property": "C152",
   "status": "proved",
   "theorems": [
    "PyF.Tune.C152_within_limits",
    "PyF.Tune.C152_covers_limits",
    "PyF.Tune.C152_best_trial",
    "PyF.Tune.C152_nan_wins"
   ],
   "note": "Defect: np.argmin prefers NaN. The class is a parameter; its fit and predict are functions of attributes, states and frame."
  },
  {
   "property": "C153",
   "status": "proved",
   "theorems": [
    "PyF.Tune.C153_sequential_fails",
    "PyF.Tune.C153_sequential_error",
    "PyF.Tune.C153_needs_targets",
    "PyF.Tune.C153_single_trial",
    "PyF.Tune.C153_parallel_keeps_targets"
   ],
   "note": "Defect: the keyword dictionary is changed in place."
  },
  {
   "property": "C154",
   "status": "proved",
   "theorems": [
    "PyF.Tune.C154_training_rows",
    "PyF.Tune.C154_score",
    "PyF.Tune.C154_short_frame"
   ],
   "note": "Defect for short frames. The product 0.7*n is modelled in double precision; the errors are exact rationals."
  },
  {
   "property": "C155",
   "status": "proved",
   "theorems": [
    "PyF.Tune.C155_global_score",
    "PyF.Tune.C155_values",
    "PyF.Tune.C155_other_targets_unseen",
    "PyF.Tune.C155_order_irrelevant"
   ],
   "note": ""
  },
  {
   "property": "C156",
   "status": "proved",
   "theorems": [
    "PyF.Tune.C156_tuned_fit",
    "PyF.Tune.C156_second_fit",
    "PyF.Tune.C156_set_params_lost",
    "PyF.Tune.C156_set_params_used",
    "PyF.Tune.C156_parameters"
   ],
   "note": "Defect: set_params before a tuned fit is lost."
  },
  {
   "property": "C157",
   "status": "proved",
   "theorems": [
    "PyF.Tune.C157_untuned",
    "PyF.Tune.C157_tuned",
    "PyF.Tune.C157_dropped_parameters"
   ],
   "note": "Defect: constraints do not reach the submodels. Error tables are in C85."
  },
  {
   "property": "C158",
   "status": "proved",
   "theorems": [
    "PyF.Ctor.C158_unknown_keyword",
    "PyF.Ctor.C158_copula_and_tree",
    "PyF.Ctor.C158_dropped",
    "PyF.Ctor.C158_refused",
    "PyF.Ctor.C158_built_iff",
    "PyF.Ctor.C158_attributes"
   ],
   "note": "Defect: misspelled keywords are accepted."
  },
  {
   "property": "C159",
   "status": "proved",
   "theorems": [
    "PyF.Ctor.C159_unused",
    "PyF.Ctor.C159_expert_parameters",
    "PyF.Ctor.C159_whole"
   ],
   "note": "Defect: parameters of FK_multi that do nothing for the experts (r and q are used for the combination weights)."
  },
  {
   "property": "C160",
   "status": "proved",
   "theorems": [
    "PyF.Ctor.C160_windows",
    "PyF.Ctor.C160_shape",
    "PyF.Ctor.C160_duplicates"
   ],
   "note": "np.linspace is a parameter: monotone, exact at both ends."
  },
  {
   "property": "C161",
   "status": "proved",
   "theorems": [
    "PyF.Ctor.C161_tuned"
   ],
   "note": "Defect: generator keywords of the experts are lost."
  },
  {
   "property": "C162",
   "status": "proved",
   "theorems": [
    "PyF.Utils.C162_labels",
    "PyF.Utils.C162_round_trip",
    "PyF.Utils.C162_default_identity_iff",
    "PyF.Utils.C162_repeated"
   ],
   "note": "Defect: the default conversion is transposed."
  },
  {
   "property": "C163",
   "status": "proved",
   "theorems": [
    "PyF.Utils.C163_full",
    "PyF.Utils.C163_rows",
    "PyF.Utils.C163_selection",
    "PyF.Utils.C163_duplicates"
   ],
   "note": "Defect: silently mixed rows."
  },
  {
   "property": "C164",
   "status": "proved",
   "theorems": [
    "PyF.Utils.C164_selection",
    "PyF.Utils.C164_off_by_one",
    "PyF.Utils.C164_constant"
   ],
   "note": "Defect: off by one. Exact DFT; argsort is a parameter."
  },
  {
   "property": "C165",
   "status": "proved",
   "theorems": [
    "PyF.Summary.C165_masked_out",
    "PyF.Summary.C165_value",
    "PyF.Summary.C165_value_unmasked"
   ],
   "note": "rmse before the square root; the dtype of masked frames is not modelled."
  },
  {
   "property": "C166",
   "status": "proved",
   "theorems": [
    "PyF.Summary.C166_mask_shape",
    "PyF.Summary.C166_mask_frame",
    "PyF.Summary.C166_reliability",
    "PyF.Summary.C166_reliability_iff",
    "PyF.Summary.C166_score"
   ],
   "note": "Defect."
  },
  {
   "property": "C167",
   "status": "proved",
   "theorems": [
    "PyF.Summary.C167_plain",
    "PyF.Summary.C167_kept",
    "PyF.Summary.C167_companion",
    "PyF.Summary.C167_strings_fail",
    "PyF.Summary.C167_bins"
   ],
   "note": "Defect: depends on the other columns."
  },
  {
   "property": "C168",
   "status": "proved",
   "theorems": [
    "PyF.Summary.C168_check",
    "PyF.Summary.C168_refused",
    "PyF.Summary.C168_labels_by_position",
    "PyF.Summary.C168_arrays"
   ],
   "note": "Defect: idxs is paired by position."
  },
  {
   "property": "C169",
   "status": "proved",
   "theorems": [
    "PyF.Summary.C169_relabelled",
    "PyF.Summary.C169_by_position",
    "PyF.Summary.C169_width"
   ],
   "note": "Defect: changes its argument."
  },
  {
   "property": "C170",
   "status": "proved",
   "theorems": [
    "PyF.Summary.C170_same_name"
   ],
   "note": "Defect."
  },
  {
   "property": "C171",
   "status": "proved",
   "theorems": [
    "PyF.Rff.C171_frozen",
    "PyF.Rff.C171_first_call",
    "PyF.Rff.C171_width",
    "PyF.Rff.C171_refit",
    "PyF.Rff.C171_predict",
    "PyF.Rff.C171_bounded",
    "PyF.Rff.C171_supplied",
    "PyF.Rff.C171_feature"
   ],
   "note": "Draws and the regression are parameters."
  },
  {
   "property": "C172",
   "status": "proved",
   "theorems": [
    "PyF.Rff.C172_later_zero",
    "PyF.Rff.C172_n_models"
   ],
   "note": "Defect. LinearRegression is assumed to minimise the squared error with least norm; one target."
  },
  {
   "property": "C173",
   "status": "proved",
   "theorems": [
    "PyF.Rff.C173_standard",
    "PyF.Rff.C173_leak_iff",
    "PyF.Rff.C173_centred_iff"
   ],
   "note": "Defect: leakage into the scaling."
  },
  {
   "property": "C174",
   "status": "proved",
   "theorems": [
    "PyF.Rff.C174_error",
    "PyF.Rff.C174_plain"
   ],
   "note": "Defect."
  },
  {
   "property": "C175",
   "status": "proved",
   "theorems": [
    "PyF.Rff.C175_shape",
    "PyF.Rff.C175_entry",
    "PyF.Rff.C175_rows",
    "PyF.Rff.C175_orthogonal_iff",
    "PyF.Rff.C175_names"
   ],
   "note": "Defect: scales on the wrong side. QR is assumed to give an orthogonal matrix."
  },
  {
   "property": "C176",
   "status": "proved",
   "theorems": [
    "PyF.Boot.C176_value",
    "PyF.Boot.C176_unused",
    "PyF.Boot.C176_size",
    "PyF.Boot.C176_few",
    "PyF.Boot.C176_size_iff"
   ],
   "note": "Defect. The standard deviation is represented by its square."
  },
  {
   "property": "C177",
   "status": "proved",
   "theorems": [
    "PyF.Qrf.C177_quantiles"
   ],
   "note": "Defect: one remaining step. The forest is an oracle with the documented output shapes."
  },
  {
   "property": "C178",
   "status": "proved",
   "theorems": [
    "PyF.Qrf.C178_point",
    "PyF.Qrf.C178_one_target",
    "PyF.Qrf.C178_no_targets"
   ],
   "note": "Adds the values to C76. Defect: one target."
  },
  {
   "property": "C179",
   "status": "proved",
   "theorems": [
    "PyF.Qrf.C179_mean_word",
    "PyF.Qrf.C179_period"
   ],
   "note": "Defect."
  },
  {
   "property": "C180",
   "status": "proved",
   "theorems": [
    "PyF.Qrf.C180_no_effect",
    "PyF.Qrf.C180_length",
    "PyF.Qrf.C180_validation",
    "PyF.Qrf.C180_global"
   ],
   "note": "Defect."
  },
  {
   "property": "C181",
   "status": "proved",
   "theorems": [
    "PyF.Qrf.C181_max_depth",
    "PyF.Qrf.C181_no_depth",
    "PyF.Qrf.C181_passed",
    "PyF.Qrf.C181_n_jobs",
    "PyF.Qrf.C181_levels"
   ],
   "note": "Defect: max_depth."
  },
  {
   "property": "C182",
   "status": "proved",
   "theorems": [
    "PyF.NnIo.C182_count",
    "PyF.NnIo.C182_selector",
    "PyF.NnIo.C182_list",
    "PyF.NnIo.C182_list_heads",
    "PyF.NnIo.C182_none"
   ],
   "note": "Sizes only."
  },
  {
   "property": "C183",
   "status": "proved",
   "theorems": [
    "PyF.NnIo.C183_accepts",
    "PyF.NnIo.C183_all_normalised",
    "PyF.NnIo.C183_none_normalised",
    "PyF.NnIo.C183_misread"
   ],
   "note": "Defect. Training and the spread of a column are oracles."
  },
  {
   "property": "C184",
   "status": "proved",
   "theorems": [
    "PyF.NnIo.C184_refit"
   ],
   "note": "Defect."
  },
  {
   "property": "C185",
   "status": "proved",
   "theorems": [
    "PyF.NnIo.C185_leak"
   ],
   "note": "Defect: leakage into the scaling."
  },
  {
   "property": "C186",
   "status": "proved",
   "theorems": [
    "PyF.NnIo.C186_lstm",
    "PyF.NnIo.C186_feed_forward"
   ],
   "note": "Defect."
  },
  {
   "property": "C187",
   "status": "proved",
   "theorems": [
    "PyF.NnIo.C187_scengen_dict",
    "PyF.NnIo.C187_loss_kind",
    "PyF.NnIo.C187_direct"
   ],
   "note": "Defect."
  },
  {
   "property": "C188",
   "status": "proved",
   "theorems": [
    "PyF.Kpi.C188_pairs",
    "PyF.Kpi.C188_reliability",
    "PyF.Kpi.C188_own_scores_iff"
   ],
   "note": "Defect."
  },
  {
   "property": "C189",
   "status": "proved",
   "theorems": [
    "PyF.Kpi.C189_point",
    "PyF.Kpi.C189_levels"
   ],
   "note": "One target at a time; complete rows."
  },
  {
   "property": "C190",
   "status": "proved",
   "theorems": [
    "PyF.Kpi.C190_frames",
    "PyF.Kpi.C190_layout",
    "PyF.Kpi.C190_kpis"
   ],
   "note": "Defect. Labels of the columns only."
  },
  {
   "property": "C191",
   "status": "proved",
   "theorems": [
    "PyF.Hyper.C191_trial_object",
    "PyF.Hyper.C191_value",
    "PyF.Hyper.C191_as_if_alone"
   ],
   "note": "Defect: parameters leak between trials of a conditional space. optuna is an oracle."
  },
  {
   "property": "C192",
   "status": "proved",
   "theorems": [
    "PyF.Hyper.C192_object_after",
    "PyF.Hyper.C192_best_iff_last"
   ],
   "note": "Defect."
  },
  {
   "property": "C193",
   "status": "proved",
   "theorems": [
    "PyF.Hyper.C193_frozen_not_tuned"
   ],
   "note": "Defect. The state left by fitting is not represented."
  },
  {
   "property": "C194",
   "status": "proved",
   "theorems": [
    "PyF.Hyper.C194_no_default_space",
    "PyF.Hyper.C194_mapped_runs"
   ],
   "note": "Defect."
  },
  {
   "property": "C195",
   "status": "proved",
   "theorems": [
    "PyF.Hyper.C195_ranks",
    "PyF.Hyper.C195_rank_one",
    "PyF.Hyper.C195_std",
    "PyF.Hyper.C195_no_std"
   ],
   "note": "The column is modelled squared."
  },
  {
   "property": "C196",
   "status": "proved",
   "theorems": [
    "PyF.Refine.C196_distances",
    "PyF.Refine.C196_nodes",
    "PyF.Refine.C196_local"
   ],
   "note": "Random candidates are an oracle."
  },
  {
   "property": "C197",
   "status": "proved",
   "theorems": [
    "PyF.Refine.C197_cityblock"
   ],
   "note": "Witness for squared distances in Refine/Examples."
  },
  {
   "property": "C198",
   "status": "proved",
   "theorems": [
    "PyF.Refine.C198_ok_iff",
    "PyF.Refine.C198_several_roots"
   ],
   "note": "Non-empty samples."
  },
  {
   "property": "C199",
   "status": "proved",
   "theorems": [
    "PyF.Losses.C199_range",
    "PyF.Losses.C199_single_row",
    "PyF.Losses.C199_row_order",
    "PyF.Losses.C199_reversed"
   ],
   "note": "Defect: argsort instead of ranks. Exact reals."
  },
  {
   "property": "C200",
   "status": "proved",
   "theorems": [
    "PyF.Losses.C200_locally_constant"
   ],
   "note": "Defect: no gradient from argsort."
  },
  {
   "property": "C201",
   "status": "proved",
   "theorems": [
    "PyF.Losses.C201_penalty",
    "PyF.Losses.C201_collapsed"
   ],
   "note": "Defect: mean square in place of the variance; a constant embedding can cost as little as log 2."
  },
  {
   "property": "C202",
   "status": "proved",
   "theorems": [
    "PyF.Losses.C202_structured",
    "PyF.Losses.C202_embedded"
   ],
   "note": "Exact reals."
  },
  {
   "property": "C203",
   "status": "proved",
   "theorems": [
    "PyF.Losses.C203_relax"
   ],
   "note": "Defect in an unused function."
  },
  {
   "property": "C204",
   "status": "proved",
   "theorems": [
    "PyF.FkRun.C204_first_rows"
   ],
   "note": "Experts, pinv are parameters."
  },
  {
   "property": "C205",
   "status": "proved",
   "theorems": [
    "PyF.FkRun.C205_all_exact",
    "PyF.FkRun.C205_for_ever"
   ],
   "note": "Defect: 0/0."
  },
  {
   "property": "C206",
   "status": "proved",
   "theorems": [
    "PyF.FkRun.C206_never_adapts"
   ],
   "note": "Defect: NaN correlation, swallowed exception."
  },
  {
   "property": "C207",
   "status": "proved",
   "theorems": [
    "PyF.FkRun.C207_fitted_first"
   ],
   "note": "Defect: look-ahead."
  },
  {
   "property": "C208",
   "status": "proved",
   "theorems": [
    "PyF.FkRun.C208_return_coeffs"
   ],
   "note": "Defect: ValueError on long frames."
  },
  {
   "property": "C209",
   "status": "proved",
   "theorems": [
    "PyF.LatOpt.C209_optimize"
   ],
   "note": "Defect: value one step behind; last block not recorded. Networks and optimiser are parameters."
  },
  {
   "property": "C210",
   "status": "proved",
   "theorems": [
    "PyF.LatOpt.C210_no_weight",
    "PyF.LatOpt.C210_consistent",
    "PyF.LatOpt.C210_worse"
   ],
   "note": "Defect: regularisation without weight."
  },
  {
   "property": "C211",
   "status": "proved",
   "theorems": [
    "PyF.LatOpt.C211_stale"
   ],
   "note": "Defect: stale objective and parameters. jit traces once (same shapes)."
  },
  {
   "property": "C212",
   "status": "proved",
   "theorems": [
    "PyF.TreeInit.C212_default_nodes",
    "PyF.TreeInit.C212_exact"
   ],
   "note": "Defect: one level too many when n_scen = steps + 1. int(log n/log 2) is exact in the model."
  },
  {
   "property": "C213",
   "status": "proved",
   "theorems": [
    "PyF.TreeInit.C213_few_scenarios"
   ],
   "note": "Defect."
  },
  {
   "property": "C214",
   "status": "proved",
   "theorems": [
    "PyF.Insample.C214_pooled",
    "PyF.Insample.C214_by_hour"
   ],
   "note": "End to end: fit, predict_quantiles, reliability. Exact rationals."
  },
  {
   "property": "C215",
   "status": "proved",
   "theorems": [
    "PyF.Insample.C215_overall",
    "PyF.Insample.C215_one_day"
   ],
   "note": "Defect: with few rows per hour the hourly tables are far too narrow (zero coverage with one row per hour)."
  },
  {
   "property": "C216",
   "status": "proved",
   "theorems": [
    "PyF.PredTrees.C216_ignored",
    "PyF.PredTrees.C216_online",
    "PyF.PredTrees.C216_offline"
   ],
   "note": "Defect: init_obs is ignored without an additional node; position and label, scalar and default treated differently in the two modes."
  },
  {
   "property": "C217",
   "status": "proved",
   "theorems": [
    "PyF.PredTrees.C217_offline",
    "PyF.PredTrees.C217_online"
   ],
   "note": "Defect: numbers of nodes silently dropped by the forecaster with pre-fitted trees; the caller array is overwritten."
  },
  {
   "property": "C218",
   "status": "proved",
   "theorems": [
    "PyF.PredTrees.C218_workers",
    "PyF.PredTrees.C218_later_calls"
   ],
   "note": "Defect: the learning rate of the first call persists in the sequential branch only; a single processor fails."
  },
  {
   "property": "C219",
   "status": "proved",
   "theorems": [
    "PyF.PredTrees.C219_result"
   ],
   "note": ""
  },
  {
   "property": "C220",
   "status": "proved",
   "theorems": [
    "PyF.RecScen.C220_scenarios",
    "PyF.RecScen.C220_methods"
   ],
   "note": "Defect: one hour without past errors or zero scenarios fails the whole call; conditional is a stub; the static definition is overridden."
  },
  {
   "property": "C221",
   "status": "proved",
   "theorems": [
    "PyF.RecScen.C221_relations_kept"
   ],
   "note": ""
  },
  {
   "property": "C222",
   "status": "proved",
   "theorems": [
    "PyF.Pickle.C222_never_restored",
    "PyF.Pickle.C222_plain_restored",
    "PyF.Pickle.C222_no_copy"
   ],
   "note": "Defect: adaptive forecasters cannot be unpickled or copied."
  },
  {
   "property": "C223",
   "status": "proved",
   "theorems": [
    "PyF.Pickle.C223_transfer",
    "PyF.Pickle.C223_names_kept",
    "PyF.Pickle.C223_fk_predictions",
    "PyF.Pickle.C223_class_names",
    "PyF.Pickle.C223_between_classes"
   ],
   "note": ""
  },
  {
   "property": "C224",
   "status": "proved",
   "theorems": [
    "PyF.TreeLoss.C224_loss",
    "PyF.TreeLoss.C224_gradient"
   ],
   "note": ""
  },
  {
   "property": "C225",
   "status": "proved",
   "theorems": [
    "PyF.TreeLoss.C225_root"
   ],
   "note": "Defect: the default learning rate does not shrink below 0.1, so training diverges with many scenarios."
  },
  {
   "property": "C226",
   "status": "proved",
   "theorems": [
    "PyF.TreeLoss.C226_unused_nodes_stay"
   ],
   "note": "Defect: nodes may never be trained."
  },
  {
   "property": "C227",
   "status": "proved",
   "theorems": [
    "PyF.TreeLoss.C227_descent",
    "PyF.TreeLoss.C227_range"
   ],
   "note": ""
  },
  {
   "property": "C228",
   "status": "proved",
   "theorems": [
    "PyF.Recon.C228_fits_iff"
   ],
   "note": "Defect: perfect or constantly biased base forecasts cannot be reconciled."
  },
  {
   "property": "C229",
   "status": "proved",
   "theorems": [
    "PyF.Recon.C229_least_penalised_variance",
    "PyF.Recon.C229_variance_may_grow"
   ],
   "note": ""
  },
  {
   "property": "C230",
   "status": "proved",
   "theorems": [
    "PyF.Plots.C230_limits",
    "PyF.Plots.C230_quantile_limits"
   ],
   "note": "Defect: the upper limit of plot_quantiles is max*1.05 also for negative values."
  },
  {
   "property": "C231",
   "status": "proved",
   "theorems": [
    "PyF.Plots.C231_series_frames",
    "PyF.Plots.C231_quantile_frames"
   ],
   "note": "Defect: ts_animation does not take the step into account when counting frames."
  },
  {
   "property": "C232",
   "status": "proved",
   "theorems": [
    "PyF.Plots.C232_ticks",
    "PyF.Plots.C232_mean_label"
   ],
   "note": "Defect: step 0 for fewer than seven columns; sum instead of mean."
  },
  {
   "property": "C233",
   "status": "proved",
   "theorems": [
    "PyF.Plots.C233_cells",
    "PyF.Plots.C233_counted",
    "PyF.Plots.C233_least_left_out"
   ],
   "note": ""
  },
  {
   "property": "C234",
   "status": "proved",
   "theorems": [
    "PyF.TreeGen.C234_start_tree_shape_only"
   ],
   "note": "Defect: the values of a start tree within the horizon are discarded; ScenredTree discards the tree."
  },
  {
   "property": "C235",
   "status": "proved",
   "theorems": [
    "PyF.TreeGen.C235_range_one_step_late"
   ],
   "note": "Defect: values come from the step before (see C53)."
  },
  {
   "property": "C236",
   "status": "proved",
   "theorems": [
    "PyF.TreeGen.C236_other_texts_mean_zero"
   ],
   "note": "Defect: misspelt names start from zeros silently. The number type of the base tree (integer) is not modelled."
  },
  {
   "property": "C237",
   "status": "proved",
   "theorems": [
    "PyF.TreeLoss.C237_never_branches"
   ],
   "note": "Defect: ties share the gradient equally, so symmetric trees cannot be separated."
  },
  {
   "property": "C238",
   "status": "proved",
   "theorems": [
    "PyF.Serve.C238_loop_is_row_by_row",
    "PyF.Serve.C238_batch_independent",
    "PyF.Serve.C238_persistent"
   ],
   "note": "The point forecast is a function of the row; the width of the tables equals the number of levels."
  },
  {
   "property": "C239",
   "status": "proved",
   "theorems": [
    "PyF.Serve.C239_one_row",
    "PyF.Serve.C239_alone_iff"
   ],
   "note": "Defect: predict ignores the rows of short frames."
  },
  {
   "property": "C240",
   "status": "proved",
   "theorems": [
    "PyF.Serve.C240_error_table",
    "PyF.Serve.C240_exact_iff"
   ],
   "note": "Defect: wrap-around of the season in fit without validation set."
  },
  {
   "property": "C241",
   "status": "proved",
   "theorems": [
    "PyF.InnLoss.C241_window",
    "PyF.InnLoss.C241_baseline",
    "PyF.InnLoss.C241_undefined_iff",
    "PyF.InnLoss.C241_one_target",
    "PyF.InnLoss.C241_zero_iff",
    "PyF.InnLoss.C241_scale"
   ],
   "note": "Defect: wrap-around in the baseline; never finite with one target."
  },
  {
   "property": "C242",
   "status": "proved",
   "theorems": [
    "PyF.InnLoss.C242_full",
    "PyF.InnLoss.C242_quasi_equal_lengths",
    "PyF.InnLoss.C242_quasi_one_layer_iff",
    "PyF.InnLoss.C242_quasi_perfect_but_wrong",
    "PyF.InnLoss.C242_embedding_suffices",
    "PyF.InnLoss.C242_indistinguishable"
   ],
   "note": "Defect: zero quasi loss does not mean exact forecasts. The prediction head is a parameter."
  },
  {
   "property": "C243",
   "status": "proved",
   "theorems": [
    "PyF.InnLoss.C243_targets_unused",
    "PyF.InnLoss.C243_served",
    "PyF.InnLoss.C243_echo"
   ],
   "note": "Defect: the default mode forecasts nothing."
  },
  {
   "property": "C244",
   "status": "proved",
   "theorems": [
    "PyF.Sampling.C244_majority",
    "PyF.Sampling.C244_missing_rows_iff",
    "PyF.Sampling.C244_undefined",
    "PyF.Sampling.C244_regular"
   ],
   "note": "Stamps are integers (nanoseconds)."
  },
  {
   "property": "C245",
   "status": "proved",
   "theorems": [
    "PyF.Sampling.C245_aggregate",
    "PyF.Sampling.C245_lag",
    "PyF.Sampling.C245_lead"
   ],
   "note": "Defect: lags and targets count rows, so across a gap they do not have the stated time. Non-binned transformers."
  },
  {
   "property": "C246",
   "status": "proved",
   "theorems": [
    "PyF.Sampling.C246_same_step",
    "PyF.Sampling.C246_coarser",
    "PyF.Sampling.C246_finer",
    "PyF.Sampling.C246_daily"
   ],
   "note": "Defect for frames of another sampling time. Naive stamps."
  },
  {
   "property": "C247",
   "status": "proved",
   "theorems": [
    "PyF.Sampling.C247_frame",
    "PyF.Sampling.C247_order_iff"
   ],
   "note": "Defect: stamps are lost and columns sorted by name."
  },
  {
   "property": "C248",
   "status": "proved",
   "theorems": [
    "PyF.Forward.C248_kept",
    "PyF.Forward.C248_inn_names"
   ],
   "note": "Signatures and base calls as data; Python call binding modelled. Root attributes before None and whole-number conversions."
  },
  {
   "property": "C249",
   "status": "proved",
   "theorems": [
    "PyF.Forward.C249_lstm",
    "PyF.Forward.C249_lstm_scengen",
    "PyF.Forward.C249_logger",
    "PyF.Forward.C249_networks",
    "PyF.Forward.C249_holtwinters",
    "PyF.Forward.C249_expert_keeps"
   ],
   "note": "Defect: parameters accepted and ignored."
  },
  {
   "property": "C250",
   "status": "proved",
   "theorems": [
    "PyF.Forward.C250_refused_iff",
    "PyF.Forward.C250_keywords_accepted"
   ],
   "note": "Defect: inherited keywords refused. Assertions in the bodies are not part of it."
  },
  {
   "property": "C251",
   "status": "proved",
   "theorems": [
    "PyF.Fast.C251_superposition",
    "PyF.Fast.C251_units"
   ],
   "note": "Exact field arithmetic; the basis is a parameter."
  },
  {
   "property": "C252",
   "status": "proved",
   "theorems": [
    "PyF.LatNet.C252_confined",
    "PyF.LatNet.C252_decoded"
   ],
   "note": "Defect: bounds passed to encoder and decoder. Real arithmetic, scalar bounds."
  },
  {
   "property": "C253",
   "status": "proved",
   "theorems": [
    "PyF.LatNet.C253_variance"
   ],
   "note": "Defect. Real arithmetic, scalar bounds."
  },
  {
   "property": "C254",
   "status": "proved",
   "theorems": [
    "PyF.LatNet.C254_plain",
    "PyF.LatNet.C254_probabilistic",
    "PyF.LatNet.C254_bounds"
   ],
   "note": "Defect. Widths only; broadcasting of jax and the check of elementwise products."
  },
  {
   "property": "C255",
   "status": "proved",
   "theorems": [
    "PyF.HW.C255_superposition",
    "PyF.HW.C255_units"
   ],
   "note": "Exact arithmetic. Frames with the target column only."
  },
  {
   "property": "C256",
   "status": "proved",
   "theorems": [
    "PyF.HW.C256_warm_up",
    "PyF.HW.C256_offset"
   ],
   "note": "Defect."
  },
  {
   "property": "C257",
   "status": "proved",
   "theorems": [
    "PyF.Quantile.C257_units",
    "PyF.Quantile.C257_mirror"
   ],
   "note": "Exact arithmetic; point forecaster arbitrary."
  },
  {
   "property": "C258",
   "status": "proved",
   "theorems": [
    "PyF.Denorm.C258_regressor",
    "PyF.Denorm.C258_regressor_exact",
    "PyF.Denorm.C258_network",
    "PyF.Denorm.C258_plain"
   ],
   "note": "Defect for networks. Expressions are functions of the normalisers of the row and of the value."
  },
  {
   "property": "C259",
   "status": "proved",
   "theorems": [
    "PyF.Denorm.C259_persistent"
   ],
   "note": "Defect."
  },
  {
   "property": "C260",
   "status": "proved",
   "theorems": [
    "PyF.FkUnits.C260_units",
    "PyF.FkUnits.C260_filter"
   ],
   "note": "pinv is an arbitrary function; corrcoef and the Kalman step are modelled. No forecast (NaN or LinAlgError) is the same in all units."
  },
  {
   "property": "C261",
   "status": "proved",
   "theorems": [
    "PyF.FkUnits.C261_refresh",
    "PyF.FkUnits.C261_for_good",
    "PyF.FkUnits.C261_zeros",
    "PyF.FkUnits.C261_window_of_one"
   ],
   "note": "Defect. No forecast means NaN or LinAlgError of pinv, depending on numba."
  },
  {
   "property": "C262",
   "status": "proved",
   "theorems": [
    "PyF.Insample.C262_pooled",
    "PyF.Insample.C262_by_hour"
   ],
   "note": "The shift served is not exactly optimal (linear interpolation of numpy); an example shows it."
  },
  {
   "property": "C263",
   "status": "proved",
   "theorems": [
    "PyF.Serve.C263_live_equals_backtest"
   ],
   "note": "Composition of C81 and C238."
  },
  {
   "property": "C264",
   "status": "proved",
   "theorems": [
    "PyF.Ols.C264_errors",
    "PyF.Ols.C264_all_rows",
    "PyF.Ols.C264_kinds",
    "PyF.Ols.C264_split"
   ],
   "note": "Assumes that scikit-learn returns a minimiser of its loss."
  },
  {
   "property": "C265",
   "status": "proved",
   "theorems": [
    "PyF.Ols.C265_units",
    "PyF.Ols.C265_units_fitted_rows"
   ],
   "note": "Assumes that scikit-learn returns a minimiser of its loss."
  },
  {
   "property": "C266",
   "status": "proved",
   "theorems": [
    "PyF.Ols.C266_ridge_units"
   ],
   "note": "Defect. The penalties are absolute; features are not normalised."
  },
  {
   "property": "C267",
   "status": "proved",
   "theorems": [
    "PyF.Ols.C267_ridge_target_units",
    "PyF.Ols.C267_least_error"
   ],
   "note": "Leave-one-out errors modelled as those of refits. Existence of such a solver is proved (exists_solver)."
  },
  {
   "property": "C268",
   "status": "proved",
   "theorems": [
    "PyF.Ols.C268_linear",
    "PyF.Ols.C268_ridge"
   ],
   "note": "Assumes that scikit-learn returns a minimiser of its loss."
  },
  {
   "property": "C269",
   "status": "proved",
   "theorems": [
    "PyF.ScenUnits.C269_shift"
   ],
   "note": ""
  },
  {
   "property": "C270",
   "status": "proved",
   "theorems": [
    "PyF.ScenUnits.C270_normalised",
    "PyF.ScenUnits.C270_witness"
   ],
   "note": "Defect."
  },
  {
   "property": "C271",
   "status": "proved",
   "theorems": [
    "PyF.ScenUnits.C271_scenarios",
    "PyF.ScenUnits.C271_online_tree"
   ],
   "note": ""
  },
  {
   "property": "C272",
   "status": "proved",
   "theorems": [
    "PyF.FmtUnits.C272_units",
    "PyF.FmtUnits.C272_functions",
    "PyF.FmtUnits.C272_moving_iff"
   ],
   "note": "Without target normalisers, binned transformers and calendar features."
  },
  {
   "property": "C273",
   "status": "proved",
   "theorems": [
    "PyF.FmtUnits.C273_time_stamps"
   ],
   "note": "Without target normalisers, binned transformers and calendar features."
  },
  {
   "property": "C274",
   "status": "proved",
   "theorems": [
    "PyF.FmtUnits.C274_column_order",
    "PyF.FmtUnits.C274_further_columns"
   ],
   "note": "The last sentence is an example in FmtUnits/Examples.lean."
  },
  {
   "property": "C275",
   "status": "proved",
   "theorems": [
    "PyF.TreeObs.C275_observations",
    "PyF.TreeObs.C275_full",
    "PyF.TreeObs.C275_negative"
   ],
   "note": "Trees as in the scenario tree model; numbers are exact."
  },
  {
   "property": "C276",
   "status": "proved",
   "theorems": [
    "PyF.FmtViews.C276_works_iff",
    "PyF.FmtViews.C276_two_variables",
    "PyF.FmtViews.C276_default",
    "PyF.FmtViews.C276_bars",
    "PyF.FmtViews.C276_one_variable"
   ],
   "note": "Defect. Colours and axes are not modelled."
  },
  {
   "property": "C277",
   "status": "proved",
   "theorems": [
    "PyF.FmtViews.C277_rename"
   ],
   "note": "Defect."
  },
  {
   "property": "C278",
   "status": "proved",
   "theorems": [
    "PyF.LstmNet.C278_sizes"
   ],
   "note": "Training is not modelled: parameters are arbitrary, real numbers exact."
  },
  {
   "property": "C279",
   "status": "proved",
   "theorems": [
    "PyF.LstmNet.C279_band",
    "PyF.LstmNet.C279_no_growth"
   ],
   "note": "Training is not modelled: parameters are arbitrary, real numbers exact."
  },
  {
   "property": "C280",
   "status": "proved",
   "theorems": [
    "PyF.LstmNet.C280_column_order",
    "PyF.LstmNet.C280_series"
   ],
   "note": "Training is not modelled: parameters are arbitrary, real numbers exact."
  },
  {
   "property": "C281",
   "status": "proved",
   "theorems": [
    "PyF.LstmBidir.C281_additive",
    "PyF.LstmBidir.C281_history_bounded",
    "PyF.LstmBidir.C281_no_exogenous",
    "PyF.LstmBidir.C281_reversal",
    "PyF.LstmBidir.C281_exogenous_sensitivity",
    "PyF.LstmBidir.C281_exogenous_one_sided"
   ],
   "note": "Training is not modelled: parameters are arbitrary, real numbers exact. Keras layers are written out."
  },
  {
   "property": "C282",
   "status": "proved",
   "theorems": [
    "PyF.Mapper.C282_outcome",
    "PyF.Mapper.C282_raises",
    "PyF.Mapper.C282_keywords_in_order",
    "PyF.Mapper.C282_keywords_iff"
   ],
   "note": "Defect. Functions without default values; the pool is the sequential map."
  },
  {
   "property": "C283",
   "status": "proved",
   "theorems": [
    "PyF.Pipe.C283_units"
   ],
   "note": "Kind linear; the least-squares routines return minimisers and no feature is a combination of the others. Composes C272 and C265."
  },
  {
   "property": "C284",
   "status": "proved",
   "theorems": [
    "PyF.Pipe.C284_time_stamps"
   ],
   "note": "Composes C273 with the linear forecaster."
  },
  {
   "property": "C285",
   "status": "proved",
   "theorems": [
    "PyF.Pipe.C285_backtest_is_live"
   ],
   "note": "Composes C81 and C24 with the linear forecaster."
  },
  {
   "property": "C286",
   "status": "proved",
   "theorems": [
    "PyF.FfNet.C286_band",
    "PyF.FfNet.C286_no_growth"
   ],
   "note": "Due to the layer normalisation after each hidden layer; real arithmetic."
  },
  {
   "property": "C287",
   "status": "proved",
   "theorems": [
    "PyF.FfNet.C287_selector",
    "PyF.FfNet.C287_skip"
   ],
   "note": "At least one hidden layer; real arithmetic."
  },
  {
   "property": "C288",
   "status": "proved",
   "theorems": [
    "PyF.FfNet.C288_single_layer",
    "PyF.FfNet.C288_sizes",
    "PyF.FfNet.C288_series",
    "PyF.FfNet.C288_dead_units",
    "PyF.FfNet.C288_equal_units"
   ],
   "note": "Real arithmetic."
  },
  {
   "property": "C289",
   "status": "proved",
   "theorems": [
    "PyF.Metrics.C289_rmse",
    "PyF.Metrics.C289_mape",
    "PyF.Metrics.C289_nmae"
   ],
   "note": "Exact arithmetic."
  },
  {
   "property": "C290",
   "status": "proved",
   "theorems": [
    "PyF.Metrics.C290_crps",
    "PyF.Metrics.C290_reliability"
   ],
   "note": "Exact arithmetic."
  },
  {
   "property": "C291",
   "status": "proved",
   "theorems": [
    "PyF.Recon.C291_units_fit",
    "PyF.Recon.C291_units_predict",
    "PyF.Recon.C291_units_scenarios",
    "PyF.Recon.C291_linear",
    "PyF.Recon.C291_bias"
   ],
   "note": "Default method minT with shrunk covariance; the pseudo-inverse is any routine satisfying the Penrose equations."
  },
  {
   "property": "C292",
   "status": "proved",
   "theorems": [
    "PyF.RffKernel.C292_kernel",
    "PyF.RffKernel.C292_accuracy"
   ],
   "note": "The generators of numpy are taken to be ideal: normal and uniform numbers that are independent within a column (and between columns for the accuracy). Measures of Mathlib."
  },
  {
   "property": "C293",
   "status": "proved",
   "theorems": [
    "PyF.Copula.C293_calibration",
    "PyF.Copula.C293_calibrated"
   ],
   "note": "Draws of multivariate_normal are random variables with normal marginals. The noise of standard deviation 1e-9 added last is disregarded."
  },
  {
   "property": "C294",
   "status": "proved",
   "theorems": [
    "PyF.Copula.C294_valid",
    "PyF.Copula.C294_vanilla",
    "PyF.Copula.C294_shrunk"
   ],
   "note": "Defect. The matrix of the method shrunk is not a correlation matrix: the covariance is shrunk towards the mean variance before it is divided by the standard deviations. The graphical lasso is not modelled."
  },
  {
   "property": "C295",
   "status": "proved",
   "theorems": [
    "PyF.Copula.C295_share"
   ],
   "note": "Pairwise independent normal draws; the noise added last is disregarded."
  },
  {
   "property": "C296",
   "status": "proved",
   "theorems": [
    "PyF.RecScen.C296_law",
    "PyF.RecScen.C296_mean"
   ],
   "note": "np.random.choice is taken to be uniform."
  },
  {
   "property": "C297",
   "status": "proved",
   "theorems": [
    "PyF.ICNN.C297_projection",
    "PyF.ICNN.C297_types",
    "PyF.ICNN.C297_convex",
    "PyF.ICNN.C297_monotone",
    "PyF.ICNN.C297_not_stable"
   ],
   "note": "Random numbers are parameters; flax lecun_normal kernels are arbitrary."
  },
  {
   "property": "C298",
   "status": "proved",
   "theorems": [
    "PyF.ICNN.C298_sum_of_weights"
   ],
   "note": "Defect. The comment announces the Lecun scale (one over the root of the number of inputs), the code takes shape[1], the number of outputs."
  },
  {
   "property": "C299",
   "status": "proved",
   "theorems": [
    "PyF.TreePlot.C299_new",
    "PyF.TreePlot.C299_update",
    "PyF.TreePlot.C299_vars"
   ],
   "note": "Defect: plot_vars changes the tree. Points of the lines only; nodes have one value."
  },
  {
   "property": "C300",
   "status": "proved",
   "theorems": [
    "PyF.TreePlot.C300_variables",
    "PyF.TreePlot.C300_lines",
    "PyF.TreePlot.C300_one_step"
   ],
   "note": "Defect: the assertion is the wrong way round."
  },
  {
   "property": "C301",
   "status": "proved",
   "theorems": [
    "PyF.Subsample.C301_same_hour",
    "PyF.Subsample.C301_uniform",
    "PyF.Subsample.C301_total"
   ],
   "note": "The generator state is random with independent draws; the code seeds it with a number."
  },
  {
   "property": "C302",
   "status": "proved",
   "theorems": [
    "PyF.TreeLoss.C302_bounds",
    "PyF.TreeLoss.C302_equal",
    "PyF.TreeLoss.C302_zero"
   ],
   "note": "Exact real numbers; in floating point the exponential can overflow."
  },
  {
   "property": "C303",
   "status": "proved",
   "theorems": [
    "PyF.HW.C303_ambiguity",
    "PyF.HW.C303_constrained",
    "PyF.HW.C303_gap",
    "PyF.HW.C303_forgotten"
   ],
   "note": "Exact rationals; forgetting only for seasons that are not learnt."
  },
  {
   "property": "C304",
   "status": "proved",
   "theorems": [
    "PyF.FfNet.C304_lipschitz",
    "PyF.FfNet.C304_amplified"
   ],
   "note": "Exact real numbers; normalised features."
  },
  {
   "property": "C305",
   "status": "proved",
   "theorems": [
    "PyF.Scenred.C305_expectation",
    "PyF.Scenred.C305_error",
    "PyF.Scenred.C305_cost",
    "PyF.Scenred.C305_tolerance",
    "PyF.Scenred.C305_scale",
    "PyF.Scenred.C305_exceeded"
   ],
   "note": "Defect: the tolerance is documented as relative to the distance of the scenarios to a tree with one scenario."
  },
  {
   "property": "C306",
   "status": "proved",
   "theorems": [
    "PyF.Kfcv.C306_shift",
    "PyF.Kfcv.C306_overlap",
    "PyF.Kfcv.C306_tested_twice"
   ],
   "note": "Defect: windows of consecutive folds overlap."
  },
  {
   "property": "C307",
   "status": "proved",
   "theorems": [
    "PyF.Boot.C307_expectation",
    "PyF.Boot.C307_mean"
   ],
   "note": "The average over all draws Fin N \u2192 Fin n \u2192 Fin n of label positions, uniform; numpy generates them."
  },
  {
   "property": "C308",
   "status": "proved",
   "theorems": [
    "PyF.Quantile.C308_hour",
    "PyF.Quantile.C308_pooled"
   ],
   "note": "Exchangeability is stated as a count over which row is left out; the point forecaster is not refitted."
  },
  {
   "property": "C309",
   "status": "proved",
   "theorems": [
    "PyF.Metrics.C309_half",
    "PyF.Metrics.C309_default"
   ],
   "note": "Defect: the factor two of the score is missing."
  },
  {
   "property": "C310",
   "status": "proved",
   "theorems": [
    "PyF.Kalman.C310_precision",
    "PyF.Kalman.C310_weight"
   ],
   "note": "Defect: consequence of the covariance updated twice (C44)."
  },
  {
   "property": "C311",
   "status": "proved",
   "theorems": [
    "PyF.Tune.C311_chance"
   ],
   "note": "The generator has finitely many equally likely outcomes per trial, as a generator of floats has."
  },
  {
   "property": "C312",
   "status": "proved",
   "theorems": [
    "PyF.FkRun.C312_weights",
    "PyF.FkRun.C312_miss",
    "PyF.FkRun.C312_cap"
   ],
   "note": "With ten experts the cap is about a quarter. Only the fact that the pseudo-inverse of a positive multiple of the identity is its inverse is assumed of np.linalg.pinv."
  },
  {
   "property": "C313",
   "status": "proved",
   "theorems": [
    "PyF.Pmf.C313_total",
    "PyF.Pmf.C313_one",
    "PyF.Pmf.C313_own_iff",
    "PyF.Pmf.C313_all"
   ],
   "note": "Defect: the forest is scored with the array layout of C10 and divides by len(self.q_vect) whatever levels are asked for."
  },
  {
   "property": "C314",
   "status": "proved",
   "theorems": [
    "PyF.FkRun.C314_units"
   ],
   "note": "The experts are assumed to follow the change of units; for FK experts and b = 0 this is C260."
  },
  {
   "property": "C315",
   "status": "proved",
   "theorems": [
    "PyF.Losses.C315_nan",
    "PyF.Losses.C315_floor",
    "PyF.Losses.C315_variance"
   ],
   "note": "kind=maximum_likelihood and distribution=normal, the defaults; network and objective are parameters."
  },
  {
   "property": "C316",
   "status": "proved",
   "theorems": [
    "PyF.CatSel.C316_chosen",
    "PyF.CatSel.C316_short",
    "PyF.CatSel.C316_fewer_rows",
    "PyF.CatSel.C316_recoded",
    "PyF.CatSel.C316_bound",
    "PyF.CatSel.C316_default"
   ],
   "note": "The docstring of the parameter is the reverse of what the code does. cat_encoding itself is not modelled."
  },
  {
   "property": "C317",
   "status": "proved",
   "theorems": [
    "PyF.PipeQ.C317_units",
    "PyF.PipeQ.C317_quantile",
    "PyF.PipeQ.C317_table"
   ],
   "note": "kind=linear, conditional_to_hour=True, no cap on rows; the regression routine returns a best model and no feature is a combination of the others."
  },
  {
   "property": "C318",
   "status": "proved",
   "theorems": [
    "PyF.PipeQ.C318_time_stamps"
   ],
   "note": "No calendar features; conditional_to_hour=True."
  },
  {
   "property": "C319",
   "status": "proved",
   "theorems": [
    "PyF.PipeQ.C319_backtest_is_live"
   ],
   "note": "Continues C285."
  },
  {
   "property": "C320",
   "status": "proved",
   "theorems": [
    "PyF.FmtUnits.C320_order",
    "PyF.FmtUnits.C320_chained"
   ],
   "note": "Formatter.transform as in Fmt (no calendar, holiday or normalisation branches)."
  },
  {
   "property": "C321",
   "status": "proved",
   "theorems": [
    "PyF.Ols.C321_columns_linear",
    "PyF.Ols.C321_columns_ridge",
    "PyF.Ols.C321_rows_linear",
    "PyF.Ols.C321_rows_ridge"
   ],
   "note": "The regression routine is any that returns a best model; ridge with at least two training rows; exact arithmetic."
  },
  {
   "property": "C322",
   "status": "proved",
   "theorems": [
    "PyF.Ols.C322_determined",
    "PyF.Ols.C322_redundant"
   ],
   "note": "Exact arithmetic; the least squares routine is any that returns a minimiser."
  },
  {
   "property": "C323",
   "status": "proved",
   "theorems": [
    "PyF.Ols.C323_more_features",
    "PyF.Ols.C323_no_worse"
   ],
   "note": "The least squares routine is any that returns a minimiser."
  },
  {
   "property": "C324",
   "status": "proved",
   "theorems": [
    "PyF.PipeOrd.C324_linear",
    "PyF.PipeOrd.C324_ridge"
   ],
   "note": "kind linear: no feature is a combination of the others; ridge: at least two training rows. The regression routine returns a best model."
  },
  {
   "property": "C325",
   "status": "proved",
   "theorems": [
    "PyF.LatNet.C325_convex",
    "PyF.LatNet.C325_no_local_minima",
    "PyF.LatNet.C325_bounds"
   ],
   "note": "Real arithmetic; the cost is compared among embeddings a bounded distance apart (all entries)."
  },
  {
   "property": "C326",
   "status": "proved",
   "theorems": [
    "PyF.BinFlat.C326_reducer",
    "PyF.BinFlat.C326_columns",
    "PyF.BinFlat.C326_refused",
    "PyF.BinFlat.C326_latest_missing",
    "PyF.BinFlat.C326_no_gaps",
    "PyF.BinFlat.C326_versus_nested",
    "PyF.BinFlat.C326_stale",
    "PyF.BinFlat.C326_kept_rows"
   ],
   "note": "Defect: the most recent rows are missing, and values after a gap are stale. The aggregation function is arbitrary; comparison with nested=True for lags into the past."
  },
  {
   "property": "C327",
   "status": "proved",
   "theorems": [
    "PyF.BinFlat.C327_right_single_lag",
    "PyF.BinFlat.C327_times_wrong"
   ],
   "note": "Defect with several lags; with one lag better than nested=True (C21)."
  },
  {
   "property": "C328",
   "status": "proved",
   "theorems": [
    "PyF.FoldPic.C328_glyph",
    "PyF.FoldPic.C328_no_skipped",
    "PyF.FoldPic.C328_skipped",
    "PyF.FoldPic.C328_runs"
   ],
   "note": "Exact arithmetic for the quantile of the run lengths; not covered: a mask of skipped rows that changes less than twice, where numpy is asked for the quantile of nothing."
  },
  {
   "property": "C329",
   "status": "proved",
   "theorems": [
    "PyF.NNSeed.C329_draws",
    "PyF.NNSeed.C329_one_epoch",
    "PyF.NNSeed.C329_short",
    "PyF.NNSeed.C329_other_network",
    "PyF.NNSeed.C329_first_epoch"
   ],
   "note": "Defect: saving plots changes the trained network, since the nine rows plotted are drawn from the generator that orders the training rows. Drawing and saving the figures is taken not to raise and not to draw."
  },
  {
   "property": "C330",
   "status": "proved",
   "theorems": [
    "PyF.Tune.C330_more_trials"
   ],
   "note": "With NaN scores the opposite can happen: see C152_nan_wins."
  },
  {
   "property": "C331",
   "status": "proved",
   "theorems": [
    "PyF.HwSearch.C331_budget",
    "PyF.HwSearch.C331_restarts",
    "PyF.HwSearch.C331_stream"
   ],
   "note": "Defect: np.random.seed(0) inside the search makes later random draws of the program repeat. The error of a candidate is a function of its three parameters; the states left behind are not modelled."
  },
  {
   "property": "C332",
   "status": "proved",
   "theorems": [
    "PyF.ScenGen.C332_repeat",
    "PyF.ScenGen.C332_close"
   ],
   "note": "Defect: a fixed random_state does not fix the noise. That the same random_state gives the same samples of the copula is taken from scipy. Exact arithmetic."
  },
  {
   "property": "C333",
   "status": "proved",
   "theorems": [
    "PyF.Brutal.C333_affine",
    "PyF.Brutal.C333_constant",
    "PyF.Brutal.C333_short",
    "PyF.Brutal.C333_default",
    "PyF.Brutal.C333_choice"
   ],
   "note": "Defect: there is no intercept, so a level is only reached as the iterations grow. Exact arithmetic with NaN as a value; one target; what numba does with NaN under fastmath is not modelled; the quantile cuts are a parameter that depends on the features only."
  },
  {
   "property": "C334",
   "status": "proved",
   "theorems": [
    "PyF.EsFreq.C334_three_rows",
    "PyF.EsFreq.C334_equal_steps",
    "PyF.EsFreq.C334_gap",
    "PyF.EsFreq.C334_gap_fit"
   ],
   "note": "Defect: infer_freq finds nothing for steps that differ and asfreq(None) falls back to days. pd.infer_freq, pd.date_range and reindexing are modelled after pandas 2.2; steps whose smallest is a number of days, business hours and decreasing times are not."
  },
  {
   "property": "C335",
   "status": "proved",
   "theorems": [
    "PyF.Brutal.C335_units",
    "PyF.Brutal.C335_beyond"
   ],
   "note": "Exact arithmetic with NaN as a value; one target; the cuts are the linearly interpolated quantiles of np.quantile."
  },
  {
   "property": "C336",
   "status": "proved",
   "theorems": [
    "PyF.Brutal.C336_boot",
    "PyF.Brutal.C336_lower",
    "PyF.Brutal.C336_rise"
   ],
   "note": "Exact arithmetic; one target. The growth is shown by two rows with equal features and targets 1 and -1 of which only the first is drawn."
  },
  {
   "property": "C337",
   "status": "proved",
   "theorems": [
    "PyF.Brutal.C337_drawn",
    "PyF.Brutal.C337_spread"
   ],
   "note": "Defect. Exact arithmetic with NaN as a value and np.argmin taking the first NaN; one target; what numba does with NaN under fastmath is not modelled."
  },
  {
   "property": "C338",
   "status": "proved",
   "theorems": [
    "PyF.FkRun.C338_noise",
    "PyF.FkRun.C338_singular",
    "PyF.FkRun.C338_two",
    "PyF.FkRun.C338_replaced"
   ],
   "note": "Defect. Exact real arithmetic, a matrix with NaN is NaN as a whole; singularity is proved for the first call (later histories start with weights that need not sum to one)."
  },
  {
   "property": "C339",
   "status": "proved",
   "theorems": [
    "PyF.FkRun.C339_step",
    "PyF.FkRun.C339_psd"
   ],
   "note": "Exact real arithmetic. Of np.linalg.pinv only two properties of the pseudo-inverse are assumed (symmetry, A+ A A+ = A+); its numerical cut-off is not modelled."
  },
  {
   "property": "C340",
   "status": "proved",
   "theorems": [
    "PyF.FkUnits.C340_psd",
    "PyF.FkUnits.C340_step"
   ],
   "note": "Exact real arithmetic. Of np.linalg.pinv only symmetry and A+ A A+ = A+ are assumed; its numerical cut-off is not modelled. Once the noise matrices hold NaN there is no filter (C261)."
  }
 ]
}
