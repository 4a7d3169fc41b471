{
 "claims": [
  {
   "property": "C01",
   "status": "proved",
   "theorems": [
    "FinML.C01_timeBars_clock"
   ],
   "note": "Clock grid facts for all sorted non-empty timestamp lists and positive intervals in exact integer nanoseconds. The clock as computed in float64 is C86: for present-day nanosecond timestamps the extra last tick does not occur."
  },
  {
   "property": "C02",
   "status": "proved",
   "theorems": [
    "FinML.C02_timeBars_assignment",
    "FinML.C02_timeBars_unique_bar",
    "FinML.C02_timeBars_boundary_trade_dropped"
   ],
   "note": "Assignment is an iff; the boundary case (first trade exactly on a boundary is in no bar) is proved as stated in the property. Exact arithmetic; with float64 rounding see C86."
  },
  {
   "property": "C03",
   "status": "proved",
   "theorems": [
    "FinML.C03_tickBars_closed_form",
    "FinML.C03_tickBars_spacing",
    "FinML.C03_tickBars_threshold_one"
   ],
   "note": "Closed form for every trade count and threshold; threshold 1 handled separately."
  },
  {
   "property": "C04",
   "status": "proved",
   "theorems": [
    "FinML.C04_volumeBars_first_crossings",
    "FinML.C04_volumeBars_index_form"
   ],
   "note": "Relational first-crossing specification, shown to determine the output uniquely."
  },
  {
   "property": "C05",
   "status": "proved",
   "theorems": [
    "FinML.C05_dollarBars_closes",
    "FinML.C05_dollarBars_budget",
    "FinML.C05_dollarBars_small_bars_exist"
   ],
   "note": "Budget identity for every prefix; a witness shows individual bars may trade less than the threshold."
  },
  {
   "property": "C06",
   "status": "proved",
   "theorems": [
    "FinML.C06_cusumBars",
    "FinML.C06_all_nan",
    "FinML.C06_length_check_gap"
   ],
   "note": "Closes characterised by max/min suffix sums of log returns; also shows the chained length check accepts some mismatched inputs."
  },
  {
   "property": "C07",
   "status": "proved",
   "theorems": [
    "FinML.C07_bars_partition",
    "FinML.C07_bars_conserve"
   ],
   "note": "Partition and conservation of volume, count and dollars."
  },
  {
   "property": "C08",
   "status": "proved",
   "theorems": [
    "FinML.C08_ohlcv_rows",
    "FinML.C08_ohlcv_ordering"
   ],
   "note": "Every non-empty row is the OHLCV summary of its trades; median is the statistical median."
  },
  {
   "property": "C09",
   "status": "proved",
   "theorems": [
    "FinML.C09_ohlcv_no_lookahead",
    "FinML.C09_tickBars_no_lookahead",
    "FinML.C09_volumeBars_no_lookahead",
    "FinML.C09_dollarBars_no_lookahead"
   ],
   "note": "Tick, volume, dollar indexers and OHLCV rows are prefix-stable."
  },
  {
   "property": "C10",
   "status": "proved",
   "theorems": [
    "FinML.C10_directional_rows",
    "FinML.C10_directional_split",
    "FinML.C10_directional_total"
   ],
   "note": "Buy and sell columns and totals."
  },
  {
   "property": "C11",
   "status": "partial",
   "theorems": [
    "FinML.C11_imbalance_extremes_partial",
    "FinML.C11_extremes_iff",
    "FinML.C11_sentinel_leaks",
    "FinML.C11_no_signed_trades"
   ],
   "note": "Extremes proved when the true maximum is >= -1e9 and the true minimum is <= 1e9; the code's +-1e9 sentinels leak otherwise (C11_sentinel_leaks) and for bars without signed trades. In every case, without that hypothesis: the reported extremes are max(-1e9, .) and min(1e9, .) of the running imbalances (C11_extremes_iff)."
  },
  {
   "property": "C12",
   "status": "partial",
   "theorems": [
    "FinML.C12_directional_no_lookahead_partial",
    "FinML.C12_first_bar_looks_ahead"
   ],
   "note": "Everything except the spread columns of a bar starting at trade 0, where index -1 wraps to the last trade (violation proved)."
  },
  {
   "property": "C13",
   "status": "proved",
   "theorems": [
    "FinML.C13_footprint_levels",
    "FinML.C13_footprint_conserves",
    "FinML.C13_footprint_accepts_ohlcv",
    "FinML.C13_footprint_rejects"
   ],
   "note": "Level map, conservation of volume and ticks per side, acceptance of OHLCV's own lows/highs and rejection of out-of-range prices."
  },
  {
   "property": "C14",
   "status": "proved",
   "theorems": [
    "FinML.C14_imbalance_flags",
    "FinML.C14_longest_run",
    "FinML.C14_footprint_run",
    "FinML.C14_imbalance_counts"
   ],
   "note": "Flags and longest run in full; in addition the flag count is exact below 65536 levels (uint16 wrap above, characterised in C94)."
  },
  {
   "property": "C15",
   "status": "partial",
   "theorems": [
    "FinML.C15_cot_level",
    "FinML.C15_gini_range",
    "FinML.C15_skew_always_zero"
   ],
   "note": "Point of control and Gini proved; the volume-profile skew column is 0 for every input (violation C15_skew_always_zero)."
  },
  {
   "property": "C16",
   "status": "proved",
   "theorems": [
    "FinML.C16_tick_rule",
    "FinML.C16_direction_unique",
    "FinML.C16_tick_rule_causal"
   ],
   "note": "Tick rule: side is the direction of the latest price change larger than epsilon, 0 before any; causal."
  },
  {
   "property": "C17",
   "status": "proved",
   "theorems": [
    "FinML.C17_merge_blocks",
    "FinML.C17_merge_conserves",
    "FinML.C17_merge_conserves_price",
    "FinML.C17_merge_maximal",
    "FinML.C17_merge_ordered"
   ],
   "note": "Output is the input grouped in maximal consecutive blocks; totals per time, side and (on a grid) price kept."
  },
  {
   "property": "C18",
   "status": "partial",
   "theorems": [
    "FinML.C18_sort_rows",
    "FinML.C18_sort_ordered_partial",
    "FinML.C18_side_detached",
    "FinML.C18_inferred_first_side_zero",
    "FinML.C18_preprocess",
    "FinML.C18_fast_sort",
    "FinML.C18_resolution_leaves_mergeable"
   ],
   "note": "Order, permutation/dedup and end-to-end conservation proved; sides stay attached only when the sort is the identity (C18_side_detached shows is_buyer_maker is not permuted)."
  },
  {
   "property": "C19",
   "status": "proved",
   "theorems": [
    "FinML.C19_infer_unit",
    "FinML.C19_infer_recovers",
    "FinML.C19_convert",
    "FinML.C19_convert_overflow",
    "FinML.C19_resolution",
    "FinML.C19_floor_laws",
    "FinML.C19_skip_harmless"
   ],
   "note": "Unit bands, exact conversion within int64 (overflow witness otherwise), resolution = floor, laws of floor."
  },
  {
   "property": "C20",
   "status": "partial",
   "theorems": [
    "FinML.C20_save_history",
    "FinML.C20_load_range",
    "FinML.C20_load_month",
    "FinML.C20_append_hides_rows",
    "FinML.C20_unsorted_frame_hides_rows"
   ],
   "note": "Round trip, range loading and month loading proved for saves in overwrite mode of time-sorted frames; append mode keeps stale metadata and unsorted frames hide rows from range loads (violations proved)."
  },
  {
   "property": "C21",
   "status": "proved",
   "theorems": [
    "FinML.C21_ingest_outcome",
    "FinML.C21_schedule_independent",
    "FinML.C21_same_month_races",
    "FinML.C21_writer_stops"
   ],
   "note": "Outcome of the queue/writer protocol for every schedule; schedule independence when months are distinct, with a proved race when two files carry the same month."
  },
  {
   "property": "C22",
   "status": "proved",
   "theorems": [
    "FinML.C22_month_range",
    "FinML.C22_fuel_irrelevant",
    "FinML.C22_parse_ym",
    "FinML.C22_parse_valid",
    "FinML.C22_ym_order",
    "FinML.C22_yymm_not_parsed"
   ],
   "note": "Range, parsing and order facts; the two-digit rendering is shown not to be an input format."
  },
  {
   "property": "C23",
   "status": "proved",
   "theorems": [
    "FinML.C23_resample",
    "FinML.C23_weighted_median",
    "FinML.C23_two_steps",
    "FinML.C23_matches_trades",
    "FinML.C23_median_two_steps_differ",
    "FinML.C23_stale_open",
    "FinML.C23_shifted_window"
   ],
   "note": "Aggregation, weighted median and the two-step law for all columns but the median (which does not compose, witness). Also proved: agreement with the trades when no fine bar is empty, and two findings: a leading empty bar gives a stale open, and close-labelled bars are grouped by floor, shifting the window."
  },
  {
   "property": "C24",
   "status": "partial",
   "theorems": [
    "FinML.C24_first_touch_partial",
    "FinML.C24_call",
    "FinML.C24_accepts",
    "FinML.C24_skipped_event_undefined",
    "FinML.C24_short_window_return",
    "FinML.C24_minus_inf_bottom"
   ],
   "note": "First passage, return and label proved for every event, path, side and (finite, infinite or NaN) multiplier. Not true as stated: an event with no bar in its window has an uninitialised touch index (C24_skipped_event_undefined), a window shorter than the minimum holding time reports return 0 (C24_short_window_return), and the documented -inf for the bottom barrier touches at once (C24_minus_inf_bottom)."
  },
  {
   "property": "C25",
   "status": "proved",
   "theorems": [
    "FinML.C25_no_look_ahead",
    "FinML.C25_no_look_back"
   ],
   "note": "Two histories sharing the bars up to the vertical barrier time give the same result; prices before the event are irrelevant too."
  },
  {
   "property": "C26",
   "status": "partial",
   "theorems": [
    "FinML.C26_ratio_partial",
    "FinML.C26_ratio_exact",
    "FinML.C26_touch_at_vertical"
   ],
   "note": "Ratio in [0,1], 1 on a horizontal touch before the vertical bar, below 1 without a touch, for finite positive barriers. A touch exactly at the vertical bar gives a ratio in (1/2,1] that need not be 1 (C26_touch_at_vertical). The exact ratio when no barrier is hit before the vertical bar is given from the largest progress to either barrier (C26_ratio_exact)."
  },
  {
   "property": "C27",
   "status": "partial",
   "theorems": [
    "FinML.C27_concurrency",
    "FinML.C27_weight_is_mean",
    "FinML.C27_range_partial",
    "FinML.C27_order_independent",
    "FinML.C27_counter_wraps"
   ],
   "note": "Exact for fewer than 32768 labels; with 32768 labels open at one bar the 16-bit counter wraps and weights become negative (C27_counter_wraps). Order independence and the wrapped count hold without a bound."
  },
  {
   "property": "C28",
   "status": "proved",
   "theorems": [
    "FinML.C28_raw",
    "FinML.C28_normalised",
    "FinML.C28_isolated_label"
   ],
   "note": "Formula, sign, normalisation and failure; an isolated label's weight telescopes to the absolute log return from the bar before the event."
  },
  {
   "property": "C29",
   "status": "partial",
   "theorems": [
    "FinML.C29_closed_form",
    "FinML.C29_decay_partial",
    "FinML.C29_oldest",
    "FinML.C29_oldest_witness",
    "FinML.C29_erased",
    "FinML.C29_erased_count",
    "FinML.C29_minus_one"
   ],
   "note": "Closed form, monotonicity, range, newest 1, no decay at 1, erased prefix for negative values. Not true as stated: the oldest weight is last_weight + (1-last_weight)*u0/S (C29_oldest, C29_oldest_witness) and last_weight=-1 divides by zero (C29_minus_one)."
  },
  {
   "property": "C30",
   "status": "proved",
   "theorems": [
    "FinML.C30_equal_classes",
    "FinML.C30_total_preserved",
    "FinML.C30_zero_class_loses_total",
    "FinML.C30_within_class"
   ],
   "note": "Class totals equal total/number of classes; grand total preserved when all classes are positive; a zero-weight class loses its share (C30_zero_class_loses_total)."
  },
  {
   "property": "C31",
   "status": "proved",
   "theorems": [
    "FinML.C31_cusumFilter",
    "FinML.C31_cusumFilter_errors",
    "FinML.C31_cusumFilter_causal"
   ],
   "note": "CUSUM event filter: events are first crossings, errors and causality."
  },
  {
   "property": "C32",
   "status": "proved",
   "theorems": [
    "FinML.C32_ewma_closed_form",
    "FinML.C32_ewma_bad_span",
    "FinML.C32_ewma_within_history",
    "FinML.C32_ewma_causal"
   ],
   "note": "Closed form over the whole history, bounds by any bounds of the history, prefix causality, rejection of span 0; exact arithmetic, finite inputs."
  },
  {
   "property": "C33",
   "status": "proved",
   "theorems": [
    "FinML.C33_sma_mean",
    "FinML.C33_vwap_distance_window",
    "FinML.C33_vwap_first_value_not_log",
    "FinML.C33_flow_acceleration_window",
    "FinML.C33_flow_acceleration_short",
    "FinML.C33_vpin_window",
    "FinML.C33_vpin_nan",
    "FinML.C33_stoch_extremes",
    "FinML.C33_stoch_window",
    "FinML.C33_bollinger_window"
   ],
   "note": "Moving average, VWAP distance, flow acceleration, VPIN, stochastic extremes and Bollinger bands equal the from-scratch window value at every position; also proved: the first VWAP distance ignores is_log. Exact arithmetic (float drift of rolling sums is outside the model)."
  },
  {
   "property": "C34",
   "status": "partial",
   "theorems": [
    "FinML.C34_rsi_formula",
    "FinML.C34_rsi_range",
    "FinML.C34_rsi_no_loss_is_nan",
    "FinML.C34_stoch_range",
    "FinML.C34_stochK_feature_out_of_range",
    "FinML.C34_stochK_feature_formula",
    "FinML.C34_di_range",
    "FinML.C34_directional_movement_le_true_range",
    "FinML.C34_adx_range",
    "FinML.C34_adx_formula",
    "FinML.C34_vpin_range",
    "FinML.C34_correlation_range"
   ],
   "note": "RSI, %K core, DI, ADX, VPIN and correlation ranges proved for all inputs, with closed forms for RSI and ADX. The StochK transform passes (high, low, close) where (close, low, high) is expected: counterexample above 100 proved. RSI with no loss is NaN, proved."
  },
  {
   "property": "C35",
   "status": "partial",
   "theorems": [
    "FinML.C35_sma",
    "FinML.C35_zscore",
    "FinML.C35_burst_ratio",
    "FinML.C35_realized_vol",
    "FinML.C35_rolling_variance",
    "FinML.C35_pct_change",
    "FinML.C35_roc",
    "FinML.C35_parkinson",
    "FinML.C35_rsi",
    "FinML.C35_stoch",
    "FinML.C35_adx",
    "FinML.C35_vwap_distance",
    "FinML.C35_bollinger",
    "FinML.C35_flow_acceleration",
    "FinML.C35_vpin",
    "FinML.C35_correlation",
    "FinML.C35_ewms",
    "FinML.C35_ewmst_mean0",
    "FinML.C35_ewmst",
    "FinML.C35_true_range",
    "FinML.C35_atr",
    "FinML.C35_variance_ratio_partial",
    "FinML.C35_variance_ratio_exact",
    "FinML.C35_variance_ratio_not_causal"
   ],
   "note": "Prefix causality proved for every indicator in feature/core except the variance ratio, where it holds for series of at least w+4 bars and fails below (counterexample proved); C35_variance_ratio_exact states exactly when the variance ratio is causal."
  },
  {
   "property": "C36",
   "status": "proved",
   "theorems": [
    "FinML.C36_bad_window",
    "FinML.C36_uses_last_old_sample",
    "FinML.C36_missing_when_none_old",
    "FinML.C36_causal"
   ],
   "note": "For ascending timestamps: value against the last sample at most t-window, NaN iff none exists, prefix causality."
  },
  {
   "property": "C37",
   "status": "partial",
   "theorems": [
    "FinML.C37_pearson_partial",
    "FinML.C37_hard_coded_exact",
    "FinML.C37_pearson_missing_partial",
    "FinML.C37_missing_current",
    "FinML.C37_special_case_not_pearson"
   ],
   "note": "Pearson (with Cauchy-Schwarz: the clamp never acts) outside positions 4-9 or when prices do not rise strictly; inside, the hard-coded +-1 is proved wrong by a counterexample with negative covariance. The value at the hard-coded positions is determined in every case (C37_hard_coded_exact)."
  },
  {
   "property": "C38",
   "status": "proved",
   "theorems": [
    "FinML.C38_rolling_variance_exact",
    "FinML.C38_rolling_variance_nonneg",
    "FinML.C38_ewms_exact",
    "FinML.C38_ewms_short_span",
    "FinML.C38_variance_ratio_random_walk",
    "FinML.C38_variance_ratio_direction",
    "FinML.C38_variance_ratio_reversed",
    "FinML.C38_variance_ratio_formula",
    "FinML.C38_variance_ratio_returns",
    "FinML.C38_variance_ratio_four_bar",
    "FinML.C38_true_range_exact",
    "FinML.C38_true_range_edges"
   ],
   "note": "Rolling variance = two-pass variance, non-negative, zero iff constant; ewms = unbiased weighted deviation; variance ratio formula (1 for a random walk, documentation says 0.25); true range = max(h,c)-min(l,c)."
  },
  {
   "property": "C39",
   "status": "proved",
   "theorems": [
    "FinML.C39_bucket_closed_form",
    "FinML.C39_bucket_conserves_volume",
    "FinML.C39_representatives_ascending",
    "FinML.C39_level_near_its_representative",
    "FinML.C39_bucket_count",
    "FinML.C39_bucket_count_exceeded",
    "FinML.C39_representative_above_range",
    "FinML.C39_align_exact",
    "FinML.C39_duplicate_levels_lose_volume",
    "FinML.C39_window_exact",
    "FinML.C39_window_fallback"
   ],
   "note": "Complete closed form of bucketing (width, count, representatives, volumes), conservation, ascending representatives, distance to the representative; exact per-tick sums of the aggregation for bars with distinct levels. Also proved: up to twice the requested buckets, representatives above the price range, duplicate levels lose volume. int32/float32 storage is outside the model."
  },
  {
   "property": "C40",
   "status": "proved",
   "theorems": [
    "FinML.C40_poc_is_first_maximum",
    "FinML.C40_loop_terminates",
    "FinML.C40_value_area_greedy",
    "FinML.C40_value_area_covers",
    "FinML.C40_value_area_tight",
    "FinML.C40_share_above_poc"
   ],
   "note": "First maximum; termination (pass bound never reached); the interval is the greedy two-level extension stopped at the first one that reaches the share; LVA<=POC<=HVA; coverage and tightness; share above POC. Hypotheses: non-negative volumes, share at most 100."
  },
  {
   "property": "C41",
   "status": "partial",
   "theorems": [
    "FinML.C41_in_bounds_iff",
    "FinML.C41_out_of_bounds_iff",
    "FinML.C41_out_of_bounds",
    "FinML.C41_filled_from_start_partial",
    "FinML.C41_trim",
    "FinML.C41_developing_is_cumulative"
   ],
   "note": "Violated: the call returns iff the query selects a bar and starts at or before the first bar, and writes outside its arrays iff it selects a bar and leaves an earlier one out (both iffs and a counterexample proved; an empty selection raises). For queries from the first bar every position is filled with the cumulative profile. Trimming of empty outer levels is characterised."
  },
  {
   "property": "C42",
   "status": "proved",
   "theorems": [
    "FinML.C42_iterations_write_disjoint",
    "FinML.C42_every_position_once",
    "FinML.C42_schedule_independent",
    "FinML.C42_rolling_is_windowed",
    "FinML.C42_developing_error_iff",
    "FinML.C42_edge_cases"
   ],
   "note": "Disjoint writes, each position exactly once, independence of the order of element writes, equality with the windowed test; warm-up at least 2 (smaller warm-ups divide by zero in the code)."
  },
  {
   "property": "C43",
   "status": "proved",
   "theorems": [
    "FinML.C43_cues_of_calendar",
    "FinML.C43_next_day",
    "FinML.C43_weekly_period",
    "FinML.C43_ranges",
    "FinML.C43_phase_periodic",
    "FinML.C43_phase_faithful",
    "FinML.C43_phase_no_jump"
   ],
   "note": "Cues from the calendar decomposition of every integer timestamp, weekday step, weekly period, ranges. The sine/cosine functions are parameters."
  },
  {
   "property": "C44",
   "status": "proved",
   "theorems": [
    "FinML.C44_feature_graph_edges",
    "FinML.C44_topological_build_succeeds",
    "FinML.C44_pass_bound_irrelevant",
    "FinML.C44_sort_nodup_subset",
    "FinML.C44_dependencies_come_first",
    "FinML.C44_omits_exactly_behind_cycles",
    "FinML.C44_complete_iff_acyclic",
    "FinML.C44_sort_is_permutation",
    "FinML.C44_construction_well_formed",
    "FinML.C44_kit_order_is_permutation",
    "FinML.C44_kit_dependencies_first",
    "FinML.C44_each_feature_once",
    "FinML.C44_duplicate_name_dropped",
    "FinML.C44_cycle_is_silent",
    "FinML.C44_topological_sort"
   ],
   "note": "Kahn's sort as coded: output has no repeats, dependencies first, omits exactly the nodes behind a cycle, is a permutation iff acyclic, for every set iteration order. Every feature is returned exactly once when feature names are distinct. Proved deviations: duplicate names drop features, and cycles give an incomplete order without an error."
  },
  {
   "property": "C45",
   "status": "partial",
   "theorems": [
    "FinML.C45_dependent_features_agree",
    "FinML.C45_build_equals_standalone",
    "FinML.C45_build_columns",
    "FinML.C45_order_irrelevant",
    "FinML.C45_names_and_inputs",
    "FinML.C45_shared_output_name_gives_wrong_values",
    "FinML.C45_compose_ignores_previous_step",
    "FinML.C45_output_named_like_input_not_computed",
    "FinML.C45_renamed_feature_not_found",
    "FinML.C45_topo_order_misses_multi_output"
   ],
   "note": "Cached build equals standalone evaluation, and does not depend on feature order, when output names are clean (no name shared by different computations or by an input column). Dependent features agree under a consistent reading of names. Missing: arbitrary names, where the property is false; five witnesses are proved."
  },
  {
   "property": "C46",
   "status": "partial",
   "theorems": [
    "FinML.C46_values_round_trip",
    "FinML.C46_operation_names_round_trip",
    "FinML.C46_reload_same_computation",
    "FinML.C46_reload_kit",
    "FinML.C46_second_save_identical",
    "FinML.C46_unfaithful_classes",
    "FinML.C46_integer_text",
    "FinML.C46_time_difference_flag",
    "FinML.C46_default_periods",
    "FinML.C46_returnT_window_lost",
    "FinML.C46_shallow_reload",
    "FinML.C46_ema_adjust_lost",
    "FinML.C46_offset_window_not_loaded",
    "FinML.C46_custom_function_replaced",
    "FinML.C46_custom_lag_silently_changed",
    "FinML.C46_tuple_becomes_list",
    "FinML.C46_reload_breaks_dependent_feature"
   ],
   "note": "Every savable expression reloads to the same computation, kit and names are kept, a second save is identical. Missing: ReturnT, PctChange, EWMST, BarRate, ema with adjust=False, user functions, tuple arguments and applied output names, where the property is false; witnesses are proved."
  },
  {
   "property": "C47",
   "status": "partial",
   "theorems": [
    "FinML.C47_build_history",
    "FinML.C47_metadata",
    "FinML.C47_read_range",
    "FinML.C47_end_of_day",
    "FinML.C47_process_all",
    "FinML.C47_time_range",
    "FinML.C47_boundary_duplicate",
    "FinML.C47_daily_drops_end_day",
    "FinML.C47_plain_key_loses_bars"
   ],
   "note": "Build histories, range queries, batch processing and the reported time range proved. Violations proved: duplicated bar at a month boundary, end date dropped at daily frequency, plain month keys lose the bars."
  },
  {
   "property": "C48",
   "status": "proved",
   "theorems": [
    "FinML.C48_integrity_report",
    "FinML.C48_data_ok"
   ],
   "note": "Missing percentage counts the absent ids exactly; discontinuities and the data_ok flag characterised."
  },
  {
   "property": "C49",
   "status": "partial",
   "theorems": [
    "FinML.C49_spread_partial",
    "FinML.C49_spread_exact",
    "FinML.C49_one_trade_bar",
    "FinML.C49_mean_le_max",
    "FinML.C49_mean_above_max"
   ],
   "note": "Proved for bars with >= 2 trades preceded by a trade; violations proved for one-trade bars and (C12) bars starting at trade 0. The value for every bar length is given by C49_spread_exact."
  },
  {
   "property": "C50",
   "status": "proved",
   "theorems": [
    "FinML.C50_median3",
    "FinML.C50_check_timestamps_order"
   ],
   "note": "median3 is the statistical median; check_timestamps_order decides sortedness."
  },
  {
   "property": "C51",
   "status": "proved",
   "theorems": [
    "FinML.C51_crash_isolation",
    "FinML.C51_crash_not_atomic",
    "FinML.C51_orphan_recovery",
    "FinML.C51_empty_frame_deletes",
    "FinML.C51_empty_frame_otherwise"
   ],
   "note": "Isolation and recovery proved for every crash point; atomicity is violated (witness C51_crash_not_atomic)."
  },
  {
   "property": "C52",
   "status": "partial",
   "theorems": [
    "FinML.C52_checksum_partial",
    "FinML.C52_missing_checksum_passes"
   ],
   "note": "Exact when a digest is available; a missing or unreadable checksum file passes every archive (violation proved)."
  },
  {
   "property": "C53",
   "status": "partial",
   "theorems": [
    "FinML.C53_kept_events",
    "FinML.C53_no_events",
    "FinML.C53_full_window_partial",
    "FinML.C53_truncated_window",
    "FinML.C53_large_vertical_fails"
   ],
   "note": "Kept rows characterised exactly. The full-window claim holds for events at trade times; between trades the window may be truncated (C53_truncated_window), and a very large vertical barrier drops every event (C53_large_vertical_fails)."
  },
  {
   "property": "C54",
   "status": "proved",
   "theorems": [
    "FinML.C54_mean_one",
    "FinML.C54_balanced"
   ],
   "note": "Mean 1, proportionality and class shares, for every combination of optional inputs."
  },
  {
   "property": "C55",
   "status": "partial",
   "theorems": [
    "FinML.C55_ewmst_mean0_exact",
    "FinML.C55_floor",
    "FinML.C55_ewmst_exact",
    "FinML.C55_ewmst_nan_counts_as_zero",
    "FinML.C55_ewmst_nan_not_ignored"
   ],
   "note": "Weighted closed forms for both; floor; ewmst gives missing observations the value 0 with full weight (proved equal to zero-filling, with a counterexample)."
  },
  {
   "property": "C56",
   "status": "partial",
   "theorems": [
    "FinML.C56_atr_sma",
    "FinML.C56_atr_ema_step",
    "FinML.C56_atr_ema_never_recovers",
    "FinML.C56_atr_index_two_special",
    "FinML.C56_atr_normalize",
    "FinML.C56_realized_vol",
    "FinML.C56_zscore",
    "FinML.C56_burst_ratio",
    "FinML.C56_pct_change_roc",
    "FinML.C56_parkinson"
   ],
   "note": "Formulas proved for all; proved deviations: exponential ATR is NaN for ever after one missing true range, simple ATR special-cases index 2."
  },
  {
   "property": "C57",
   "status": "proved",
   "theorems": [
    "FinML.C57_rolling_exact",
    "FinML.C57_rolling_causal",
    "FinML.C57_missing_iff_zero"
   ],
   "note": "Exact window and prefix causality for (strictly) ascending timestamps; missing iff the tick count is zero."
  },
  {
   "property": "C58",
   "status": "partial",
   "theorems": [
    "FinML.C58_statistic_is_maximum_partial",
    "FinML.C58_no_variance",
    "FinML.C58_skips_first_and_last_start",
    "FinML.C58_variance_estimate",
    "FinML.C58_causal_partial",
    "FinML.C58_not_causal_at_warmup"
   ],
   "note": "Maximum over start indices 1..t-2 with the first maximiser's critical value; counterexample: starts 0 and t-1 are skipped; causality for series of at least warm-up+2 observations with a counterexample below; variance estimate formula."
  },
  {
   "property": "C59",
   "status": "partial",
   "theorems": [
    "FinML.C59_rows",
    "FinML.C59_length_checked",
    "FinML.C59_relative_sizes",
    "FinML.C59_missing_rows",
    "FinML.C59_percentile",
    "FinML.C59_block_share",
    "FinML.C59_gini",
    "FinML.C59_relative_to_block_threshold",
    "FinML.C59_missing_theta_zero_share"
   ],
   "note": "Slices, block share, percentile interpolation, concentration and missing rows proved. Missing: sizes relative to theta as documented; the code divides by theta*theta_mult, and a missing theta gives block share 0 instead of missing. Both deviations are proved."
  },
  {
   "property": "C60",
   "status": "partial",
   "theorems": [
    "FinML.C60_tick_unique",
    "FinML.C60_tick_exact_partial",
    "FinML.C60_grid_step",
    "FinML.C60_order_free",
    "FinML.C60_degenerate",
    "FinML.C60_quarter_tick_missed",
    "FinML.C60_half_tick_zero",
    "FinML.C60_estimate_exact",
    "FinML.C60_decade_exists"
   ],
   "note": "Exact on every decimal grid whose smallest gap is below ten steps, order free, degenerate cases. Missing: other grids, where the estimate is wrong: a quarter tick gives 0.1 and prices 1.5, 2.5 give 0. Both are proved. What the estimate is on every price list is given by C60_estimate_exact: the tick of the prices rounded to the decade of their smallest gap, or 0 if that rounding leaves one price."
  },
  {
   "property": "C61",
   "status": "partial",
   "theorems": [
    "FinML.C61_gaps_exact",
    "FinML.C61_gap_reported_iff",
    "FinML.C61_no_gap_coverage",
    "FinML.C61_gaps_per_month",
    "FinML.C61_boundary_gap_missed",
    "FinML.C61_summary_none_iff",
    "FinML.C61_summary_entries",
    "FinML.C61_flag_of_last_save",
    "FinML.C61_append_clears_flag",
    "FinML.C61_unknown_month"
   ],
   "note": "Exact gap report, coverage, per-month entries, summary and flag theorems for overwriting saves. Missing: gaps across month ends are never reported and appending a clean part clears the flag of a month; both are proved."
  },
  {
   "property": "C62",
   "status": "proved",
   "theorems": [
    "FinML.C62_view_exact",
    "FinML.C62_range_checked",
    "FinML.C62_split",
    "FinML.C62_shared_bound_repeats"
   ],
   "note": "View equals the filter on the closed interval. Proved remark: two views sharing a bound both contain the trades at that instant."
  },
  {
   "property": "C63",
   "status": "partial",
   "theorems": [
    "FinML.C63_only_midnight",
    "FinML.C63_gap_formula",
    "FinML.C63_gap_single_bar_partial",
    "FinML.C63_two_bars_zero",
    "FinML.C63_look_ahead",
    "FinML.C63_not_documented_gap"
   ],
   "note": "Values only at midnight, exact formula computed, and the documented gap when midnight is the only bar of its day. The documented statement is false otherwise: zero with two bars per day, look-ahead to the second to last bar of the day; proved."
  },
  {
   "property": "C64",
   "status": "partial",
   "theorems": [
    "FinML.C64_causal",
    "FinML.C64_signal_iff",
    "FinML.C64_exclusive",
    "FinML.C64_four_bars_not_an_hour",
    "FinML.C64_output_iff",
    "FinML.C64_output_distinct_partial",
    "FinML.C64_shared_timestamps"
   ],
   "note": "Iff for the condition of each row, exclusion, causality; with distinct timestamps this is the output. Missing: rows with equal timestamps receive each other's signals, so a row can get a later row's signal and both signals at once (C64_shared_timestamps). The opening range is the first four bars whatever their length, not the first hour; proved."
  },
  {
   "property": "C65",
   "status": "partial",
   "theorems": [
    "FinML.C65_rate_formula",
    "FinML.C65_positive_causal",
    "FinML.C65_grid_overcount",
    "FinML.C65_name_collision"
   ],
   "note": "Exact count formula, positivity, causality. Missing: on a regular grid the closed window counts one bar too many, and windows of whole minutes share one output name; both proved."
  },
  {
   "property": "C66",
   "status": "proved",
   "theorems": [
    "FinML.C66_ratios",
    "FinML.C66_flat_bar",
    "FinML.C66_drift"
   ],
   "note": "Ranges, sum, flat bar, drift sign."
  },
  {
   "property": "C67",
   "status": "partial",
   "theorems": [
    "FinML.C67_flag_iff",
    "FinML.C67_score",
    "FinML.C67_age_partial",
    "FinML.C67_age_exact",
    "FinML.C67_age_zero_iff",
    "FinML.C67_age_wraps",
    "FinML.C67_first_bar_zero",
    "FinML.C67_causal"
   ],
   "note": "Flag, score, causality for all inputs, ages for caps up to 255. Missing: larger caps, where the age wraps to 0 after 256 bars (proved); the first bar has age 0 without a break (proved). The age for every cap is given by C67_age_exact."
  },
  {
   "property": "C68",
   "status": "partial",
   "theorems": [
    "FinML.C68_run_length",
    "FinML.C68_output_partial",
    "FinML.C68_output_exact",
    "FinML.C68_run_wraps",
    "FinML.C68_includes_current",
    "FinML.C68_missing_counts"
   ],
   "note": "Counter is the longest run ending at the bar, output equal while at most 127. Missing: the documented exclusion of the current bar, runs of 128 (stored as -128) and missing returns (counted as 1); each deviation proved. The stored value for every run length is given by C68_output_exact."
  },
  {
   "property": "C69",
   "status": "partial",
   "theorems": [
    "FinML.C69_lag",
    "FinML.C69_lag_compose",
    "FinML.C69_lag_causal",
    "FinML.C69_negative_lag_looks_ahead",
    "FinML.C69_return",
    "FinML.C69_return_missing",
    "FinML.C69_return_compounds",
    "FinML.C69_log_return_adds",
    "FinML.C69_return_causal",
    "FinML.C69_return_name_collision",
    "FinML.C69_duration",
    "FinML.C69_duration_nonneg",
    "FinML.C69_duration_adds",
    "FinML.C69_duration_ewma",
    "FinML.C69_duration_ewma_bounds"
   ],
   "note": "Closed forms, composition, compounding, causality, bounds. Missing: negative lags are accepted and look ahead; simple and log returns share an output name; both proved."
  },
  {
   "property": "C70",
   "status": "partial",
   "theorems": [
    "FinML.C70_rolling_iff",
    "FinML.C70_rolling_causal",
    "FinML.C70_bipower",
    "FinML.C70_bipower_missing",
    "FinML.C70_bipower_le_squares",
    "FinML.C70_bipower_factor",
    "FinML.C70_kurtosis_invariant",
    "FinML.C70_kurtosis_lower_bound",
    "FinML.C70_kurtosis_missing_iff",
    "FinML.C70_meanrev_eq_zscore",
    "FinML.C70_meanrev_window_one",
    "FinML.C70_meanrev_invariant",
    "FinML.C70_meanrev_bound",
    "FinML.C70_kurtosis_column",
    "FinML.C70_meanrev_column"
   ],
   "note": "All parts proved except the factor of the bi-power variation: the code multiplies by the square root of pi/2, proved to be too small."
  },
  {
   "property": "C71",
   "status": "partial",
   "theorems": [
    "FinML.C71_least_squares",
    "FinML.C71_least_squares_unique",
    "FinML.C71_exact_on_lines",
    "FinML.C71_trend_slope",
    "FinML.C71_trend_exact",
    "FinML.C71_slope_shift",
    "FinML.C71_slope_scale",
    "FinML.C71_path",
    "FinML.C71_hurst_formula",
    "FinML.C71_hurst_power_law",
    "FinML.C71_hurst_short_window",
    "FinML.C71_hurst_total",
    "FinML.C71_hurst_scale_free",
    "FinML.C71_angle",
    "FinML.C71_angle_size",
    "FinML.C71_angle_growth",
    "FinML.C71_angle_flat",
    "FinML.C71_angle_unit"
   ],
   "note": "Least squares, uniqueness, exactness, closed form, power law, scale freedom for windows above eight. Missing: Hurst windows of at most eight returns never give a value (error or missing), proved."
  },
  {
   "property": "C72",
   "status": "partial",
   "theorems": [
    "FinML.C72_sma",
    "FinML.C72_ewma",
    "FinML.C72_ewma_bad_span",
    "FinML.C72_ewma_nan_forever",
    "FinML.C72_ewma_pandas_recovers",
    "FinML.C72_pct_change",
    "FinML.C72_pct_change_negative_base",
    "FinML.C72_rsi",
    "FinML.C72_rsi_no_loss",
    "FinML.C72_rsi_cases",
    "FinML.C72_rsi_short",
    "FinML.C72_realized_vol",
    "FinML.C72_vpin_pandas",
    "FinML.C72_vpin_partial",
    "FinML.C72_vpin_small_volume",
    "FinML.C72_corr_value",
    "FinML.C72_corr_partial",
    "FinML.C72_corr_hard_coded",
    "FinML.C72_corr_window4_exact",
    "FinML.C72_corr_looks_ahead"
   ],
   "note": "Agreement of realised volatility on all data; SMA, EWMA, PctChange (positive base), RSI (positive loss), VPIN (total above the threshold), correlation (outside the hard-coded cases) on complete data. The remaining cases differ, each proved: EWMA NaN for ever, RSI without losses and on short series, negative bases, tiny volumes; the pandas correlation is hard-coded to 1 for monotone series with window 4 and looks ahead."
  },
  {
   "property": "C73",
   "status": "proved",
   "theorems": [
    "FinML.C73_call_independent_of_history"
   ],
   "note": "Builder as a state machine; invariant on the cached members; holds also after failed calls."
  },
  {
   "property": "C74",
   "status": "proved",
   "theorems": [
    "FinML.C74_closes",
    "FinML.C74_tables_agree",
    "FinML.C74_tick_table",
    "FinML.C74_time_table"
   ],
   "note": "Composition of C01, C03, C06, C08, C10, C13 through the builders. The first tick bar has one trade fewer than the threshold; stated in the theorem."
  },
  {
   "property": "C75",
   "status": "partial",
   "theorems": [
    "FinML.C75_slice",
    "FinML.C75_split",
    "FinML.C75_dates",
    "FinML.C75_dates_descending",
    "FinML.C75_step",
    "FinML.C75_step_back",
    "FinML.C75_step_special",
    "FinML.C75_date_step_ignored",
    "FinML.C75_reversal_loses_dates",
    "FinML.C75_index_not_container",
    "FinML.C75_index",
    "FinML.C75_half_dates_rejected",
    "FinML.C75_is_valid_too_weak",
    "FinML.C75_from_numba"
   ],
   "note": "Slices with any step, and indices, proved for consistent containers; is_valid, from_numba, one-sided dates, the ignored step of date slices and date slices of reversed containers deviate from their documentation (refutations included)."
  },
  {
   "property": "C76",
   "status": "proved",
   "theorems": [
    "FinML.C76_table",
    "FinML.C76_per_bar",
    "FinML.C76_order",
    "FinML.C76_equal_times_interleave",
    "FinML.C76_builder"
   ],
   "note": "Permutation plus order; unique order for increasing close times; counterexample for equal close times (dollar or CUSUM bars can share a close time)."
  },
  {
   "property": "C77",
   "status": "proved",
   "theorems": [
    "FinML.C77_loads",
    "FinML.C77_rejects",
    "FinML.C77_header_line_rejected",
    "FinML.C77_width",
    "FinML.C77_maker_flags",
    "FinML.C77_maker_gap",
    "FinML.C77_maker_mixed"
   ],
   "note": "Statement proved as given. Found: archives with a header line are always rejected (fallback unreachable); a numeric maker column with one empty cell reads as all false; other widths and the missing-maker branch are dead code. Cells are modelled by their own reading."
  },
  {
   "property": "C78",
   "status": "partial",
   "theorems": [
    "FinML.C78_task_date",
    "FinML.C78_hyphen_in_symbol",
    "FinML.C78_markets",
    "FinML.C78_url_basename",
    "FinML.C78_parse_target",
    "FinML.C78_yymm_order",
    "FinML.C78_century",
    "FinML.C78_extends_prefix",
    "FinML.C78_rename",
    "FinML.C78_rename_keeps",
    "FinML.C78_rename_overwrites"
   ],
   "note": "Needs a symbol without hyphen and an absent target: with both a shorter and the full-range file present the latter is overwritten (C78_rename_overwrites); two-digit years fail across a century."
  },
  {
   "property": "C79",
   "status": "proved",
   "theorems": [
    "FinML.C79_archive_origin",
    "FinML.C79_existing",
    "FinML.C79_unverified_archives",
    "FinML.C79_digest",
    "FinML.C79_digest_word"
   ],
   "note": "Statement proved as given. The last two cases are real: the re-download is not verified in this phase, and a partial file counts as an available month (C79_unverified_archives)."
  },
  {
   "property": "C80",
   "status": "proved",
   "theorems": [
    "FinML.C80_rows",
    "FinML.C80_call",
    "FinML.C80_operators",
    "FinML.C80_operators_accept",
    "FinML.C80_finite",
    "FinML.C80_nan",
    "FinML.C80_div_zero",
    "FinML.C80_clip",
    "FinML.C80_domains",
    "FinML.C80_domains_infinite",
    "FinML.C80_infinite",
    "FinML.C80_comparison",
    "FinML.C80_ema_adjusted",
    "FinML.C80_ema_recursive"
   ],
   "note": "Exact arithmetic with infinities and NaN; log, exp, sqrt and user functions are parameters."
  },
  {
   "property": "C81",
   "status": "proved",
   "theorems": [
    "FinML.C81_names_identify",
    "FinML.C81_simple_columns",
    "FinML.C81_kit",
    "FinML.C81_shared_names",
    "FinML.C81_second_gets_first",
    "FinML.C81_ema_mixup"
   ],
   "note": "Statement proved as given. Violations proved: ema with adjust True and False share a name, all lambdas are called <lambda>, and in one kit the second silently receives the values of the first."
  },
  {
   "property": "C82",
   "status": "proved",
   "theorems": [
    "FinML.C82_names_record",
    "FinML.C82_columns",
    "FinML.C82_out_name",
    "FinML.C82_inputs_not_recorded",
    "FinML.C82_parameters_not_recorded",
    "FinML.C82_column_mixup",
    "FinML.C82_unrecorded_matter",
    "FinML.C82_cusum_names",
    "FinML.C82_multi_distinct",
    "FinML.C82_multi_classes",
    "FinML.C82_multi_not_recorded"
   ],
   "note": "Equivalence proved for integer windows and any injective float printing, single- and multi-output classes. Violations: is_log, ddof, is_sample, num_std, ret_type, m, tolerance, whole-minute rate windows, the inputs of multi-input and multi-output classes and the warm-up period and maximal age of CUSUMTest are not in the name. ExternalFunction names are chosen by the caller (default names: C84_default_name)."
  },
  {
   "property": "C83",
   "status": "partial",
   "theorems": [
    "FinML.C83_reset",
    "FinML.C83_same_type",
    "FinML.C83_range",
    "FinML.C83_before_start",
    "FinML.C83_from_start_partial",
    "FinML.C83_equal_times_fail",
    "FinML.C83_warmup_remains"
   ],
   "note": "Violations: unless a bar closes exactly one window before start, bars at and after start may lack the profile they have in the whole data set (C83_warmup_remains); two bars closing at the same time make compute_range fail (C83_equal_times_fail). _partial: full agreement from start on needs such a bar."
  },
  {
   "property": "C84",
   "status": "partial",
   "theorems": [
    "FinML.C84_call",
    "FinML.C84_missing",
    "FinML.C84_several",
    "FinML.C84_one",
    "FinML.C84_names_not_checked",
    "FinML.C84_value_list",
    "FinML.C84_object",
    "FinML.C84_path",
    "FinML.C84_bare_name",
    "FinML.C84_fixed",
    "FinML.C84_rebuild",
    "FinML.C84_rebuild_fails",
    "FinML.C84_default_name"
   ],
   "note": "Violations: one result with several names is accepted and the rest missing; a Python list of values is taken for several outputs and may fill whole columns; names without a dot can never be called; lambdas and nested functions fail after reconstruction; default names ignore the module."
  },
  {
   "property": "C85",
   "status": "proved",
   "theorems": [
    "FinML.C85_median_gap",
    "FinML.C85_majority",
    "FinML.C85_order_free",
    "FinML.C85_degenerate",
    "FinML.C85_misses_tick",
    "FinML.C85_third_digit_lost"
   ],
   "note": "Statement proved as given. Violations of the documented meaning (price tick size): the result need not divide the price differences (C85_misses_tick: prices 0, 2, 5, 8 give 3, tick is 1, as the newer function finds), and ticks with three significant digits are rounded (C85_third_digit_lost: 0.125 gives 0.12)."
  },
  {
   "property": "C86",
   "status": "proved",
   "theorems": [
    "FinML.C86_floor_division",
    "FinML.C86_clock",
    "FinML.C86_exact",
    "FinML.C86_assignment",
    "FinML.C86_unique_bar",
    "FinML.C86_first_trade_lost",
    "FinML.C86_last_trade_lost",
    "FinML.C86_one_tick"
   ],
   "note": "Statement proved as given. Off the microsecond grid, outside the statement, trades are lost: a first trade 1 ns before a tick or a last trade 1 ns after one is in no bar (C86_first_trade_lost, C86_last_trade_lost). Trades that are all on one tick give a clock of length one (C86_one_tick)."
  },
  {
   "property": "C87",
   "status": "proved",
   "theorems": [
    "FinML.C87_vertical",
    "FinML.C87_vertical_spec",
    "FinML.C87_lag_spec",
    "FinML.C87_lag_start",
    "FinML.C87_one_sample_lag",
    "FinML.C87_barrier_bar_missed",
    "FinML.C87_two_sample_lag",
    "FinML.C87_tiny_window_missing"
   ],
   "note": "Statement proved as given. For other windows, outside the statement: a barrier of half a second misses a bar exactly at the barrier on millisecond data (C87_barrier_bar_missed), a one-microsecond window may skip a bar (C87_two_sample_lag), and windows up to 100 ns never find an earlier bar (C87_tiny_window_missing)."
  },
  {
   "property": "C88",
   "status": "proved",
   "theorems": [
    "FinML.C88_volume",
    "FinML.C88_dollar",
    "FinML.C88_stored_volume",
    "FinML.C88_volume_ge_trade",
    "FinML.C88_volume_pos",
    "FinML.C88_vwap",
    "FinML.C88_vwap_relative",
    "FinML.C88_exact_volumes",
    "FinML.C88_vwap_no_volume",
    "FinML.C88_vwap_above_high",
    "FinML.C88_stored_below_trade",
    "FinML.C88_buy_sell_total"
   ],
   "note": "Statement proved as given. VWAP between low and high is false in float64 (C88_vwap_above_high: one trade at 1.08 with volume 7.5); the stored float32 volume can be below a single trade (C88_stored_below_trade), and buy plus sell volume differ from total volume (C88_buy_sell_total)."
  },
  {
   "property": "C89",
   "status": "proved",
   "theorems": [
    "FinML.C89_volume_bars",
    "FinML.C89_volume_exact",
    "FinML.C89_tenths_late",
    "FinML.C89_dollar_bars"
   ],
   "note": "Statement proved as given. Exact closing is false for decimal volumes: ten trades of 0.1 do not reach the threshold 1 (C89_tenths_late)."
  },
  {
   "property": "C90",
   "status": "partial",
   "theorems": [
    "FinML.C90_drift_bound",
    "FinML.C90_vwap_never_recovers",
    "FinML.C90_bollinger_never_recovers",
    "FinML.C90_vpin_above_one",
    "FinML.C90_vwap_distance_error",
    "FinML.C90_cumulative",
    "FinML.C90_vpin_error"
   ],
   "note": "The error bound is proved; return to the window sum is false: after one bar of volume 2^53 the VWAP of a constant price 3 is 7 for ever (C90_vwap_never_recovers), after one price 2^27 the Bollinger variance of a constant price is 3/4 for ever (C90_bollinger_never_recovers), VPIN can be 4/3 (C90_vpin_above_one)."
  },
  {
   "property": "C91",
   "status": "proved",
   "theorems": [
    "FinML.C91_rsi",
    "FinML.C91_wilder",
    "FinML.C91_dx",
    "FinML.C91_rsi_series",
    "FinML.C91_adx",
    "FinML.C91_stoch_above_100",
    "FinML.C91_stoch_bound",
    "FinML.C91_zscore_constant"
   ],
   "note": "Statement proved as given. ADX for windows up to 2^40 and at least two windows of bars. %K at most 100 is false: low 1, high and close 1.11 (C91_stoch_above_100). The z-score of a constant series is not always missing: three times 0.1 have a positive float64 variance (C91_zscore_constant)."
  },
  {
   "property": "C92",
   "status": "proved",
   "theorems": [
    "FinML.C92_level_exact",
    "FinML.C92_level_mono",
    "FinML.C92_grid_footprint",
    "FinML.C92_level_volume",
    "FinML.C92_level_volume_exact",
    "FinML.C92_volume_stalls",
    "FinML.C92_order_matters"
   ],
   "note": "Statement proved as given. Level volumes equal to the traded volume is false: after 2^24 units at a level further trades of one unit add nothing, however many, while the bar volume grows (C92_volume_stalls); the level volume depends on the order of trades (C92_order_matters)."
  },
  {
   "property": "C93",
   "status": "proved",
   "theorems": [
    "FinML.C93_build_commutes",
    "FinML.C93_build_topo_commutes",
    "FinML.C93_causal",
    "FinML.C93_expressions",
    "FinML.C93_expression_kit",
    "FinML.C93_negative_lag"
   ],
   "note": "Statement proved as given. C93_negative_lag: lag(-1) is accepted and looks ahead. Which base transforms are causal is C35, C36, C57, C63-C70."
  },
  {
   "property": "C94",
   "status": "proved",
   "theorems": [
    "FinML.C94_counts",
    "FinML.C94_run",
    "FinML.C94_levels",
    "FinML.C94_cot",
    "FinML.C94_run_sign_flips",
    "FinML.C94_imbalances_vanish",
    "FinML.C94_levels_fold"
   ],
   "note": "Both directions proved, with bars for each kind of overflow (C94_run_sign_flips, C94_imbalances_vanish, C94_levels_fold)."
  },
  {
   "property": "C95",
   "status": "proved",
   "theorems": [
    "FinML.C95_values",
    "FinML.C95_between",
    "FinML.C95_balance_error",
    "FinML.C95_balance_exact",
    "FinML.C95_flip",
    "FinML.C95_balanced_not_zero",
    "FinML.C95_max_below_balance",
    "FinML.C95_spread_max",
    "FinML.C95_spread_mean",
    "FinML.C95_spread_zero",
    "FinML.C95_spread_exact_moves",
    "FinML.C95_spread_mirror"
   ],
   "note": "Exact balances are not claimed: a bar that buys 0.1 and 0.2 and sells 0.3 never returns to zero (C95_balanced_not_zero), and the stored maximum can be below the exact last balance (C95_max_below_balance)."
  },
  {
   "property": "C96",
   "status": "proved",
   "theorems": [
    "FinML.C96_sides",
    "FinML.C96_merge",
    "FinML.C96_amount",
    "FinML.C96_amount_exact",
    "FinML.C96_fills_lost",
    "FinML.C96_small_ticks",
    "FinML.C96_tiny_ticks"
   ],
   "note": "Outside these ranges it fails: any number of unit fills after a fill of 2^24 is lost (C96_fills_lost), different price levels are merged for ticks below 1e-8 (C96_small_ticks), and no side is inferred for ticks below 1e-12 (C96_tiny_ticks)."
  },
  {
   "property": "C97",
   "status": "proved",
   "theorems": [
    "FinML.C97_no_missing",
    "FinML.C97_missing_price_splits",
    "FinML.C97_none_at_gap",
    "FinML.C97_missing_thresholds",
    "FinML.C97_no_threshold"
   ],
   "note": ""
  },
  {
   "property": "C98",
   "status": "proved",
   "theorems": [
    "FinML.C98_sum_any_order",
    "FinML.C98_uniqueness",
    "FinML.C98_uniqueness_error",
    "FinML.C98_time_decay",
    "FinML.C98_normalised"
   ],
   "note": ""
  },
  {
   "property": "C99",
   "status": "proved",
   "theorems": [
    "FinML.C99_tick",
    "FinML.C99_step",
    "FinML.C99_levels",
    "FinML.C99_degenerate",
    "FinML.C99_wide_gap"
   ],
   "note": "Prices further apart may give a wrong tick, as in exact arithmetic (C99_wide_gap, C60)."
  },
  {
   "property": "C100",
   "status": "proved",
   "theorems": [
    "FinML.C100_complete",
    "FinML.C100_mean",
    "FinML.C100_mean_of_constant",
    "FinML.C100_first",
    "FinML.C100_single_exact",
    "FinML.C100_single_noise",
    "FinML.C100_time_decayed_noise",
    "FinML.C100_constant_noise"
   ],
   "note": "Completeness is needed: one observation followed by gaps, missing in exact arithmetic (C100_single_exact), can get a deviation larger than the observation (C100_single_noise); the same happens at the first value of ewmst (C100_time_decayed_noise). Means of constant series may leave the constant (C100_mean_of_constant)."
  },
  {
   "property": "C101",
   "status": "proved",
   "theorems": [
    "FinML.C101_no_vertical",
    "FinML.C101_touch",
    "FinML.C101_values",
    "FinML.C101_exact_returns",
    "FinML.C101_label_flips"
   ],
   "note": "The window is assumed equal to the exact one (C87 says when). Labels can differ: C101_label_flips gives a path with float64 label 1 and exact label -1. The error of np.log is not modelled."
  },
  {
   "property": "C102",
   "status": "proved",
   "theorems": [
    "FinML.C102_time_bars",
    "FinML.C102_time_bars_grid",
    "FinML.C102_directional",
    "FinML.C102_tick_bars_differ",
    "FinML.C102_footprints",
    "FinML.C102_footprints_need_grid"
   ],
   "note": "Exact arithmetic. Bars that count trades depend on merging: C102_tick_bars_differ. The median trade size also changes. Off the price grid volume can move to a neighbouring footprint level: C102_footprints_need_grid."
  },
  {
   "property": "C103",
   "status": "proved",
   "theorems": [
    "FinML.C103_returns",
    "FinML.C103_oscillators",
    "FinML.C103_vwap_burst",
    "FinML.C103_zscore_bollinger",
    "FinML.C103_means",
    "FinML.C103_atr",
    "FinML.C103_atr_normalized",
    "FinML.C103_volatility",
    "FinML.C103_variance_ratio",
    "FinML.C103_ewm",
    "FinML.C103_correlation",
    "FinML.C103_constants",
    "FinML.C103_vpin_unit",
    "FinML.C103_atr_missing_high"
   ],
   "note": "Exact arithmetic. With the constants of the code the unit of volume matters for VPIN (C103_vpin_unit); a bar without high keeps the unit in its normalised ATR (C103_atr_missing_high)."
  },
  {
   "property": "C104",
   "status": "proved",
   "theorems": [
    "FinML.C104_ohlcv",
    "FinML.C104_threshold_bars",
    "FinML.C104_directional",
    "FinML.C104_cusum",
    "FinML.C104_footprint",
    "FinML.C104_labels",
    "FinML.C104_time_bars",
    "FinML.C104_origin",
    "FinML.C104_weights",
    "FinML.C104_extremes_unit",
    "FinML.C104_time_bars_grid"
   ],
   "note": "Exact arithmetic. Not covered by the conversion: running extremes of cumulated volume and dollars, which start from absolute sentinels (C104_extremes_unit). A shift off the interval grid moves trades between bars (C104_time_bars_grid)."
  },
  {
   "property": "C105",
   "status": "proved",
   "theorems": [
    "FinML.C105_assumptions",
    "FinML.C105_cusum_filter",
    "FinML.C105_cusum_bars",
    "FinML.C105_barrier_levels",
    "FinML.C105_documented_touches",
    "FinML.C105_documented_upper_missed",
    "FinML.C105_triple_barrier",
    "FinML.C105_time_weights",
    "FinML.C105_total_weight",
    "FinML.C105_half_life",
    "FinML.C105_mean0_resampling",
    "FinML.C105_ewmst_resampling",
    "FinML.C105_log_simple",
    "FinML.C105_parkinson",
    "FinML.C105_flow_acceleration",
    "FinML.C105_documented_levels"
   ],
   "note": "Real arithmetic. The parameter half_life is a mean lifetime: after one half_life the weight is 1/e (C105_half_life). The bias correction of ewmst does depend on repeated samples (C105_ewmst_resampling)."
  },
  {
   "property": "C106",
   "status": "proved",
   "theorems": [
    "FinML.C106_construct",
    "FinML.C106_before_labels",
    "FinML.C106_compute",
    "FinML.C106_events_kept",
    "FinML.C106_history",
    "FinML.C106_failed_call",
    "FinML.C106_features_labels_differ",
    "FinML.C106_side_cast",
    "FinML.C106_side_wraps",
    "FinML.C106_zero_side",
    "FinML.C106_meta_label",
    "FinML.C106_take_profit_labelled_zero",
    "FinML.C106_event_idx",
    "FinML.C106_stale_event_idx",
    "FinML.C106_weights"
   ],
   "note": "Stated for successful calls. Violations of what a user would expect, each with a witness: a failing call replaces features but keeps the old labels (C106_features_labels_differ); sides are read modulo 256 (C106_side_wraps); an event_idx column made for other trades is used unchecked (C106_stale_event_idx); with a smaller upper multiplier a touched take-profit is meta-labelled 0 (C106_take_profit_labelled_zero); side 0 is labelled 1 when min_ret is 0 (C106_zero_side)."
  },
  {
   "property": "C107",
   "status": "proved",
   "theorems": [
    "FinML.C107_directional",
    "FinML.C107_footprint_levels",
    "FinML.C107_imbalances",
    "FinML.C107_run_prefers_buyers",
    "FinML.C107_tick_rule",
    "FinML.C107_cusum_filter",
    "FinML.C107_cusum_prefers_falls",
    "FinML.C107_cusum_bars",
    "FinML.C107_cusum_bars_prefer_rises",
    "FinML.C107_short_of_inverse",
    "FinML.C107_mirrored_labels",
    "FinML.C107_flat_is_up"
   ],
   "note": "The conditions in the statement are needed; each is matched by a witness: C107_run_prefers_buyers (signed imbalance run), C107_cusum_prefers_falls (dropping threshold), C107_cusum_bars_prefer_rises (equal timestamps), C107_flat_is_up (zero return)."
  },
  {
   "property": "C108",
   "status": "proved",
   "theorems": [
    "FinML.C108_rsi",
    "FinML.C108_stoch",
    "FinML.C108_adx",
    "FinML.C108_bands",
    "FinML.C108_candle",
    "FinML.C108_vpin",
    "FinML.C108_structural_break"
   ],
   "note": "C108_rsi states the exception: windows with only losses give 0 while windows with only gains give NaN instead of 100."
  },
  {
   "property": "C109",
   "status": "proved",
   "theorems": [
    "FinML.C109_array_after",
    "FinML.C109_rebuild",
    "FinML.C109_get_sigma",
    "FinML.C109_get_sigma_is_not_threshold",
    "FinML.C109_window_unaffected",
    "FinML.C109_window_depends_on_order",
    "FinML.C109_disjoint_windows"
   ],
   "note": "The order dependence is proved by a witness (C109_window_depends_on_order)."
  },
  {
   "property": "C110",
   "status": "proved",
   "theorems": [
    "FinML.C110_resave_month",
    "FinML.C110_report_lost",
    "FinML.C110_report_lost_witness",
    "FinML.C110_range_resave_duplicates",
    "FinML.C110_range_resave_witness",
    "FinML.C110_statistics",
    "FinML.C110_statistics_metadata",
    "FinML.C110_append_statistics"
   ],
   "note": "The statement describes what the code does; the loss of integrity information and the duplication are findings (C110_report_lost_witness, C110_range_resave_witness)."
  },
  {
   "property": "C111",
   "status": "proved",
   "theorems": [
    "FinML.C111_sma_accuracy",
    "FinML.C111_sma_int",
    "FinML.C111_sma_pow2",
    "FinML.C111_warmup",
    "FinML.C111_int_never_nan",
    "FinML.C111_roc_int",
    "FinML.C111_roc_int_small",
    "FinML.C111_sma_of_ones",
    "FinML.C111_sma_below_constant",
    "FinML.C111_roc_float",
    "FinML.C111_roc_sign",
    "FinML.C111_roc_wrong_percent"
   ],
   "note": "The statement describes what the code does; the lost units and the sentinel in place of NaN are findings (C111_sma_of_ones, C111_roc_wrong_percent, C111_warmup). Overflow of int64 is left out."
  },
  {
   "property": "C112",
   "status": "proved",
   "theorems": [
    "FinML.C112_no_change",
    "FinML.C112_success_iff",
    "FinML.C112_filtering",
    "FinML.C112_half_configured",
    "FinML.C112_foreign"
   ],
   "note": "The failed set-up that later looks successful is a finding (C112_half_configured). Custom levels registered by the application and the rotation of the log file are left out."
  },
  {
   "property": "C113",
   "status": "proved",
   "theorems": [
    "FinML.C113_batch",
    "FinML.C113_load",
    "FinML.C113_time_bars",
    "FinML.C113_archives_to_bars",
    "FinML.C113_threshold_bars"
   ],
   "note": "Exact arithmetic. The unit is given rather than inferred. Sides are not carried through, because the maker flags are read by position after the sort (C18). Archives sharing a trade are counted once each: ids are only compared within one archive."
  },
  {
   "property": "C114",
   "status": "proved",
   "theorems": [
    "FinML.C114_leaf",
    "FinML.C114_single_backend",
    "FinML.C114_related",
    "FinML.C114_agree",
    "FinML.C114_unknown_backend",
    "FinML.C114_misspelt_accepted",
    "FinML.C114_timing"
   ],
   "note": "Found: a misspelt backend goes unnoticed when the columns of the features are already in the frame (C114_misspelt_accepted). Which implementations agree is C72. The columns of the report are modelled, not its text."
  },
  {
   "property": "C115",
   "status": "proved",
   "theorems": [
    "FinML.C115_volume",
    "FinML.C115_dollar",
    "FinML.C115_tick",
    "FinML.C115_volume_restart",
    "FinML.C115_tick_restart",
    "FinML.C115_cusum_first",
    "FinML.C115_cusum_restart",
    "FinML.C115_cusum_restart_differs",
    "FinML.C115_pieces_differ",
    "FinML.C115_dollar_carry_unbounded"
   ],
   "note": "Exact arithmetic. Found: processing in pieces is not processing the whole (C115_pieces_differ); dollar bars of the whole can run ahead by any number when a trade exceeds the threshold (C115_dollar_carry_unbounded); with a changing threshold or shared timestamps a CUSUM close leaves the other side pending (C115_cusum_restart_differs)."
  },
  {
   "property": "C116",
   "status": "proved",
   "theorems": [
    "FinML.C116_raw",
    "FinML.C116_load_back",
    "FinML.C116_side_ignored",
    "FinML.C116_preprocessed",
    "FinML.C116_idempotent",
    "FinML.C116_raw_unit_ignored",
    "FinML.C116_side_lost"
   ],
   "note": "Exact arithmetic (amounts are rounded to float32 in the code, see C96). Found: without pre-processing the unit is recorded but not applied, so seconds become nanoseconds of 1970 (C116_raw_unit_ignored); a side column passed together with preprocess=True is silently replaced by inferred sides (C116_side_lost). With a processing resolution idempotence fails (C18_resolution_leaves_mergeable). Type checks of the arguments are not modelled."
  },
  {
   "property": "C117",
   "status": "proved",
   "theorems": [
    "FinML.C117_append",
    "FinML.C117_succeeds",
    "FinML.C117_features",
    "FinML.C117_time",
    "FinML.C117_time_sizes_footprints",
    "FinML.C117_cusum_vanishes",
    "FinML.C117_time_open_bar",
    "FinML.C117_inferred_tick_repaints"
   ],
   "note": "Exact arithmetic. Limits recorded as theorems: a CUSUM bar closed at the last trade vanishes if the next trade has the same timestamp (C117_cusum_vanishes); the last time bars are provisional (C117_time_open_bar); with an inferred tick size all earlier footprints change when a later price leaves the grid (C117_inferred_tick_repaints). The spreads of the first time bar read the last trade of the data (C12) and are excluded."
  },
  {
   "property": "C118",
   "status": "proved",
   "theorems": [
    "FinML.C118_filter",
    "FinML.C118_bars",
    "FinML.C118_jump",
    "FinML.C118_jump_bars",
    "FinML.C118_margin_needed"
   ],
   "note": "Unbounded exponent (no overflow or subnormals). The margin is needed: C118_margin_needed gives eight equal returns whose exact sum reaches the threshold while the float64 sum stays below it. The condition is on prices only: a running sum of log returns is always the log ratio of the present price to an earlier one."
  },
  {
   "property": "C119",
   "status": "proved",
   "theorems": [
    "FinML.C119_write_starts_afresh",
    "FinML.C119_append",
    "FinML.C119_write_keeps_one_month",
    "FinML.C119_other_modes",
    "FinML.C119_empty_view",
    "FinML.C119_view",
    "FinML.C119_view_loses_trades"
   ],
   "note": "File modes as documented by pandas HDFStore. Consequences recorded as theorems: months saved one by one in mode \"w\" leave only the last (C119_write_keeps_one_month); an empty view saved with a month key in mode \"w\" empties the file before it raises (C119_empty_view); saving again with a view set deletes the rest of the month from the file (C119_view_loses_trades)."
  },
  {
   "property": "C120",
   "status": "proved",
   "theorems": [
    "FinML.C120_rows",
    "FinML.C120_errors",
    "FinML.C120_affine",
    "FinML.C120_constant",
    "FinML.C120_range",
    "FinML.C120_negative",
    "FinML.C120_causal"
   ],
   "note": "antropy.app_entropy is external and modelled by its documented definition (Pincus, self-matches counted). C120_negative: the value can be below zero (regular ramps), so \"low means regular\" has no floor at zero. Exact arithmetic; log and sqrt are parameters with laws, the range is for the real logarithm."
  },
  {
   "property": "C121",
   "status": "proved",
   "theorems": [
    "FinML.C121_resampled_rows",
    "FinML.C121_no_gaps"
   ],
   "note": "Exact arithmetic, one uninterrupted build (month boundaries repeat a bar, C47). The window is shifted by one fine interval against the documented one (C23_shifted_window)."
  },
  {
   "property": "C122",
   "status": "proved",
   "theorems": [
    "FinML.C122_realized",
    "FinML.C122_variance",
    "FinML.C122_constant_noise",
    "FinML.C122_ratio_of_noise",
    "FinML.C122_one_bar",
    "FinML.C122_four_bar",
    "FinML.C122_ratio_short",
    "FinML.C122_ratio",
    "FinML.C122_zscore_bound",
    "FinML.C122_zscore_variance",
    "FinML.C122_zscore_column",
    "FinML.C122_realized_root",
    "FinML.C122_zscore_accuracy"
   ],
   "note": "Normal float64 range (no overflow or underflow). Realised volatility before its square root. Violations of the exact behaviour are C122_constant_noise and C122_ratio_of_noise (1 % growth per bar gives 0.25, the documented value of a random walk)."
  },
  {
   "property": "C123",
   "status": "proved",
   "theorems": [
    "FinML.C123_row",
    "FinML.C123_labels",
    "FinML.C123_unsettled_label",
    "FinML.C123_events",
    "FinML.C123_late_column",
    "FinML.C123_uniqueness",
    "FinML.C123_attribution",
    "FinML.C123_weights_repaint"
   ],
   "note": "Exact arithmetic. Violations when the conditions fail: C123_unsettled_label (an event between two trades is labelled before its barrier is reached), C123_late_column, C123_weights_repaint."
  },
  {
   "property": "C124",
   "status": "proved",
   "theorems": [
    "FinML.C124_poc",
    "FinML.C124_loop_terminates",
    "FinML.C124_direction",
    "FinML.C124_value_area",
    "FinML.C124_covers",
    "FinML.C124_exact_on_grid",
    "FinML.C124_share",
    "FinML.C124_level_total",
    "FinML.C124_share_empty",
    "FinML.C124_share_le_one",
    "FinML.C124_total_stalls",
    "FinML.C124_bug_branch",
    "FinML.C124_bug_branch_exact",
    "FinML.C124_share_above_one"
   ],
   "note": "What the docstrings promise without roundings fails: C124_total_stalls (asked for all of the volume, the area is the point of control alone), C124_bug_branch (the branch that prints BUG is reached on valid input; never in exact arithmetic, C124_bug_branch_exact), C124_share_above_one (share above 1, on 10252 levels)."
  },
  {
   "property": "C125",
   "status": "proved",
   "theorems": [
    "FinML.C125_flags",
    "FinML.C125_no_false_flag",
    "FinML.C125_flags_exact",
    "FinML.C125_missed_flag",
    "FinML.C125_cot",
    "FinML.C125_cot_missed",
    "FinML.C125_gini",
    "FinML.C125_skew_noise",
    "FinML.C125_skew_one_level",
    "FinML.C125_skew_noise_one_level"
   ],
   "note": "Violations: C125_missed_flag, C125_cot_missed (the level of largest volume is passed over when totals differ by less than a float32 rounding), C125_skew_noise (vp_skew is 0 for every bar by C15; in float32 it is the rounding error of the mean level, e.g. plus or minus half a tick above 2^23 ticks, with the sign of the parity of the price)."
  },
  {
   "property": "C126",
   "status": "proved",
   "theorems": [
    "FinML.C126_append",
    "FinML.C126_time",
    "FinML.C126_time_label_changes"
   ],
   "note": "Violation for time bars: C126_time_label_changes (the label of a sample whose bar has no trade at its stamp changes from -1 to 1 when a later trade arrives, because the window starts at the next trade while _drop_trailing_events counts from the stamp)."
  },
  {
   "property": "C127",
   "status": "proved",
   "theorems": [
    "FinML.C127_sma",
    "FinML.C127_zscore",
    "FinML.C127_changes",
    "FinML.C127_parkinson",
    "FinML.C127_flow",
    "FinML.C127_bollinger",
    "FinML.C127_bollinger_warmup",
    "FinML.C127_vwap",
    "FinML.C127_rsi",
    "FinML.C127_stoch",
    "FinML.C127_stoch_not_window",
    "FinML.C127_tr_close",
    "FinML.C127_adx",
    "FinML.C127_cusum"
   ],
   "note": "Stated as what the code does. C127_stoch_not_window: with a missing low the oscillator is not a function of its window."
  },
  {
   "property": "C128",
   "status": "proved",
   "theorems": [
    "FinML.C128_progress",
    "FinML.C128_schedule_independent",
    "FinML.C128_one_store",
    "FinML.C128_shared_cell",
    "FinML.C128_directional_disjoint",
    "FinML.C128_directional"
   ],
   "note": "C128_shared_cell: with a shared cell the result does depend on the schedule, so disjointness cannot be dropped."
  },
  {
   "property": "C129",
   "status": "proved",
   "theorems": [
    "FinML.C129_decay",
    "FinML.C129_common_factor",
    "FinML.C129_class_factor",
    "FinML.C129_attribution_scale"
   ],
   "note": "The old events' uniqueness values are taken as unchanged; whether an appended event overlaps an old one is C123's subject."
  },
  {
   "property": "C130",
   "status": "proved",
   "theorems": [
    "FinML.C130_true_range",
    "FinML.C130_atr",
    "FinML.C130_atr_normalized",
    "FinML.C130_flow_volume",
    "FinML.C130_flow_exact",
    "FinML.C130_flow_column",
    "FinML.C130_flow_lost",
    "FinML.C130_burst"
   ],
   "note": "Unbounded exponent (no overflow or underflow). C130_flow_lost: a volume of 2^53 before the window makes a later volume of 1 vanish, and the ratio exceeds 3e12 instead of being about 3."
  },
  {
   "property": "C131",
   "status": "proved",
   "theorems": [
    "FinML.C131_gini_range",
    "FinML.C131_gini_single",
    "FinML.C131_gini_zero_two_trades",
    "FinML.C131_gini_error",
    "FinML.C131_block_range",
    "FinML.C131_block_share_one",
    "FinML.C131_block_error",
    "FinML.C131_row",
    "FinML.C131_missing"
   ],
   "note": "Unbounded exponent (no overflow or underflow). C131_gini_zero_two_trades, C131_block_share_one: the extreme values 0 and 1 no longer characterise a single trade or a pure block bar."
  },
  {
   "property": "C132",
   "status": "proved",
   "theorems": [
    "FinML.C132_first_maximum",
    "FinML.C132_statistic",
    "FinML.C132_zero_iff",
    "FinML.C132_other_critical_value",
    "FinML.C132_critical_value",
    "FinML.C132_critical_above_two",
    "FinML.C132_constant_rounded"
   ],
   "note": "Unbounded exponent; the rounding of np.log on the prices is outside (the series y is the input). C132_other_critical_value: departures closer than the rounding tie, and the critical value returned belongs to another index than in exact arithmetic."
  },
  {
   "property": "C133",
   "status": "proved",
   "theorems": [
    "FinML.C133_ratio_sign",
    "FinML.C133_ratio_error",
    "FinML.C133_ratio_inaccurate",
    "FinML.C133_diff_error",
    "FinML.C133_pct_change",
    "FinML.C133_sma",
    "FinML.C133_sma_exact",
    "FinML.C133_sma_constant"
   ],
   "note": "C133_ratio_inaccurate: a / b - 1 for neighbouring prices is half as large again as it should be, while (a - b) / b is right; C133_sma_constant: the average of 49 ones is 1 - 2^-53, below the minimum of the data."
  },
  {
   "property": "C134",
   "status": "proved",
   "theorems": [
    "FinML.C134_rsi",
    "FinML.C134_adx",
    "FinML.C134_adx_tie"
   ],
   "note": "C134_adx_tie: without the restriction on highs and lows a rounded tie removes both directional movements and the ADX is 0 instead of 100. Unbounded exponent; overflow is outside."
  },
  {
   "property": "C135",
   "status": "proved",
   "theorems": [
    "FinML.C135_attribution_error",
    "FinML.C135_attribution_monotone",
    "FinML.C135_attribution_noise",
    "FinML.C135_class_balance",
    "FinML.C135_equal_classes",
    "FinML.C135_classes_not_equal",
    "FinML.C135_info",
    "FinML.C135_final"
   ],
   "note": "C135_attribution_noise: cancelling returns have attribution 0 (an error when normalised) but a positive weight in float64. C135_classes_not_equal: class totals differ in the last place. The decay weights are taken as computed (C98). Unbounded exponent."
  },
  {
   "property": "C136",
   "status": "proved",
   "theorems": [
    "FinML.C136_accuracy",
    "FinML.C136_range",
    "FinML.C136_missing",
    "FinML.C136_missing_exact",
    "FinML.C136_same_rule",
    "FinML.C136_noise",
    "FinML.C136_column"
   ],
   "note": "C136_noise: prices growing by 10 % per bar have no correlation, but their float64 returns correlate with a rising volume below -0.99 at bar 13. Exact reference with the real square root. Unbounded exponent."
  },
  {
   "property": "C137",
   "status": "proved",
   "theorems": [
    "FinML.C137_side",
    "FinML.C137_bands",
    "FinML.C137_value",
    "FinML.C137_variance",
    "FinML.C137_constant",
    "FinML.C137_column",
    "FinML.C137_constant_value",
    "FinML.C137_rising_missing",
    "FinML.C137_outlier_missing"
   ],
   "note": "C137_constant_value: the constant price 100.1 gets a %B. C137_rising_missing: 10^8, 10^8 + 1, 10^8 + 2 gets none. C137_outlier_missing: after one price of 2^27 the alternating prices 100, 101 never get one. Unbounded exponent."
  },
  {
   "property": "C138",
   "status": "proved",
   "theorems": [
    "FinML.C138_weights",
    "FinML.C138_sums",
    "FinML.C138_weights_effect",
    "FinML.C138_accuracy",
    "FinML.C138_missing",
    "FinML.C138_gap_forgotten"
   ],
   "note": "C138_gap_forgotten: after a gap with an exponential of 2^-60 and a missing observation the deviation is missing, exactly it is unchanged. Unbounded exponent; the exponential is any function with float64 values in [0, 1]."
  },
  {
   "property": "C139",
   "status": "proved",
   "theorems": [
    "FinML.C139_zero",
    "FinML.C139_error",
    "FinML.C139_column",
    "FinML.C139_ratio_inaccurate"
   ],
   "note": "C139_ratio_inaccurate: for neighbouring float64 prices near 3 the rounded ratio makes the range twice as large. Unbounded exponent."
  },
  {
   "property": "C140",
   "status": "proved",
   "theorems": [
    "FinML.C140_sums",
    "FinML.C140_weights_effect",
    "FinML.C140_accuracy",
    "FinML.C140_column",
    "FinML.C140_no_time",
    "FinML.C140_gap_collapse",
    "FinML.C140_gap_noise"
   ],
   "note": "C140_gap_collapse: after a gap whose exponential is at most 2^-54 the variance is 0 whatever the history, exactly it is not (C140_gap_noise, which also has a constant series of 1.1 with variance 1 after a gap). Unbounded exponent; the exponential is any function with float64 values in [0, 1]."
  },
  {
   "property": "C141",
   "status": "proved",
   "theorems": [
    "FinML.C141_column",
    "FinML.C141_simple",
    "FinML.C141_log",
    "FinML.C141_zero_base",
    "FinML.C141_half_second"
   ],
   "note": "C141_half_second: with a window of half a second and millisecond timestamps a bar exactly one window later has no return. Timestamps from 2006 to 2043; prices are float64 numbers with unbounded exponent."
  },
  {
   "property": "C142",
   "status": "proved",
   "theorems": [
    "FinML.C142_levels",
    "FinML.C142_bucket",
    "FinML.C142_rolling",
    "FinML.C142_level_accuracy",
    "FinML.C142_bucket_accuracy",
    "FinML.C142_row",
    "FinML.C142_exact",
    "FinML.C142_poc_missed",
    "FinML.C142_developing"
   ],
   "note": "C142_poc_missed: single units added to a level of 2^24 units are lost, and a level with less volume becomes the point of control. The rounding of trim_trailing_zeros to eight digits is not part of this claim."
  },
  {
   "property": "C143",
   "status": "proved",
   "theorems": [
    "FinML.C143_normal",
    "FinML.C143_add",
    "FinML.C143_overflow",
    "FinML.C143_float32",
    "FinML.C143_underflow",
    "FinML.C143_volume",
    "FinML.C143_dollar",
    "FinML.C143_vwap",
    "FinML.C143_stored_volume",
    "FinML.C143_volume_bars",
    "FinML.C143_dollar_bars"
   ],
   "note": "C143_underflow: outside the range the two differ; a product of two tiny numbers becomes 0, a stored volume of 10^39 becomes infinite."
  },
  {
   "property": "C144",
   "status": "proved",
   "theorems": [
    "FinML.C144_ratios_range",
    "FinML.C144_ratios_near",
    "FinML.C144_zero_iff",
    "FinML.C144_full_body",
    "FinML.C144_full_body_below",
    "FinML.C144_drift",
    "FinML.C144_drift_once",
    "FinML.C144_gap",
    "FinML.C144_rate",
    "FinML.C144_rate_order",
    "FinML.C144_rate_not_count",
    "FinML.C144_duration_order",
    "FinML.C144_duration",
    "FinML.C144_duration_column",
    "FinML.C144_bipower"
   ],
   "note": "C144_rate_not_count: bars_per_hour over one hour with 57 bars is not 57. C144_full_body: from a range of about 36029 on a full bar has body ratio exactly 1, which the exact ratio never reaches; below, the 1e-12 keeps it under 1 (C144_full_body_below). The window length in seconds is an input."
  },
  {
   "property": "C145",
   "status": "proved",
   "theorems": [
    "FinML.C145_touch",
    "FinML.C145_label",
    "FinML.C145_label_at_touch"
   ],
   "note": "The accuracy of log64 is a hypothesis (LogAccurate), met by a correctly rounded logarithm. Window and minimum time agree by C87. Uses unbounded exponents."
  },
  {
   "property": "C146",
   "status": "proved",
   "theorems": [
    "FinML.C146_attribution",
    "FinML.C146_isolated",
    "FinML.C146_vwap_simple",
    "FinML.C146_vwap_log",
    "FinML.C146_vwap_log_first",
    "FinML.C146_vwap_missing"
   ],
   "note": "C146_vwap_log_first: the first value of a log column is the simple distance. The accuracy of log64 is a hypothesis. Windows of one bar are left out; exponents unbounded."
  },
  {
   "property": "C147",
   "status": "proved",
   "theorems": [
    "FinML.C147_two_ingestions",
    "FinML.C147_run",
    "FinML.C147_other_files",
    "FinML.C147_rerun",
    "FinML.C147_incremental",
    "FinML.C147_demo",
    "FinML.C147_stale_bars",
    "FinML.C147_name_of_damaged_month",
    "FinML.C147_damaged_symbol_ends_run",
    "FinML.C147_shorter_file_wins",
    "FinML.C147_second_bars"
   ],
   "note": "Violations of what one would expect are theorems: C147_stale_bars, C147_name_of_damaged_month, C147_damaged_symbol_ends_run, C147_shorter_file_wins. Archives without trades and two archives with the same first month are left out by hypothesis; so is a range across a century (C78)."
  },
  {
   "property": "C148",
   "status": "proved",
   "theorems": [
    "FinML.C148_before_first",
    "FinML.C148_block",
    "FinML.C148_causal",
    "FinML.C148_target",
    "FinML.C148_append",
    "FinML.C148_sweep_ignored",
    "FinML.C148_warmup",
    "FinML.C148_steady_price"
   ],
   "note": "C148_target is the no-look-ahead statement; C148_steady_price and C148_sweep_ignored record what the estimate leaves out or adds. merge_asof is pandas and modelled by its documentation."
  },
  {
   "property": "C149",
   "status": "proved",
   "theorems": [
    "FinML.C149_jump_value",
    "FinML.C149_jump_range",
    "FinML.C149_jump_small_returns",
    "FinML.C149_jump_constant_size",
    "FinML.C149_ratio_bound"
   ],
   "note": "C149_jump_small_returns and C149_jump_constant_size are the violation; the expression is user code of the notebook, the comparison is suggested by the docstring of BiPowerVariation."
  },
  {
   "property": "C150",
   "status": "proved",
   "theorems": [
    "FinML.C150_append",
    "FinML.C150_time",
    "FinML.C150_window"
   ],
   "note": "Extends C126 by the target computed on the trades (C148). The column is joined before the feature kit and retained, which gives the frame that the tutorial gets by joining afterwards."
  },
  {
   "property": "C151",
   "status": "proved",
   "theorems": [
    "FinML.C151_stored",
    "FinML.C151_exact",
    "FinML.C151_int64",
    "FinML.C151_float",
    "FinML.C151_seconds32",
    "FinML.C151_collide32",
    "FinML.C151_order32",
    "FinML.C151_frame32",
    "FinML.C151_witness"
   ],
   "note": "The docstring asks only for numeric timestamps. The narrow store is a fault of the code; it is characterised exactly here, with C151_witness as a concrete case. numpy's unsafe cast on a[:] = b and the same_kind rule of ufuncs are assumptions about numpy."
  },
  {
   "property": "C152",
   "status": "proved",
   "theorems": [
    "FinML.C152_contents",
    "FinML.C152_fresh",
    "FinML.C152_round_trip",
    "FinML.C152_builder",
    "FinML.C152_one_bar",
    "FinML.C152_slice_after",
    "FinML.C152_witness"
   ],
   "note": "The stacking of np.array(..., dtype=object) and Numba's refusal of object arrays are assumptions about the libraries. In C75 and C76 the casts are the identity, which C152_contents justifies for the values."
  },
  {
   "property": "C153",
   "status": "proved",
   "theorems": [
    "FinML.C153_load",
    "FinML.C153_view",
    "FinML.C153_bars",
    "FinML.C153_footprints",
    "FinML.C153_witness"
   ],
   "note": "The documentation calls all these ranges inclusive. C153_witness shows the three readings on one set of times."
  },
  {
   "property": "C154",
   "status": "proved",
   "theorems": [
    "FinML.C154_timestamps",
    "FinML.C154_refused",
    "FinML.C154_return",
    "FinML.C154_ewmst",
    "FinML.C154_cues",
    "FinML.C154_cues_constant",
    "FinML.C154_event_ns",
    "FinML.C154_event_first",
    "FinML.C154_labels_ns",
    "FinML.C154_labels_coarse",
    "FinML.C154_labels_witness"
   ],
   "note": "C154_return, C154_ewmst and C154_cues give the value for every unit; C154_cues_constant, C154_event_first, C154_labels_coarse and C154_labels_witness record what happens with a coarser index, contrary to the docstring of _get_timestamps (int64 nanoseconds since epoch)."
  },
  {
   "property": "C155",
   "status": "proved",
   "theorems": [
    "FinML.C155_ohlcv",
    "FinML.C155_directional_bar",
    "FinML.C155_directional_first",
    "FinML.C155_directional",
    "FinML.C155_footprint",
    "FinML.C155_builder_ohlcv",
    "FinML.C155_builder_directional",
    "FinML.C155_time_directional",
    "FinML.C155_volume_bars",
    "FinML.C155_dollar_bars",
    "FinML.C155_dollar_short",
    "FinML.C155_cusum_bars",
    "FinML.C155_cusum_short_sigma",
    "FinML.C155_cusum_short_times",
    "FinML.C155_cusum_all_nan"
   ],
   "note": "The checked loops keep the statement order of the source and are proved equal to the functional model, so they also refine it. C155_directional_first, C155_time_directional, C155_dollar_short, C155_cusum_short_sigma, C155_cusum_short_times and C155_cusum_all_nan record the accesses outside the arrays."
  },
  {
   "property": "C156",
   "status": "proved",
   "theorems": [
    "FinML.C156_cusum_filter",
    "FinML.C156_lagged_returns",
    "FinML.C156_time_decay",
    "FinML.C156_class_balance",
    "FinML.C156_lagged_outside",
    "FinML.C156_time_decay_empty",
    "FinML.C156_event",
    "FinML.C156_triple_barrier",
    "FinML.C156_label_events",
    "FinML.C156_attribution_label",
    "FinML.C156_attribution",
    "FinML.C156_attribution_value",
    "FinML.C156_weights_iff",
    "FinML.C156_event_column",
    "FinML.C156_skipped_event"
   ],
   "note": "C156_lagged_outside, C156_time_decay_empty, C156_event_column and C156_skipped_event record the accesses outside the arrays. average_uniqueness only takes slices, which are clipped; what it computes from them is C27 and C98."
  },
  {
   "property": "C157",
   "status": "proved",
   "theorems": [
    "FinML.C157_ewma",
    "FinML.C157_true_range",
    "FinML.C157_parkinson",
    "FinML.C157_ewmst_mean0",
    "FinML.C157_ewmst",
    "FinML.C157_correlation",
    "FinML.C157_adx",
    "FinML.C157_roc",
    "FinML.C157_pct_change",
    "FinML.C157_bollinger",
    "FinML.C157_rsi",
    "FinML.C157_stoch_k",
    "FinML.C157_vwap",
    "FinML.C157_vwap_zero",
    "FinML.C157_flow",
    "FinML.C157_vpin"
   ],
   "note": "Empty inputs to ewma, true_range and the correlation write index 0 of an empty array. Kernels made only of np.full outputs and slices (sma, realized_vol, comp_zscore, rolling_variance_nb) have no unchecked access of their own. Loops of adx_core that fill several arrays are split per array."
  },
  {
   "property": "C158",
   "status": "proved",
   "theorems": [
    "FinML.C158_statistic",
    "FinML.C158_developing",
    "FinML.C158_developing_no_warmup",
    "FinML.C158_last",
    "FinML.C158_rolling_windows",
    "FinML.C158_trade_sides",
    "FinML.C158_trade_sides_empty",
    "FinML.C158_order",
    "FinML.C158_merge",
    "FinML.C158_merge_iff",
    "FinML.C158_value_area",
    "FinML.C158_value_area_empty",
    "FinML.C158_share",
    "FinML.C158_buckets",
    "FinML.C158_buckets_unsorted",
    "FinML.C158_aggregate",
    "FinML.C158_aggregate_above",
    "FinML.C158_trim"
   ],
   "note": "The writes of volume_profile_developing and of the rolling test are treated in C41 and C42. The index of np.searchsorted is the documented result for a sorted array."
  },
  {
   "property": "C159",
   "status": "proved",
   "theorems": [
    "FinML.C159_time_bars",
    "FinML.C159_directional",
    "FinML.C159_trade_sizes",
    "FinML.C159_trade_sizes_bar",
    "FinML.C159_footprint",
    "FinML.C159_footprint_bar",
    "FinML.C159_ids_fix_order",
    "FinML.C159_empty_bar_differs",
    "FinML.C159_open_close_differ",
    "FinML.C159_flow_path_differs",
    "FinML.C159_tick_stamps",
    "FinML.C159_other_bars_differ",
    "FinML.C159_equal_ids_differ"
   ],
   "note": "Exact arithmetic; in float64 sums over reordered trades may differ in the last bits."
  },
  {
   "property": "C160",
   "status": "proved",
   "theorems": [
    "FinML.C160_tick",
    "FinML.C160_volume",
    "FinML.C160_dollar",
    "FinML.C160_filter",
    "FinML.C160_cusum_bars",
    "FinML.C160_cusum_bars_blocks",
    "FinML.C160_tick_nested",
    "FinML.C160_dollar_nested",
    "FinML.C160_not_nested"
   ],
   "note": "Exact arithmetic; the two runs read the same data."
  },
  {
   "property": "C161",
   "status": "proved",
   "theorems": [
    "FinML.C161_touch_later",
    "FinML.C161_untouched",
    "FinML.C161_longer_horizon",
    "FinML.C161_other_barrier",
    "FinML.C161_label_flips"
   ],
   "note": "Exact arithmetic. The return-barrier ratio is not compared: a touch at the vertical bar is scored differently from the same touch before it (C24)."
  },
  {
   "property": "C162",
   "status": "proved",
   "theorems": [
    "FinML.C162_averages",
    "FinML.C162_rates",
    "FinML.C162_rsi",
    "FinML.C162_rsi_vanishes",
    "FinML.C162_stoch",
    "FinML.C162_stoch_feature",
    "FinML.C162_stoch_feature_falls",
    "FinML.C162_zscore",
    "FinML.C162_bollinger",
    "FinML.C162_lagged",
    "FinML.C162_vwap"
   ],
   "note": "Exact arithmetic. The StochK feature is characterised as falling with the latest close (C162_stoch_feature, witness C162_stoch_feature_falls)."
  },
  {
   "property": "C163",
   "status": "proved",
   "theorems": [
    "FinML.C163_true_range",
    "FinML.C163_atr",
    "FinML.C163_normalised_falls",
    "FinML.C163_parkinson",
    "FinML.C163_realized",
    "FinML.C163_mean0",
    "FinML.C163_variance"
   ],
   "note": "Exact arithmetic; sqrt and log are parameters assumed monotone. C163_normalised_falls is the witness for the normalised average true range."
  },
  {
   "property": "C164",
   "status": "proved",
   "theorems": [
    "FinML.C164_flags",
    "FinML.C164_run",
    "FinML.C164_run_grows",
    "FinML.C164_value_area",
    "FinML.C164_events",
    "FinML.C164_trailing",
    "FinML.C164_meta_labels"
   ],
   "note": "Exact arithmetic. C164_run_grows is the witness for the longest run with both flags on a level."
  },
  {
   "property": "C165",
   "status": "proved",
   "theorems": [
    "FinML.C165_ohlcv",
    "FinML.C165_median_not_determined",
    "FinML.C165_split",
    "FinML.C165_extremes",
    "FinML.C165_spread",
    "FinML.C165_spread_one_trade",
    "FinML.C165_footprint"
   ],
   "note": "Exact arithmetic; the footprint part for monotone rounding to ticks. C165_median_not_determined and C165_spread_one_trade are the witnesses for the exceptions."
  },
  {
   "property": "C166",
   "status": "proved",
   "theorems": [
    "FinML.C166_window",
    "FinML.C166_rates",
    "FinML.C166_rsi",
    "FinML.C166_rsi_period_one",
    "FinML.C166_adx",
    "FinML.C166_stoch",
    "FinML.C166_vwap",
    "FinML.C166_correlation",
    "FinML.C166_correlation_window_one",
    "FinML.C166_volatility",
    "FinML.C166_cusum",
    "FinML.C166_label"
   ],
   "note": "Exact arithmetic with sqrt 0 = 0 and log 1 = 0; rounding on constant series is treated in C91, C100, C122, C137. C166_rsi_period_one and C166_correlation_window_one are the degenerate periods."
  },
  {
   "property": "C167",
   "status": "proved",
   "theorems": [
    "FinML.C167_windows",
    "FinML.C167_flow",
    "FinML.C167_stoch",
    "FinML.C167_vwap",
    "FinML.C167_vwap_no_volume",
    "FinML.C167_correlation",
    "FinML.C167_ewma",
    "FinML.C167_rsi",
    "FinML.C167_adx",
    "FinML.C167_ewms"
   ],
   "note": "Exact arithmetic; what the running sums remember under rounding is C90. C167_vwap_no_volume is the witness for windows without volume."
  },
  {
   "property": "C168",
   "status": "proved",
   "theorems": [
    "FinML.C168_rates",
    "FinML.C168_lagged",
    "FinML.C168_atr_sma",
    "FinML.C168_atr_ema",
    "FinML.C168_variance_ratio",
    "FinML.C168_ewmst",
    "FinML.C168_ewmst_mean0"
   ],
   "note": "Exact arithmetic; exp(-dt/half_life) enters through its functional equation."
  },
  {
   "property": "C169",
   "status": "proved",
   "theorems": [
    "FinML.C169_concurrency",
    "FinML.C169_uniqueness",
    "FinML.C169_attribution",
    "FinML.C169_class_balance",
    "FinML.C169_time_decay",
    "FinML.C169_time_decay_not_symmetric",
    "FinML.C169_labels",
    "FinML.C169_final_weights"
   ],
   "note": "Exact arithmetic. C169_time_decay_not_symmetric is the witness for the decay."
  },
  {
   "property": "C170",
   "status": "proved",
   "theorems": [
    "FinML.C170_value_area",
    "FinML.C170_tie_prefers_low",
    "FinML.C170_above",
    "FinML.C170_footprint"
   ],
   "note": "Exact arithmetic (float32 sums: C124). C170_tie_prefers_low is the witness for ties."
  },
  {
   "property": "C171",
   "status": "proved",
   "theorems": [
    "FinML.C171_pct_change",
    "FinML.C171_roc",
    "FinML.C171_lagged",
    "FinML.C171_lagged_gap",
    "FinML.C171_four_bar_log",
    "FinML.C171_four_bar_simple"
   ],
   "note": "Logarithm: any function turning products of positive numbers into sums. C171_lagged_gap and C171_four_bar_simple are the witnesses for the two exceptions."
  },
  {
   "property": "C172",
   "status": "proved",
   "theorems": [
    "FinML.C172_sma",
    "FinML.C172_ewma",
    "FinML.C172_order",
    "FinML.C172_variance"
   ],
   "note": "Exact arithmetic (rounding: C100, C111, C122, C133)."
  },
  {
   "property": "C173",
   "status": "proved",
   "theorems": [
    "FinML.C173_oscillators",
    "FinML.C173_bands",
    "FinML.C173_ranges",
    "FinML.C173_atr",
    "FinML.C173_atr_normalized_differs",
    "FinML.C173_returns_differ"
   ],
   "note": "Exact arithmetic. The stochastic oscillator is the kernel with its arguments in the declared order (C34 has the exchange in the feature). C173_returns_differ is the witness for relative changes."
  }
 ]
}
