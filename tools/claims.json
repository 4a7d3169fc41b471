{
 "C01": {
  "status": "proved",
  "note": "Clock grid facts for all sorted non-empty timestamp lists and positive intervals in exact integer nanoseconds. The clock as computed in float64 is C86: for present-day nanosecond timestamps the extra last tick does not occur."
 },
 "C02": {
  "status": "proved",
  "note": "Assignment is an iff; the boundary case (first trade exactly on a boundary is in no bar) is proved as stated in the property. Exact arithmetic; with float64 rounding see C86."
 },
 "C03": {
  "status": "proved",
  "note": "Closed form for every trade count and threshold; threshold 1 handled separately."
 },
 "C04": {
  "status": "proved",
  "note": "Relational first-crossing specification, shown to determine the output uniquely."
 },
 "C05": {
  "status": "proved",
  "note": "Budget identity for every prefix; a witness shows individual bars may trade less than the threshold."
 },
 "C06": {
  "status": "proved",
  "note": "Closes characterised by max/min suffix sums of log returns; also shows the chained length check accepts some mismatched inputs."
 },
 "C07": {
  "status": "proved",
  "note": "Partition and conservation of volume, count and dollars."
 },
 "C08": {
  "status": "proved",
  "note": "Every non-empty row is the OHLCV summary of its trades; median is the statistical median."
 },
 "C09": {
  "status": "proved",
  "note": "Tick, volume, dollar indexers and OHLCV rows are prefix-stable."
 },
 "C10": {
  "status": "proved",
  "note": "Buy and sell columns and totals."
 },
 "C11": {
  "status": "partial",
  "note": "Extremes proved when the true maximum is >= -1e9 and the true minimum is <= 1e9; the code's +-1e9 sentinels leak otherwise (C11_sentinel_leaks) and for bars without signed trades. In every case, without that hypothesis: the reported extremes are max(-1e9, .) and min(1e9, .) of the running imbalances (C11_extremes_iff)."
 },
 "C12": {
  "status": "partial",
  "note": "Everything except the spread columns of a bar starting at trade 0, where index -1 wraps to the last trade (violation proved)."
 },
 "C49": {
  "status": "partial",
  "note": "Proved for bars with >= 2 trades preceded by a trade; violations proved for one-trade bars and (C12) bars starting at trade 0. The value for every bar length is given by C49_spread_exact."
 },
 "C13": {
  "status": "proved",
  "note": "Level map, conservation of volume and ticks per side, acceptance of OHLCV's own lows/highs and rejection of out-of-range prices."
 },
 "C14": {
  "status": "proved",
  "note": "Flags and longest run in full; in addition the flag count is exact below 65536 levels (uint16 wrap above, characterised in C94)."
 },
 "C15": {
  "status": "partial",
  "note": "Point of control and Gini proved; the volume-profile skew column is 0 for every input (violation C15_skew_always_zero)."
 },
 "C16": {
  "status": "proved",
  "note": "Tick rule: side is the direction of the latest price change larger than epsilon, 0 before any; causal."
 },
 "C17": {
  "status": "proved",
  "note": "Output is the input grouped in maximal consecutive blocks; totals per time, side and (on a grid) price kept."
 },
 "C18": {
  "status": "partial",
  "note": "Order, permutation/dedup and end-to-end conservation proved; sides stay attached only when the sort is the identity (C18_side_detached shows is_buyer_maker is not permuted)."
 },
 "C19": {
  "status": "proved",
  "note": "Unit bands, exact conversion within int64 (overflow witness otherwise), resolution = floor, laws of floor."
 },
 "C31": {
  "status": "proved",
  "note": "CUSUM event filter: events are first crossings, errors and causality."
 },
 "C48": {
  "status": "proved",
  "note": "Missing percentage counts the absent ids exactly; discontinuities and the data_ok flag characterised."
 },
 "C50": {
  "status": "proved",
  "note": "median3 is the statistical median; check_timestamps_order decides sortedness."
 },
 "C20": {
  "status": "partial",
  "note": "Round trip, range loading and month loading proved for saves in overwrite mode of time-sorted frames; append mode keeps stale metadata and unsorted frames hide rows from range loads (violations proved)."
 },
 "C21": {
  "status": "proved",
  "note": "Outcome of the queue/writer protocol for every schedule; schedule independence when months are distinct, with a proved race when two files carry the same month."
 },
 "C51": {
  "status": "proved",
  "note": "Isolation and recovery proved for every crash point; atomicity is violated (witness C51_crash_not_atomic)."
 },
 "C22": {
  "status": "proved",
  "note": "Range, parsing and order facts; the two-digit rendering is shown not to be an input format."
 },
 "C52": {
  "status": "partial",
  "note": "Exact when a digest is available; a missing or unreadable checksum file passes every archive (violation proved)."
 },
 "C23": {
  "status": "proved",
  "note": "Aggregation, weighted median and the two-step law for all columns but the median (which does not compose, witness). Also proved: agreement with the trades when no fine bar is empty, and two findings: a leading empty bar gives a stale open, and close-labelled bars are grouped by floor, shifting the window."
 },
 "C47": {
  "status": "partial",
  "note": "Build histories, range queries, batch processing and the reported time range proved. Violations proved: duplicated bar at a month boundary, end date dropped at daily frequency, plain month keys lose the bars."
 },
 "C24": {
  "status": "partial",
  "note": "First passage, return and label proved for every event, path, side and (finite, infinite or NaN) multiplier. Not true as stated: an event with no bar in its window has an uninitialised touch index (C24_skipped_event_undefined), a window shorter than the minimum holding time reports return 0 (C24_short_window_return), and the documented -inf for the bottom barrier touches at once (C24_minus_inf_bottom)."
 },
 "C25": {
  "status": "proved",
  "note": "Two histories sharing the bars up to the vertical barrier time give the same result; prices before the event are irrelevant too."
 },
 "C26": {
  "status": "partial",
  "note": "Ratio in [0,1], 1 on a horizontal touch before the vertical bar, below 1 without a touch, for finite positive barriers. A touch exactly at the vertical bar gives a ratio in (1/2,1] that need not be 1 (C26_touch_at_vertical). The exact ratio when no barrier is hit before the vertical bar is given from the largest progress to either barrier (C26_ratio_exact)."
 },
 "C27": {
  "status": "partial",
  "note": "Exact for fewer than 32768 labels; with 32768 labels open at one bar the 16-bit counter wraps and weights become negative (C27_counter_wraps). Order independence and the wrapped count hold without a bound."
 },
 "C28": {
  "status": "proved",
  "note": "Formula, sign, normalisation and failure; an isolated label's weight telescopes to the absolute log return from the bar before the event."
 },
 "C29": {
  "status": "partial",
  "note": "Closed form, monotonicity, range, newest 1, no decay at 1, erased prefix for negative values. Not true as stated: the oldest weight is last_weight + (1-last_weight)*u0/S (C29_oldest, C29_oldest_witness) and last_weight=-1 divides by zero (C29_minus_one)."
 },
 "C30": {
  "status": "proved",
  "note": "Class totals equal total/number of classes; grand total preserved when all classes are positive; a zero-weight class loses its share (C30_zero_class_loses_total)."
 },
 "C53": {
  "status": "partial",
  "note": "Kept rows characterised exactly. The full-window claim holds for events at trade times; between trades the window may be truncated (C53_truncated_window), and a very large vertical barrier drops every event (C53_large_vertical_fails)."
 },
 "C54": {
  "status": "proved",
  "note": "Mean 1, proportionality and class shares, for every combination of optional inputs."
 },
 "C32": {
  "status": "proved",
  "note": "Closed form over the whole history, bounds by any bounds of the history, prefix causality, rejection of span 0; exact arithmetic, finite inputs."
 },
 "C33": {
  "status": "proved",
  "note": "Moving average, VWAP distance, flow acceleration, VPIN, stochastic extremes and Bollinger bands equal the from-scratch window value at every position; also proved: the first VWAP distance ignores is_log. Exact arithmetic (float drift of rolling sums is outside the model)."
 },
 "C34": {
  "status": "partial",
  "note": "RSI, %K core, DI, ADX, VPIN and correlation ranges proved for all inputs, with closed forms for RSI and ADX. The StochK transform passes (high, low, close) where (close, low, high) is expected: counterexample above 100 proved. RSI with no loss is NaN, proved."
 },
 "C35": {
  "status": "partial",
  "note": "Prefix causality proved for every indicator in feature/core except the variance ratio, where it holds for series of at least w+4 bars and fails below (counterexample proved); C35_variance_ratio_exact states exactly when the variance ratio is causal."
 },
 "C36": {
  "status": "proved",
  "note": "For ascending timestamps: value against the last sample at most t-window, NaN iff none exists, prefix causality."
 },
 "C37": {
  "status": "partial",
  "note": "Pearson (with Cauchy-Schwarz: the clamp never acts) outside positions 4-9 or when prices do not rise strictly; inside, the hard-coded +-1 is proved wrong by a counterexample with negative covariance. The value at the hard-coded positions is determined in every case (C37_hard_coded_exact)."
 },
 "C38": {
  "status": "proved",
  "note": "Rolling variance = two-pass variance, non-negative, zero iff constant; ewms = unbiased weighted deviation; variance ratio formula (1 for a random walk, documentation says 0.25); true range = max(h,c)-min(l,c)."
 },
 "C43": {
  "status": "proved",
  "note": "Cues from the calendar decomposition of every integer timestamp, weekday step, weekly period, ranges. The sine/cosine functions are parameters."
 },
 "C55": {
  "status": "partial",
  "note": "Weighted closed forms for both; floor; ewmst gives missing observations the value 0 with full weight (proved equal to zero-filling, with a counterexample)."
 },
 "C56": {
  "status": "partial",
  "note": "Formulas proved for all; proved deviations: exponential ATR is NaN for ever after one missing true range, simple ATR special-cases index 2."
 },
 "C39": {
  "status": "proved",
  "note": "Complete closed form of bucketing (width, count, representatives, volumes), conservation, ascending representatives, distance to the representative; exact per-tick sums of the aggregation for bars with distinct levels. Also proved: up to twice the requested buckets, representatives above the price range, duplicate levels lose volume. int32/float32 storage is outside the model."
 },
 "C40": {
  "status": "proved",
  "note": "First maximum; termination (pass bound never reached); the interval is the greedy two-level extension stopped at the first one that reaches the share; LVA<=POC<=HVA; coverage and tightness; share above POC. Hypotheses: non-negative volumes, share at most 100."
 },
 "C41": {
  "status": "partial",
  "note": "Violated: the call returns iff the query selects a bar and starts at or before the first bar, and writes outside its arrays iff it selects a bar and leaves an earlier one out (both iffs and a counterexample proved; an empty selection raises). For queries from the first bar every position is filled with the cumulative profile. Trimming of empty outer levels is characterised."
 },
 "C42": {
  "status": "proved",
  "note": "Disjoint writes, each position exactly once, independence of the order of element writes, equality with the windowed test; warm-up at least 2 (smaller warm-ups divide by zero in the code)."
 },
 "C57": {
  "status": "proved",
  "note": "Exact window and prefix causality for (strictly) ascending timestamps; missing iff the tick count is zero."
 },
 "C58": {
  "status": "partial",
  "note": "Maximum over start indices 1..t-2 with the first maximiser's critical value; counterexample: starts 0 and t-1 are skipped; causality for series of at least warm-up+2 observations with a counterexample below; variance estimate formula."
 },
 "C44": {
  "status": "proved",
  "note": "Kahn's sort as coded: output has no repeats, dependencies first, omits exactly the nodes behind a cycle, is a permutation iff acyclic, for every set iteration order. Every feature is returned exactly once when feature names are distinct. Proved deviations: duplicate names drop features, and cycles give an incomplete order without an error."
 },
 "C45": {
  "status": "partial",
  "note": "Cached build equals standalone evaluation, and does not depend on feature order, when output names are clean (no name shared by different computations or by an input column). Dependent features agree under a consistent reading of names. Missing: arbitrary names, where the property is false; five witnesses are proved."
 },
 "C46": {
  "status": "partial",
  "note": "Every savable expression reloads to the same computation, kit and names are kept, a second save is identical. Missing: ReturnT, PctChange, EWMST, BarRate, ema with adjust=False, user functions, tuple arguments and applied output names, where the property is false; witnesses are proved."
 },
 "C59": {
  "status": "partial",
  "note": "Slices, block share, percentile interpolation, concentration and missing rows proved. Missing: sizes relative to theta as documented; the code divides by theta*theta_mult, and a missing theta gives block share 0 instead of missing. Both deviations are proved."
 },
 "C60": {
  "status": "partial",
  "note": "Exact on every decimal grid whose smallest gap is below ten steps, order free, degenerate cases. Missing: other grids, where the estimate is wrong: a quarter tick gives 0.1 and prices 1.5, 2.5 give 0. Both are proved. What the estimate is on every price list is given by C60_estimate_exact: the tick of the prices rounded to the decade of their smallest gap, or 0 if that rounding leaves one price."
 },
 "C61": {
  "status": "partial",
  "note": "Exact gap report, coverage, per-month entries, summary and flag theorems for overwriting saves. Missing: gaps across month ends are never reported and appending a clean part clears the flag of a month; both are proved."
 },
 "C62": {
  "status": "proved",
  "note": "View equals the filter on the closed interval. Proved remark: two views sharing a bound both contain the trades at that instant."
 },
 "C63": {
  "status": "partial",
  "note": "Values only at midnight, exact formula computed, and the documented gap when midnight is the only bar of its day. The documented statement is false otherwise: zero with two bars per day, look-ahead to the second to last bar of the day; proved."
 },
 "C64": {
  "status": "partial",
  "note": "Iff for the condition of each row, exclusion, causality; with distinct timestamps this is the output. Missing: rows with equal timestamps receive each other's signals, so a row can get a later row's signal and both signals at once (C64_shared_timestamps). The opening range is the first four bars whatever their length, not the first hour; proved."
 },
 "C65": {
  "status": "partial",
  "note": "Exact count formula, positivity, causality. Missing: on a regular grid the closed window counts one bar too many, and windows of whole minutes share one output name; both proved."
 },
 "C66": {
  "status": "proved",
  "note": "Ranges, sum, flat bar, drift sign."
 },
 "C67": {
  "status": "partial",
  "note": "Flag, score, causality for all inputs, ages for caps up to 255. Missing: larger caps, where the age wraps to 0 after 256 bars (proved); the first bar has age 0 without a break (proved). The age for every cap is given by C67_age_exact."
 },
 "C68": {
  "status": "partial",
  "note": "Counter is the longest run ending at the bar, output equal while at most 127. Missing: the documented exclusion of the current bar, runs of 128 (stored as -128) and missing returns (counted as 1); each deviation proved. The stored value for every run length is given by C68_output_exact."
 },
 "C69": {
  "status": "partial",
  "note": "Closed forms, composition, compounding, causality, bounds. Missing: negative lags are accepted and look ahead; simple and log returns share an output name; both proved."
 },
 "C70": {
  "status": "partial",
  "note": "All parts proved except the factor of the bi-power variation: the code multiplies by the square root of pi/2, proved to be too small."
 },
 "C71": {
  "status": "partial",
  "note": "Least squares, uniqueness, exactness, closed form, power law, scale freedom for windows above eight. Missing: Hurst windows of at most eight returns never give a value (error or missing), proved."
 },
 "C72": {
  "status": "partial",
  "note": "Agreement of realised volatility on all data; SMA, EWMA, PctChange (positive base), RSI (positive loss), VPIN (total above the threshold), correlation (outside the hard-coded cases) on complete data. The remaining cases differ, each proved: EWMA NaN for ever, RSI without losses and on short series, negative bases, tiny volumes; the pandas correlation is hard-coded to 1 for monotone series with window 4 and looks ahead."
 },
 "C73": {
  "status": "proved",
  "note": "Builder as a state machine; invariant on the cached members; holds also after failed calls."
 },
 "C74": {
  "status": "proved",
  "note": "Composition of C01, C03, C06, C08, C10, C13 through the builders. The first tick bar has one trade fewer than the threshold; stated in the theorem."
 },
 "C75": {
  "status": "partial",
  "note": "Slices with any step, and indices, proved for consistent containers; is_valid, from_numba, one-sided dates, the ignored step of date slices and date slices of reversed containers deviate from their documentation (refutations included)."
 },
 "C76": {
  "status": "proved",
  "note": "Permutation plus order; unique order for increasing close times; counterexample for equal close times (dollar or CUSUM bars can share a close time)."
 },
 "C77": {
  "status": "proved",
  "note": "Statement proved as given. Found: archives with a header line are always rejected (fallback unreachable); a numeric maker column with one empty cell reads as all false; other widths and the missing-maker branch are dead code. Cells are modelled by their own reading."
 },
 "C78": {
  "status": "partial",
  "note": "Needs a symbol without hyphen and an absent target: with both a shorter and the full-range file present the latter is overwritten (C78_rename_overwrites); two-digit years fail across a century."
 },
 "C79": {
  "status": "proved",
  "note": "Statement proved as given. The last two cases are real: the re-download is not verified in this phase, and a partial file counts as an available month (C79_unverified_archives)."
 },
 "C80": {
  "status": "proved",
  "note": "Exact arithmetic with infinities and NaN; log, exp, sqrt and user functions are parameters."
 },
 "C81": {
  "status": "proved",
  "note": "Statement proved as given. Violations proved: ema with adjust True and False share a name, all lambdas are called <lambda>, and in one kit the second silently receives the values of the first."
 },
 "C82": {
  "status": "proved",
  "note": "Equivalence proved for integer windows and any injective float printing, single- and multi-output classes. Violations: is_log, ddof, is_sample, num_std, ret_type, m, tolerance, whole-minute rate windows, the inputs of multi-input and multi-output classes and the warm-up period and maximal age of CUSUMTest are not in the name. ExternalFunction names are chosen by the caller (default names: C84_default_name)."
 },
 "C83": {
  "status": "partial",
  "note": "Violations: unless a bar closes exactly one window before start, bars at and after start may lack the profile they have in the whole data set (C83_warmup_remains); two bars closing at the same time make compute_range fail (C83_equal_times_fail). _partial: full agreement from start on needs such a bar."
 },
 "C84": {
  "status": "partial",
  "note": "Violations: one result with several names is accepted and the rest missing; a Python list of values is taken for several outputs and may fill whole columns; names without a dot can never be called; lambdas and nested functions fail after reconstruction; default names ignore the module."
 },
 "C85": {
  "status": "proved",
  "note": "Statement proved as given. Violations of the documented meaning (price tick size): the result need not divide the price differences (C85_misses_tick: prices 0, 2, 5, 8 give 3, tick is 1, as the newer function finds), and ticks with three significant digits are rounded (C85_third_digit_lost: 0.125 gives 0.12)."
 },
 "C86": {
  "status": "proved",
  "note": "Statement proved as given. Off the microsecond grid, outside the statement, trades are lost: a first trade 1 ns before a tick or a last trade 1 ns after one is in no bar (C86_first_trade_lost, C86_last_trade_lost). Trades that are all on one tick give a clock of length one (C86_one_tick)."
 },
 "C87": {
  "status": "proved",
  "note": "Statement proved as given. For other windows, outside the statement: a barrier of half a second misses a bar exactly at the barrier on millisecond data (C87_barrier_bar_missed), a one-microsecond window may skip a bar (C87_two_sample_lag), and windows up to 100 ns never find an earlier bar (C87_tiny_window_missing)."
 },
 "C88": {
  "status": "proved",
  "note": "Statement proved as given. VWAP between low and high is false in float64 (C88_vwap_above_high: one trade at 1.08 with volume 7.5); the stored float32 volume can be below a single trade (C88_stored_below_trade), and buy plus sell volume differ from total volume (C88_buy_sell_total)."
 },
 "C89": {
  "status": "proved",
  "note": "Statement proved as given. Exact closing is false for decimal volumes: ten trades of 0.1 do not reach the threshold 1 (C89_tenths_late)."
 },
 "C90": {
  "status": "partial",
  "note": "The error bound is proved; return to the window sum is false: after one bar of volume 2^53 the VWAP of a constant price 3 is 7 for ever (C90_vwap_never_recovers), after one price 2^27 the Bollinger variance of a constant price is 3/4 for ever (C90_bollinger_never_recovers), VPIN can be 4/3 (C90_vpin_above_one)."
 },
 "C91": {
  "status": "proved",
  "note": "Statement proved as given. ADX for windows up to 2^40 and at least two windows of bars. %K at most 100 is false: low 1, high and close 1.11 (C91_stoch_above_100). The z-score of a constant series is not always missing: three times 0.1 have a positive float64 variance (C91_zscore_constant)."
 },
 "C92": {
  "status": "proved",
  "note": "Statement proved as given. Level volumes equal to the traded volume is false: after 2^24 units at a level further trades of one unit add nothing, however many, while the bar volume grows (C92_volume_stalls); the level volume depends on the order of trades (C92_order_matters)."
 },
 "C93": {
  "status": "proved",
  "note": "Statement proved as given. C93_negative_lag: lag(-1) is accepted and looks ahead. Which base transforms are causal is C35, C36, C57, C63-C70."
 },
 "C94": {
  "status": "proved",
  "note": "Both directions proved, with bars for each kind of overflow (C94_run_sign_flips, C94_imbalances_vanish, C94_levels_fold)."
 },
 "C95": {
  "status": "proved",
  "note": "Exact balances are not claimed: a bar that buys 0.1 and 0.2 and sells 0.3 never returns to zero (C95_balanced_not_zero), and the stored maximum can be below the exact last balance (C95_max_below_balance)."
 },
 "C96": {
  "status": "proved",
  "note": "Outside these ranges it fails: any number of unit fills after a fill of 2^24 is lost (C96_fills_lost), different price levels are merged for ticks below 1e-8 (C96_small_ticks), and no side is inferred for ticks below 1e-12 (C96_tiny_ticks)."
 },
 "C97": {
  "status": "proved",
  "note": ""
 },
 "C98": {
  "status": "proved",
  "note": ""
 },
 "C99": {
  "status": "proved",
  "note": "Prices further apart may give a wrong tick, as in exact arithmetic (C99_wide_gap, C60)."
 },
 "C100": {
  "status": "proved",
  "note": "Completeness is needed: one observation followed by gaps, missing in exact arithmetic (C100_single_exact), can get a deviation larger than the observation (C100_single_noise); the same happens at the first value of ewmst (C100_time_decayed_noise). Means of constant series may leave the constant (C100_mean_of_constant)."
 },
 "C101": {
  "status": "proved",
  "note": "The window is assumed equal to the exact one (C87 says when). Labels can differ: C101_label_flips gives a path with float64 label 1 and exact label -1. The error of np.log is not modelled."
 },
 "C102": {
  "status": "proved",
  "note": "Exact arithmetic. Bars that count trades depend on merging: C102_tick_bars_differ. The median trade size also changes. Off the price grid volume can move to a neighbouring footprint level: C102_footprints_need_grid."
 },
 "C103": {
  "status": "proved",
  "note": "Exact arithmetic. With the constants of the code the unit of volume matters for VPIN (C103_vpin_unit); a bar without high keeps the unit in its normalised ATR (C103_atr_missing_high)."
 },
 "C104": {
  "status": "proved",
  "note": "Exact arithmetic. Not covered by the conversion: running extremes of cumulated volume and dollars, which start from absolute sentinels (C104_extremes_unit). A shift off the interval grid moves trades between bars (C104_time_bars_grid)."
 },
 "C105": {
  "status": "proved",
  "note": "Real arithmetic. The parameter half_life is a mean lifetime: after one half_life the weight is 1/e (C105_half_life). The bias correction of ewmst does depend on repeated samples (C105_ewmst_resampling)."
 },
 "C106": {
  "status": "proved",
  "note": "Stated for successful calls. Violations of what a user would expect, each with a witness: a failing call replaces features but keeps the old labels (C106_features_labels_differ); sides are read modulo 256 (C106_side_wraps); an event_idx column made for other trades is used unchecked (C106_stale_event_idx); with a smaller upper multiplier a touched take-profit is meta-labelled 0 (C106_take_profit_labelled_zero); side 0 is labelled 1 when min_ret is 0 (C106_zero_side)."
 },
 "C107": {
  "status": "proved",
  "note": "The conditions in the statement are needed; each is matched by a witness: C107_run_prefers_buyers (signed imbalance run), C107_cusum_prefers_falls (dropping threshold), C107_cusum_bars_prefer_rises (equal timestamps), C107_flat_is_up (zero return)."
 },
 "C108": {
  "status": "proved",
  "note": "C108_rsi states the exception: windows with only losses give 0 while windows with only gains give NaN instead of 100."
 },
 "C109": {
  "status": "proved",
  "note": "The order dependence is proved by a witness (C109_window_depends_on_order)."
 },
 "C110": {
  "status": "proved",
  "note": "The statement describes what the code does; the loss of integrity information and the duplication are findings (C110_report_lost_witness, C110_range_resave_witness)."
 },
 "C111": {
  "status": "proved",
  "note": "The statement describes what the code does; the lost units and the sentinel in place of NaN are findings (C111_sma_of_ones, C111_roc_wrong_percent, C111_warmup). Overflow of int64 is left out."
 },
 "C112": {
  "status": "proved",
  "note": "The failed set-up that later looks successful is a finding (C112_half_configured). Custom levels registered by the application and the rotation of the log file are left out."
 },
 "C113": {
  "status": "proved",
  "note": "Exact arithmetic. The unit is given rather than inferred. Sides are not carried through, because the maker flags are read by position after the sort (C18). Archives sharing a trade are counted once each: ids are only compared within one archive."
 },
 "C114": {
  "status": "proved",
  "note": "Found: a misspelt backend goes unnoticed when the columns of the features are already in the frame (C114_misspelt_accepted). Which implementations agree is C72. The columns of the report are modelled, not its text."
 },
 "C115": {
  "status": "proved",
  "note": "Exact arithmetic. Found: processing in pieces is not processing the whole (C115_pieces_differ); dollar bars of the whole can run ahead by any number when a trade exceeds the threshold (C115_dollar_carry_unbounded); with a changing threshold or shared timestamps a CUSUM close leaves the other side pending (C115_cusum_restart_differs)."
 },
 "C116": {
  "status": "proved",
  "note": "Exact arithmetic (amounts are rounded to float32 in the code, see C96). Found: without pre-processing the unit is recorded but not applied, so seconds become nanoseconds of 1970 (C116_raw_unit_ignored); a side column passed together with preprocess=True is silently replaced by inferred sides (C116_side_lost). With a processing resolution idempotence fails (C18_resolution_leaves_mergeable). Type checks of the arguments are not modelled."
 },
 "C117": {
  "status": "proved",
  "note": "Exact arithmetic. Limits recorded as theorems: a CUSUM bar closed at the last trade vanishes if the next trade has the same timestamp (C117_cusum_vanishes); the last time bars are provisional (C117_time_open_bar); with an inferred tick size all earlier footprints change when a later price leaves the grid (C117_inferred_tick_repaints). The spreads of the first time bar read the last trade of the data (C12) and are excluded."
 },
 "C118": {
  "status": "proved",
  "note": "Unbounded exponent (no overflow or subnormals). The margin is needed: C118_margin_needed gives eight equal returns whose exact sum reaches the threshold while the float64 sum stays below it. The condition is on prices only: a running sum of log returns is always the log ratio of the present price to an earlier one."
 },
 "C119": {
  "status": "proved",
  "note": "File modes as documented by pandas HDFStore. Consequences recorded as theorems: months saved one by one in mode \"w\" leave only the last (C119_write_keeps_one_month); an empty view saved with a month key in mode \"w\" empties the file before it raises (C119_empty_view); saving again with a view set deletes the rest of the month from the file (C119_view_loses_trades)."
 },
 "C120": {
  "status": "proved",
  "note": "antropy.app_entropy is external and modelled by its documented definition (Pincus, self-matches counted). C120_negative: the value can be below zero (regular ramps), so \"low means regular\" has no floor at zero. Exact arithmetic; log and sqrt are parameters with laws, the range is for the real logarithm."
 },
 "C121": {
  "status": "proved",
  "note": "Exact arithmetic, one uninterrupted build (month boundaries repeat a bar, C47). The window is shifted by one fine interval against the documented one (C23_shifted_window)."
 },
 "C122": {
  "status": "proved",
  "note": "Normal float64 range (no overflow or underflow). Realised volatility before its square root. Violations of the exact behaviour are C122_constant_noise and C122_ratio_of_noise (1 % growth per bar gives 0.25, the documented value of a random walk)."
 },
 "C123": {
  "status": "proved",
  "note": "Exact arithmetic. Violations when the conditions fail: C123_unsettled_label (an event between two trades is labelled before its barrier is reached), C123_late_column, C123_weights_repaint."
 },
 "C124": {
  "status": "proved",
  "note": "What the docstrings promise without roundings fails: C124_total_stalls (asked for all of the volume, the area is the point of control alone), C124_bug_branch (the branch that prints BUG is reached on valid input; never in exact arithmetic, C124_bug_branch_exact), C124_share_above_one (share above 1, on 10252 levels)."
 },
 "C125": {
  "status": "proved",
  "note": "Violations: C125_missed_flag, C125_cot_missed (the level of largest volume is passed over when totals differ by less than a float32 rounding), C125_skew_noise (vp_skew is 0 for every bar by C15; in float32 it is the rounding error of the mean level, e.g. plus or minus half a tick above 2^23 ticks, with the sign of the parity of the price)."
 },
 "C126": {
  "status": "proved",
  "note": "Violation for time bars: C126_time_label_changes (the label of a sample whose bar has no trade at its stamp changes from -1 to 1 when a later trade arrives, because the window starts at the next trade while _drop_trailing_events counts from the stamp)."
 },
 "C127": {
  "status": "proved",
  "note": "Stated as what the code does. C127_stoch_not_window: with a missing low the oscillator is not a function of its window."
 },
 "C128": {
  "status": "proved",
  "note": "C128_shared_cell: with a shared cell the result does depend on the schedule, so disjointness cannot be dropped."
 },
 "C129": {
  "status": "proved",
  "note": "The old events' uniqueness values are taken as unchanged; whether an appended event overlaps an old one is C123's subject."
 },
 "C130": {
  "status": "proved",
  "note": "Unbounded exponent (no overflow or underflow). C130_flow_lost: a volume of 2^53 before the window makes a later volume of 1 vanish, and the ratio exceeds 3e12 instead of being about 3."
 },
 "C131": {
  "status": "proved",
  "note": "Unbounded exponent (no overflow or underflow). C131_gini_zero_two_trades, C131_block_share_one: the extreme values 0 and 1 no longer characterise a single trade or a pure block bar."
 },
 "C132": {
  "status": "proved",
  "note": "Unbounded exponent; the rounding of np.log on the prices is outside (the series y is the input). C132_other_critical_value: departures closer than the rounding tie, and the critical value returned belongs to another index than in exact arithmetic."
 },
 "C133": {
  "status": "proved",
  "note": "C133_ratio_inaccurate: a / b - 1 for neighbouring prices is half as large again as it should be, while (a - b) / b is right; C133_sma_constant: the average of 49 ones is 1 - 2^-53, below the minimum of the data."
 },
 "C134": {
  "status": "proved",
  "note": "C134_adx_tie: without the restriction on highs and lows a rounded tie removes both directional movements and the ADX is 0 instead of 100. Unbounded exponent; overflow is outside."
 },
 "C135": {
  "status": "proved",
  "note": "C135_attribution_noise: cancelling returns have attribution 0 (an error when normalised) but a positive weight in float64. C135_classes_not_equal: class totals differ in the last place. The decay weights are taken as computed (C98). Unbounded exponent."
 },
 "C136": {
  "status": "proved",
  "note": "C136_noise: prices growing by 10 % per bar have no correlation, but their float64 returns correlate with a rising volume below -0.99 at bar 13. Exact reference with the real square root. Unbounded exponent."
 },
 "C137": {
  "status": "proved",
  "note": "C137_constant_value: the constant price 100.1 gets a %B. C137_rising_missing: 10^8, 10^8 + 1, 10^8 + 2 gets none. C137_outlier_missing: after one price of 2^27 the alternating prices 100, 101 never get one. Unbounded exponent."
 },
 "C138": {
  "status": "proved",
  "note": "C138_gap_forgotten: after a gap with an exponential of 2^-60 and a missing observation the deviation is missing, exactly it is unchanged. Unbounded exponent; the exponential is any function with float64 values in [0, 1]."
 },
 "C139": {
  "status": "proved",
  "note": "C139_ratio_inaccurate: for neighbouring float64 prices near 3 the rounded ratio makes the range twice as large. Unbounded exponent."
 },
 "C140": {
  "status": "proved",
  "note": "C140_gap_collapse: after a gap whose exponential is at most 2^-54 the variance is 0 whatever the history, exactly it is not (C140_gap_noise, which also has a constant series of 1.1 with variance 1 after a gap). Unbounded exponent; the exponential is any function with float64 values in [0, 1]."
 },
 "C141": {
  "status": "proved",
  "note": "C141_half_second: with a window of half a second and millisecond timestamps a bar exactly one window later has no return. Timestamps from 2006 to 2043; prices are float64 numbers with unbounded exponent."
 },
 "C142": {
  "status": "proved",
  "note": "C142_poc_missed: single units added to a level of 2^24 units are lost, and a level with less volume becomes the point of control. The rounding of trim_trailing_zeros to eight digits is not part of this claim."
 },
 "C143": {
  "status": "proved",
  "note": "C143_underflow: outside the range the two differ; a product of two tiny numbers becomes 0, a stored volume of 10^39 becomes infinite."
 },
 "C144": {
  "status": "proved",
  "note": "C144_rate_not_count: bars_per_hour over one hour with 57 bars is not 57. C144_full_body: from a range of about 36029 on a full bar has body ratio exactly 1, which the exact ratio never reaches; below, the 1e-12 keeps it under 1 (C144_full_body_below). The window length in seconds is an input."
 },
 "C145": {
  "status": "proved",
  "note": "The accuracy of log64 is a hypothesis (LogAccurate), met by a correctly rounded logarithm. Window and minimum time agree by C87. Uses unbounded exponents."
 },
 "C146": {
  "status": "proved",
  "note": "C146_vwap_log_first: the first value of a log column is the simple distance. The accuracy of log64 is a hypothesis. Windows of one bar are left out; exponents unbounded."
 },
 "C147": {
  "status": "proved",
  "note": "Violations of what one would expect are theorems: C147_stale_bars, C147_name_of_damaged_month, C147_damaged_symbol_ends_run, C147_shorter_file_wins. Archives without trades and two archives with the same first month are left out by hypothesis; so is a range across a century (C78)."
 },
 "C148": {
  "status": "proved",
  "note": "C148_target is the no-look-ahead statement; C148_steady_price and C148_sweep_ignored record what the estimate leaves out or adds. merge_asof is pandas and modelled by its documentation."
 },
 "C149": {
  "status": "proved",
  "note": "C149_jump_small_returns and C149_jump_constant_size are the violation; the expression is user code of the notebook, the comparison is suggested by the docstring of BiPowerVariation."
 },
 "C150": {
  "status": "proved",
  "note": "Extends C126 by the target computed on the trades (C148). The column is joined before the feature kit and retained, which gives the frame that the tutorial gets by joining afterwards."
 },
 "C151": {
  "status": "proved",
  "note": "The docstring asks only for numeric timestamps. The narrow store is a fault of the code; it is characterised exactly here, with C151_witness as a concrete case. numpy's unsafe cast on a[:] = b and the same_kind rule of ufuncs are assumptions about numpy."
 },
 "C152": {
  "status": "proved",
  "note": "The stacking of np.array(..., dtype=object) and Numba's refusal of object arrays are assumptions about the libraries. In C75 and C76 the casts are the identity, which C152_contents justifies for the values."
 },
 "C153": {
  "status": "proved",
  "note": "The documentation calls all these ranges inclusive. C153_witness shows the three readings on one set of times."
 },
 "C154": {
  "status": "proved",
  "note": "C154_return, C154_ewmst and C154_cues give the value for every unit; C154_cues_constant, C154_event_first, C154_labels_coarse and C154_labels_witness record what happens with a coarser index, contrary to the docstring of _get_timestamps (int64 nanoseconds since epoch)."
 },
 "C155": {
  "status": "proved",
  "note": "The checked loops keep the statement order of the source and are proved equal to the functional model, so they also refine it. C155_directional_first, C155_time_directional, C155_dollar_short, C155_cusum_short_sigma, C155_cusum_short_times and C155_cusum_all_nan record the accesses outside the arrays."
 },
 "C156": {
  "status": "proved",
  "note": "C156_lagged_outside, C156_time_decay_empty, C156_event_column and C156_skipped_event record the accesses outside the arrays. average_uniqueness only takes slices, which are clipped; what it computes from them is C27 and C98."
 },
 "C157": {
  "status": "proved",
  "note": "Empty inputs to ewma, true_range and the correlation write index 0 of an empty array. Kernels made only of np.full outputs and slices (sma, realized_vol, comp_zscore, rolling_variance_nb) have no unchecked access of their own. Loops of adx_core that fill several arrays are split per array."
 },
 "C158": {
  "status": "proved",
  "note": "The writes of volume_profile_developing and of the rolling test are treated in C41 and C42. The index of np.searchsorted is the documented result for a sorted array."
 },
 "C159": {
  "status": "proved",
  "note": "Exact arithmetic; in float64 sums over reordered trades may differ in the last bits."
 },
 "C160": {
  "status": "proved",
  "note": "Exact arithmetic; the two runs read the same data."
 },
 "C161": {
  "status": "proved",
  "note": "Exact arithmetic. The return-barrier ratio is not compared: a touch at the vertical bar is scored differently from the same touch before it (C24)."
 },
 "C162": {
  "status": "proved",
  "note": "Exact arithmetic. The StochK feature is characterised as falling with the latest close (C162_stoch_feature, witness C162_stoch_feature_falls)."
 },
 "C163": {
  "status": "proved",
  "note": "Exact arithmetic; sqrt and log are parameters assumed monotone. C163_normalised_falls is the witness for the normalised average true range."
 },
 "C164": {
  "status": "proved",
  "note": "Exact arithmetic. C164_run_grows is the witness for the longest run with both flags on a level."
 },
 "C165": {
  "status": "proved",
  "note": "Exact arithmetic; the footprint part for monotone rounding to ticks. C165_median_not_determined and C165_spread_one_trade are the witnesses for the exceptions."
 },
 "C166": {
  "status": "proved",
  "note": "Exact arithmetic with sqrt 0 = 0 and log 1 = 0; rounding on constant series is treated in C91, C100, C122, C137. C166_rsi_period_one and C166_correlation_window_one are the degenerate periods."
 },
 "C167": {
  "status": "proved",
  "note": "Exact arithmetic; what the running sums remember under rounding is C90. C167_vwap_no_volume is the witness for windows without volume."
 },
 "C168": {
  "status": "proved",
  "note": "Exact arithmetic; exp(-dt/half_life) enters through its functional equation."
 },
 "C169": {
  "status": "proved",
  "note": "Exact arithmetic. C169_time_decay_not_symmetric is the witness for the decay."
 },
 "C170": {
  "status": "proved",
  "note": "Exact arithmetic (float32 sums: C124). C170_tie_prefers_low is the witness for ties."
 },
 "C171": {
  "status": "proved",
  "note": "Logarithm: any function turning products of positive numbers into sums. C171_lagged_gap and C171_four_bar_simple are the witnesses for the two exceptions."
 },
 "C172": {
  "status": "proved",
  "note": "Exact arithmetic (rounding: C100, C111, C122, C133)."
 },
 "C173": {
  "status": "proved",
  "note": "Exact arithmetic. The stochastic oscillator is the kernel with its arguments in the declared order (C34 has the exchange in the feature). C173_returns_differ is the witness for relative changes."
 }
}