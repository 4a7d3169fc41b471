{"id": "C01", "title": "Time bars lie on a regular clock that covers the data", "statement": "For sorted trades and an interval I>0 the time-bar close timestamps are consecutive multiples of I, the first one is at most the first trade time and more than I before it never occurs (first <= t0 < first+I), and the last one is at or after the last trade; each close timestamp is paired with exactly one close index.", "quantifier": "all non-empty timestamp sequences and all positive integer intervals (nanoseconds)", "why_tests_cant": "The grid is computed from floor/ceil arithmetic on arbitrary first and last timestamps; boundary coincidences are only sampled by tests.", "anchors": ["finmlkit/bar/logic.py:_time_bar_indexer", "finmlkit/bar/kit.py:TimeBarKit"]}
{"id": "C02", "title": "Time bars assign every trade to the bar whose half-open interval contains it", "statement": "For sorted trades, trade j belongs to bar i (is between close index i, exclusive, and close index i+1, inclusive) if and only if clock[i] < timestamp[j] <= clock[i+1]; so every trade after the first clock tick is in exactly one bar, and a trade exactly on the first clock tick is in no bar.", "quantifier": "all sorted timestamp sequences (with ties), all intervals, all trades, all bars", "why_tests_cant": "Ties, empty bars and trades exactly on boundaries form an unbounded family of layouts.", "anchors": ["finmlkit/bar/logic.py:_time_bar_indexer", "finmlkit/bar/base.py:comp_bar_ohlcv"]}
{"id": "C03", "title": "Tick bars contain exactly the threshold number of trades", "statement": "With threshold T>=2 every tick bar after the first contains exactly T trades, the first close is the first trade, the first bar after it ends at trade T-1 (so counting the first trade it has T trades), close indices are strictly increasing and in range, and fewer than T trades remain after the last close.", "quantifier": "all trade counts and all thresholds", "why_tests_cant": "The claim is about all lengths and thresholds and an unbounded number of bars.", "anchors": ["finmlkit/bar/logic.py:_tick_bar_indexer", "finmlkit/bar/kit.py:TickBarKit"]}
{"id": "C04", "title": "Volume bars close at the first trade that reaches the threshold", "statement": "Every volume bar's accumulated volume (the first bar counting trade 0) is at least the threshold, dropping its last trade leaves it below the threshold, and the trades left after the last close total less than the threshold.", "quantifier": "all volume sequences (any sign) and all thresholds", "why_tests_cant": "First-crossing behaviour must hold for every history of volumes.", "anchors": ["finmlkit/bar/logic.py:_volume_bar_indexer", "finmlkit/bar/kit.py:VolumeBarKit"]}
{"id": "C05", "title": "Dollar bars account for every dollar through the carry-over", "statement": "After any number of trades, total traded dollars equal threshold times the number of closes so far plus the carried remainder; a bar closes exactly at the trades where (dollars so far) - threshold*(closes before) first reaches the threshold; with non-negative dollars the remainder is never negative, so the number of bars never exceeds total dollars / threshold.", "quantifier": "all price and volume sequences, all thresholds, all prefixes of the history", "why_tests_cant": "The carry accumulates over the whole history.", "anchors": ["finmlkit/bar/logic.py:_dollar_bar_indexer", "finmlkit/bar/kit.py:DollarBarKit"]}
{"id": "C06", "title": "CUSUM bars close only on a threshold crossing and never inside a block of equal timestamps", "statement": "Each CUSUM bar close after the first is at the last trade of its timestamp block, and the running positive (or negative) sum of log returns, reset only on that side's closes, has reached max(mult*sigma, floor) there; no trade that ends a block with either sum at the threshold is left unclosed.", "quantifier": "all price paths, timestamps with arbitrary ties, sigma vectors with NaN gaps, and all parameter values", "why_tests_cant": "Depends on the whole path and on arbitrary tie patterns.", "anchors": ["finmlkit/bar/logic.py:_cusum_bar_indexer", "finmlkit/bar/kit.py:CUSUMBarKit"]}
{"id": "C07", "title": "Bars partition the trades and conserve volume, trade count and dollars", "statement": "For any non-decreasing close index sequence, the trades of consecutive bars are disjoint, in order, and concatenate to exactly the trades between the first close (exclusive) and the last close (inclusive); therefore bar volumes, trade counts and vwap*volume sum to the totals over those trades.", "quantifier": "all trade sequences and all valid close-index sequences of any length", "why_tests_cant": "Conservation must hold for every segmentation.", "anchors": ["finmlkit/bar/base.py:comp_bar_ohlcv"]}
{"id": "C08", "title": "OHLCV bars are faithful summaries", "statement": "For each non-empty bar, open and close are the first and last trade price, high and low are the maximum and minimum and are attained by a trade, low <= open, close <= high, low <= vwap <= high whenever volumes are non-negative with positive total, volume is the sum and trades the count; an empty bar repeats the last traded price with zero volume, zero trades and zero vwap.", "quantifier": "all prices, non-negative volumes, close-index sequences", "why_tests_cant": "Requires every ordering of prices within a bar.", "anchors": ["finmlkit/bar/base.py:comp_bar_ohlcv", "finmlkit/bar/base.py:BarBuilderBase.build_ohlcv"]}
{"id": "C09", "title": "Bars have no look-ahead", "statement": "Each bar's OHLCV values and (for tick, volume and dollar bars) its close index depend only on trades up to that bar's close: appending any further trades leaves all previously produced bars unchanged.", "quantifier": "all trade histories and all continuations", "why_tests_cant": "Quantifies over every possible future.", "anchors": ["finmlkit/bar/logic.py:_tick_bar_indexer", "finmlkit/bar/logic.py:_volume_bar_indexer", "finmlkit/bar/logic.py:_dollar_bar_indexer", "finmlkit/bar/base.py:comp_bar_ohlcv"]}
{"id": "C10", "title": "Directional features split the bar exactly into buys and sells", "statement": "When every trade side is +1 or -1, buy plus sell ticks, volume and dollars equal the bar's trade count, volume and dollar value; in general they equal the totals over trades with that side, and trades with side 0 count in neither.", "quantifier": "all trades, sides and close-index sequences", "why_tests_cant": "Every interleaving of sides must balance.", "anchors": ["finmlkit/bar/base.py:comp_bar_directional_features"]}
{"id": "C11", "title": "Cumulative imbalance extremes bracket the running imbalance", "statement": "Within a bar with at least one signed trade, the reported min and max of cumulative tick/volume/dollar imbalance are exactly the minimum and maximum of the running signed sums.", "quantifier": "all trades, sides and close-index sequences", "why_tests_cant": "Runs over every path of the running sum, including magnitudes beyond the 1e9 sentinels where the claim fails.", "anchors": ["finmlkit/bar/base.py:comp_bar_directional_features"]}
{"id": "C12", "title": "Bar features of the first bar never read later trades", "statement": "A bar's directional features depend only on trades at or before its close.", "quantifier": "all trade sequences and all close-index sequences produced by the bar kits", "why_tests_cant": "The first time-bar close index can be -1, and index -1 silently wraps to the last trade of the data set.", "anchors": ["finmlkit/bar/base.py:comp_bar_directional_features", "finmlkit/bar/logic.py:_time_bar_indexer"]}
{"id": "C13", "title": "Footprints conserve bar volume and trade counts level by level", "statement": "With highs and lows of the bar and a positive tick size no trade is rejected; for each price level the buy (sell) volume and ticks equal the sum over the bar's buy (sell) trades rounding to that level, so with all sides +-1 the level totals sum to the bar volume and trade count.", "quantifier": "all trades, sides, tick sizes and close-index sequences", "why_tests_cant": "Every mapping of trades to levels must be covered.", "anchors": ["finmlkit/bar/base.py:comp_bar_footprints", "finmlkit/bar/data_model.py:FootprintData"]}
{"id": "C14", "title": "Footprint imbalances compare diagonal levels and edges are never flagged", "statement": "Level l is a buy imbalance iff l>0 and buy[l] > multiplier*sell[l-1]; it is a sell imbalance iff l is not the top level and sell[l] > multiplier*buy[l+1]; the signed run feature is the length of the longest run of consecutive same-signed imbalanced levels, with its sign (first such run on ties).", "quantifier": "all level counts, volumes and multipliers", "why_tests_cant": "Runs of arbitrary length at arbitrary positions.", "anchors": ["finmlkit/bar/base.py:comp_footprint_features"]}
{"id": "C15", "title": "Footprint profile statistics", "statement": "The COT level is a level of maximum total volume (the lowest on ties); the concentration measure is in [0, 1-1/n] for n levels; the volume-profile skew reports buy pressure relative to VWAP.", "quantifier": "all profiles with non-negative volumes", "why_tests_cant": "Universally quantified identity; the skew formula turns out to be identically zero.", "anchors": ["finmlkit/bar/base.py:comp_footprint_features"]}
{"id": "C16", "title": "Tick rule trade sides", "statement": "Each trade's inferred side is the sign of the most recent price change larger than the tolerance at or before it, and 0 exactly when there has been none; sides are always -1, 0 or 1.", "quantifier": "all price sequences", "why_tests_cant": "Depends on arbitrarily long runs of unchanged prices.", "anchors": ["finmlkit/bar/utils.py:comp_trade_side", "finmlkit/bar/utils.py:comp_trade_side_vector"]}
{"id": "C17", "title": "Merging split trades conserves volume and merges maximally", "statement": "Merging keeps the total amount, and the amount per (timestamp, side); the output is the input grouped into consecutive blocks, each block represented by its first trade's timestamp, price and side and its summed amount; two adjacent output trades never agree on timestamp, side and price within tolerance; timestamps stay ordered.", "quantifier": "all trade sequences with or without sides", "why_tests_cant": "Blocks of any length and drift of prices inside the tolerance.", "anchors": ["finmlkit/bar/utils.py:merge_split_trades", "finmlkit/bar/data_model.py:TradesData._merge_trades"]}
{"id": "C18", "title": "Trade pre-processing yields time-ordered trades without inventing or losing trades", "statement": "After sorting, timestamps are non-decreasing and the result is a permutation of the input (with ids: of the input with repeated ids removed, in id order); each trade keeps its own price, amount and side.", "quantifier": "all trade tables, with and without ids and side information", "why_tests_cant": "Arbitrary permutations and duplicates; the side column is a known exception.", "anchors": ["finmlkit/bar/data_model.py:TradesData._sort_trades", "finmlkit/bar/utils.py:fast_sort_trades", "finmlkit/bar/utils.py:check_timestamps_order"]}
{"id": "C19", "title": "Timestamp normalisation", "statement": "The inferred unit is the one for which the maximum timestamp lies in the documented band, conversion to nanoseconds multiplies by the unit and preserves order, and applying a processing resolution rounds each timestamp down to the enclosing unit: idempotent, monotone, never later than the original and less than one unit earlier.", "quantifier": "all timestamp sequences and all units", "why_tests_cant": "Band edges and rounding at every value.", "anchors": ["finmlkit/bar/data_model.py:TradesData._infer_timestamp_unit", "finmlkit/bar/data_model.py:TradesData._convert_timestamps_to_ns", "finmlkit/bar/data_model.py:TradesData._apply_timestamp_resolution"]}
{"id": "C20", "title": "Saving a month and loading it back returns the same trades", "statement": "After any sequence of saves with month-overwrite, loading a time range returns exactly the last-saved rows of each month that lie in the range, in time order, and nothing else.", "quantifier": "all histories of saves, all months, all query ranges", "why_tests_cant": "Histories are unbounded.", "anchors": ["finmlkit/bar/data_model.py:TradesData.save_h5", "finmlkit/bar/data_model.py:TradesData.load_trades_h5", "finmlkit/bar/data_model.py:TradesData._keys_for_timerange"]}
{"id": "C21", "title": "Parallel ingestion is schedule independent", "statement": "When the months in a download batch are distinct, the final store does not depend on the order in which worker results reach the writer, and errors for some months do not affect the others.", "quantifier": "all completion orders (schedules) and all subsets of failing months", "why_tests_cant": "There are factorially many schedules.", "anchors": ["scripts/binance2h5.py:process_all", "scripts/binance2h5.py:_process_task", "finmlkit/bar/data_model.py:TradesData.save_h5"]}
{"id": "C22", "title": "Month ranges are complete and ordered", "statement": "Enumerating months from a to b yields every month between them inclusive exactly once in chronological order, and an error when b precedes a; every accepted month string denotes a valid month, the YYYY-MM rendering parses back, and comparing YYYY-MM strings is comparing months chronologically.", "quantifier": "all year/month pairs", "why_tests_cant": "Unbounded span, year wrap-around.", "anchors": ["scripts/binance2h5.py:month_range", "scripts/binance2h5.py:parse_ym"]}
{"id": "C23", "title": "Resampling time bars is a correct aggregation", "statement": "Resampling finer bars to coarser ones yields first open, last close, max high, min low, summed volume and trades, and vwap equal to the volume-weighted mean; resampling in two steps equals resampling in one when the middle interval divides the outer one.", "quantifier": "all bar sequences and all intervals", "why_tests_cant": "Composition law over all inputs.", "anchors": ["finmlkit/bar/io.py:TimeBarReader._resample", "finmlkit/bar/io.py:TimeBarReader.read"]}
{"id": "C24", "title": "Triple-barrier labels report the first barrier touch", "statement": "For each event the returned touch index is the earliest bar after the event, not before the minimum holding time and not after the vertical barrier, at which the (side-adjusted) log return is at or beyond a horizontal barrier, or the vertical-barrier bar when there is none; the returned return is the one at the touch index, and label is its sign (meta: return >= min_ret).", "quantifier": "all price paths, events, targets, barrier multipliers and horizons", "why_tests_cant": "First-passage property over all paths.", "anchors": ["finmlkit/label/tbm.py:triple_barrier", "finmlkit/label/kit.py:TBMLabel"]}
{"id": "C25", "title": "Triple-barrier labels never look beyond the vertical barrier", "statement": "An event's label, touch index, return and weight depend only on bars from the event up to the vertical barrier time; changing or appending later bars does not change them.", "quantifier": "all paths and all alternative futures", "why_tests_cant": "Quantifies over futures.", "anchors": ["finmlkit/label/tbm.py:triple_barrier"]}
{"id": "C26", "title": "Barrier-progress weights are 1 exactly on a horizontal touch", "statement": "The returned return-barrier ratio lies in [0,1] and equals 1 when a horizontal barrier is hit.", "quantifier": "all paths, targets and multipliers", "why_tests_cant": "Corner where the touch coincides with the vertical barrier.", "anchors": ["finmlkit/label/tbm.py:triple_barrier"]}
{"id": "C27", "title": "Average uniqueness", "statement": "Concurrency at bar t is the number of labels whose span contains t, each label's weight is the mean of 1/concurrency over its span, lies in (0,1], and equals 1 iff the label overlaps no other; the weight does not depend on event order.", "quantifier": "all sets of label spans", "why_tests_cant": "All overlap patterns, including more than 32767 concurrent labels where the 16-bit counter wraps.", "anchors": ["finmlkit/label/weights.py:average_uniqueness"]}
{"id": "C28", "title": "Return attribution weights", "statement": "Weights are non-negative, equal the absolute concurrency-weighted sum of log returns over the label span, and when normalised sum to the number of events, or the call fails when all are zero.", "quantifier": "all paths and label spans", "why_tests_cant": "Universal.", "anchors": ["finmlkit/label/weights.py:return_attribution"]}
{"id": "C29", "title": "Time-decay weights", "statement": "For non-negative uniqueness the decay weights are non-decreasing from oldest to newest, the newest is 1, all lie in [0,1], last_weight=1 gives no decay, and the oldest gets last_weight.", "quantifier": "all uniqueness vectors and all last_weight in [-1,1]", "why_tests_cant": "Real parameter ranges; endpoints divide by zero.", "anchors": ["finmlkit/label/weights.py:time_decay"]}
{"id": "C30", "title": "Class-balance weights equalise classes", "statement": "After balancing, every class with positive total base weight has the same total weight (total/number of classes), so the grand total is preserved when all classes are positive.", "quantifier": "all label and weight vectors", "why_tests_cant": "Any number of classes and samples.", "anchors": ["finmlkit/label/weights.py:class_balance_weights", "finmlkit/label/kit.py:SampleWeights.compute_final_weights"]}
{"id": "C31", "title": "CUSUM filter events", "statement": "An event is emitted at bar i iff the positive or negative cumulative sum (each floored/capped at zero and reset on its own event) exceeds the threshold at i; indices are strictly increasing; between events the sum equals the largest suffix sum of returns; the filter is causal.", "quantifier": "all price paths and threshold vectors", "why_tests_cant": "Path dependent over unbounded histories.", "anchors": ["finmlkit/sampling/filters.py:cusum_filter"]}
{"id": "C32", "title": "EWMA is the normalised exponentially weighted mean", "statement": "Each output equals sum((1-a)^k * y[t-k]) / sum((1-a)^k) over the whole history with a = 2/(span+1); it lies between the minimum and maximum of the history and is unaffected by later data.", "quantifier": "all series and spans >= 1", "why_tests_cant": "Closed form of an unbounded recursion.", "anchors": ["finmlkit/feature/core/ma.py:ewma"]}
{"id": "C33", "title": "Incremental rolling windows equal direct windows", "statement": "Rolling-sum and rolling-extreme implementations (moving average, VWAP distance, flow acceleration, VPIN, stochastic oscillator) return at each position exactly the value computed from scratch on that window.", "quantifier": "all series, window lengths and positions", "why_tests_cant": "Incremental state could drift on some history.", "anchors": ["finmlkit/feature/core/ma.py:sma", "finmlkit/feature/core/reversion.py:vwap_distance", "finmlkit/feature/core/volume.py:comp_flow_acceleration", "finmlkit/feature/core/volume.py:vpin", "finmlkit/feature/core/momentum.py:stoch_k"]}
{"id": "C34", "title": "Bounded oscillators stay in range", "statement": "RSI, %K, ADX/DI lie in [0,100], VPIN in [0,1], price-volume correlation in [-1,1] for every input satisfying the documented preconditions (low <= close <= high, volumes >= 0).", "quantifier": "all inputs", "why_tests_cant": "Range claims over all inputs; the %K feature wrapper violates it.", "anchors": ["finmlkit/feature/core/momentum.py:rsi_wilder", "finmlkit/feature/core/momentum.py:stoch_k", "finmlkit/feature/core/trend.py:adx_core", "finmlkit/feature/core/volume.py:vpin", "finmlkit/feature/core/correlation.py:rolling_price_volume_correlation", "finmlkit/feature/transforms.py:StochK"]}
{"id": "C35", "title": "Features are causal", "statement": "Each indicator's value at time t is a function of inputs up to t: computing on a prefix gives the prefix of the full output.", "quantifier": "all series, all prefixes, all continuations", "why_tests_cant": "Quantifies over futures.", "anchors": ["finmlkit/feature/core/ma.py", "finmlkit/feature/core/momentum.py", "finmlkit/feature/core/trend.py", "finmlkit/feature/core/volatility.py", "finmlkit/feature/core/utils.py", "finmlkit/feature/core/reversion.py", "finmlkit/feature/core/volume.py", "finmlkit/feature/core/correlation.py"]}
{"id": "C36", "title": "Lagged returns use the latest sample at least one window old", "statement": "For each time t the return is taken against the last sample with timestamp <= t - window, and is missing when there is none.", "quantifier": "all sorted timestamp sequences and windows", "why_tests_cant": "Irregular sampling patterns.", "anchors": ["finmlkit/feature/core/utils.py:comp_lagged_returns"]}
{"id": "C37", "title": "Rolling price-volume correlation is Pearson's correlation", "statement": "The value is the Pearson correlation of price and volume over the trailing window.", "quantifier": "all series and windows", "why_tests_cant": "The implementation special-cases indices 4-9.", "anchors": ["finmlkit/feature/core/correlation.py:rolling_price_volume_correlation"]}
{"id": "C38", "title": "Variance estimators are non-negative and exact", "statement": "Rolling variance equals the two-pass sample variance of the window and is non-negative; the exponentially weighted variance equals the weighted variance; the variance ratio follows its formula.", "quantifier": "all series and windows", "why_tests_cant": "Algebraic identity over all inputs.", "anchors": ["finmlkit/feature/core/volatility.py:rolling_variance_nb", "finmlkit/feature/core/volatility.py:ewms", "finmlkit/feature/core/volatility.py:variance_ratio_1_4_core", "finmlkit/feature/core/volatility.py:true_range"]}
{"id": "C39", "title": "Volume-profile bucketing conserves volume", "statement": "Bucketing price levels preserves total volume, every level falls in the bucket whose interval contains it, and bucket representatives are ascending.", "quantifier": "all level/volume tables and bucket counts", "why_tests_cant": "Rounding of bucket edges for all ranges.", "anchors": ["finmlkit/feature/core/volume.py:bucket_price_levels", "finmlkit/feature/core/volume.py:aggregate_footprint"]}
{"id": "C40", "title": "Value area", "statement": "The POC has maximal volume; the value-area search terminates, LVA <= POC <= HVA, and the levels between LVA and HVA hold at least the requested share of the volume.", "quantifier": "all non-empty non-negative profiles and percentages up to 100", "why_tests_cant": "Loop invariant over all profiles.", "anchors": ["finmlkit/feature/core/volume.py:comp_poc_hva_lva"]}
{"id": "C41", "title": "Developing volume profile writes stay inside its outputs", "statement": "For every query range the developing profile writes only within the output arrays and fills every position.", "quantifier": "all bar sequences and query ranges", "why_tests_cant": "Index arithmetic depends on the start of the range.", "anchors": ["finmlkit/feature/core/volume.py:volume_profile_developing", "finmlkit/feature/core/volume.py:VolumePro.compute_range"]}
{"id": "C42", "title": "Parallel rolling structural-break test is race free", "statement": "Different iterations of the parallel loop write disjoint output positions covering all positions, so the result is independent of scheduling and equals the sequential windowed test.", "quantifier": "all series lengths, windows, warm-ups and schedules", "why_tests_cant": "Races appear only in some schedules.", "anchors": ["finmlkit/feature/core/structural_break/cusum.py:cusum_test_rolling"]}
{"id": "C43", "title": "Session cues follow the UTC calendar", "statement": "Session flags and hour/day cues are periodic with the day/week, day-of-week advances by one each day and weekday 0 is Monday; session flags hold exactly in their documented hour ranges.", "quantifier": "all timestamps including negative ones", "why_tests_cant": "All integers.", "anchors": ["finmlkit/feature/core/time.py:time_cues", "finmlkit/feature/transforms.py:TimeCues"]}
{"id": "C44", "title": "Topological ordering of features is sound", "statement": "The computed evaluation order has no repeats, contains only graph nodes, places every dependency before its dependent, and contains every node iff the graph is acyclic; the feature kit evaluates every feature exactly once.", "quantifier": "all finite dependency graphs", "why_tests_cant": "All graphs.", "anchors": ["finmlkit/feature/utils.py:ComputationGraph.topological_sort", "finmlkit/feature/kit.py:FeatureKit.topological_order"]}
{"id": "C45", "title": "Feature caching does not change results", "statement": "Building a feature set gives every feature the same values as evaluating it alone on the original data, in any order.", "quantifier": "all feature expressions, data frames and evaluation orders", "why_tests_cant": "All expression trees; fails when two different features share an output name.", "anchors": ["finmlkit/feature/kit.py:FeatureKit.build", "finmlkit/feature/base.py:BinaryOpTransform", "finmlkit/feature/kit.py:Compose"]}
{"id": "C46", "title": "Saved feature configurations reload to equivalent features", "statement": "Serialising a feature kit and loading it back yields features with the same names that compute the same values.", "quantifier": "all feature expressions and parameters", "why_tests_cant": "All expression trees and parameter values; several transforms break it.", "anchors": ["finmlkit/feature/utils.py:transform_to_config", "finmlkit/feature/utils.py:transform_from_config", "finmlkit/feature/kit.py:FeatureKit.to_config"]}
{"id": "C47", "title": "Stored time-bar queries return exactly the requested range", "statement": "Reading stored time bars for a range returns each stored bar whose time is in the range exactly once, in order, whatever the sequence of builds.", "quantifier": "all stored days/months, ranges and build histories", "why_tests_cant": "Unbounded histories and boundary ranges.", "anchors": ["finmlkit/bar/io.py:TimeBarReader.read", "finmlkit/bar/io.py:AddTimeBarH5.process_all", "finmlkit/bar/io.py:TimeBarReader._find_relevant_keys"]}
{"id": "C48", "title": "Data-integrity report counts missing ids correctly", "statement": "For trades with ids, the reported missing-trade percentage and discontinuities agree with the gaps in the sorted unique id sequence.", "quantifier": "all id sequences", "why_tests_cant": "All gap patterns.", "anchors": ["finmlkit/bar/data_model.py:TradesData._sort_trades", "finmlkit/bar/io.py:H5Inspector.get_integrity_summary"]}
{"id": "C49", "title": "Spread statistics measure price moves at side switches", "statement": "A bar's maximum spread is the largest absolute price change between a trade and the trade before it, over the trades of the bar whose side differs from the previous trade's side (0 if none), and its mean spread is the sum of those changes divided by the number of signed trades of the bar; in a bar of buys and sells only the mean is at most the maximum.", "quantifier": "all trade sequences, all bars", "why_tests_cant": "Depends on arbitrary side/price interleavings and on how the first trade of a bar is treated.", "anchors": ["finmlkit/bar/base.py:comp_bar_directional_features"]}
{"id": "C50", "title": "Small trade utilities decide what they claim", "statement": "median3 returns the middle value of its three arguments for every ordering and ties, and check_timestamps_order returns true exactly for non-decreasing sequences.", "quantifier": "all values and all sequences", "why_tests_cant": "All orderings and lengths.", "anchors": ["finmlkit/bar/utils.py:median3", "finmlkit/bar/utils.py:check_timestamps_order"]}
{"id": "C51", "title": "An interrupted save affects only the month being saved", "statement": "If a save of one month is interrupted after any of its store operations, every other month's data and metadata are unchanged, and re-running the save completes it; the save is not atomic.", "quantifier": "all stores, all frames, all crash points", "why_tests_cant": "Every prefix of the operation sequence on every store.", "anchors": ["finmlkit/bar/data_model.py:TradesData.save_h5"]}
{"id": "C52", "title": "Archive checksum verification accepts only matching archives", "statement": "An archive passes verification exactly when its SHA-256 or MD5 digest equals the published digest.", "quantifier": "all archives and checksum files", "why_tests_cant": "All digests, including missing checksum files.", "anchors": ["scripts/binance2h5.py:verify_zip_checksum"]}
{"id": "C53", "title": "TBMLabel evaluates exactly the usable events", "statement": "The events kept by TBMLabel are, in order, the rows after the leading NaN region of every column whose target scaled by the larger multiplier reaches min_ret; the events evaluated are those whose full vertical window lies inside the trade data.", "quantifier": "all event frames, multipliers, thresholds and trade series", "why_tests_cant": "All NaN patterns, and event times that fall between trades.", "anchors": ["finmlkit/label/kit.py:TBMLabel._preprocess_features", "finmlkit/label/kit.py:TBMLabel._drop_trailing_events", "finmlkit/label/kit.py:TBMLabel.compute_labels"]}
{"id": "C54", "title": "Final sample weights", "statement": "The final sample weights are proportional to time decay x information weight x vertical-touch weight with mean 1, and with labels every class of positive weight gets the same share of the number of events.", "quantifier": "all weight vectors and parameters", "why_tests_cant": "Composition of four normalisations over all inputs.", "anchors": ["finmlkit/label/kit.py:SampleWeights.compute_final_weights"]}
{"id": "C55", "title": "Time-decayed deviations weight observations by elapsed time", "statement": "The time-decayed standard deviations equal the weighted (root mean square / unbiased) deviation of the present observations with weights (1-q_j) q_{j+1}...q_i, q the decay over each time gap; missing observations carry no weight; the output is never below the floor.", "quantifier": "all series, timestamps, decay functions and floors", "why_tests_cant": "Closed form of a recursion with irregular time gaps; one of the two functions gives missing observations full weight.", "anchors": ["finmlkit/feature/core/volatility.py:ewmst_mean0", "finmlkit/feature/core/volatility.py:ewmst"]}
{"id": "C56", "title": "Window statistics follow their formulas", "statement": "ATR, realised volatility, z-score, burst ratio, percentage change, rate of change and Parkinson range return their textbook value from the values present in the trailing window, and a missing bar affects only the windows that contain it.", "quantifier": "all series, windows and options", "why_tests_cant": "All inputs with any pattern of missing values; ATR special-cases index 2 and its exponential form never recovers from a gap.", "anchors": ["finmlkit/feature/core/volatility.py:atr", "finmlkit/feature/core/volatility.py:realized_vol", "finmlkit/feature/core/volatility.py:parkinson_range", "finmlkit/feature/core/utils.py:comp_zscore", "finmlkit/feature/core/utils.py:comp_burst_ratio", "finmlkit/feature/core/utils.py:pct_change", "finmlkit/feature/core/momentum.py:roc"]}
{"id": "C57", "title": "Rolling volume profile uses exactly the trailing time window", "statement": "The rolling profile at bar i is the profile of exactly the bars whose timestamp lies in [ts_i - w, ts_i], does not depend on later bars, and is marked missing before the first complete window.", "quantifier": "all ascending bar sequences, windows, bucket counts and percentages", "why_tests_cant": "Window boundaries at arbitrary timestamps and prefix invariance.", "anchors": ["finmlkit/feature/core/volume.py:volume_profile_rolling", "finmlkit/feature/core/volume.py:VolumePro.compute"]}
{"id": "C58", "title": "Structural-break statistic is the supremum of standardised departures", "statement": "The statistic at t is the largest one-sided departure of the log price from an earlier level, standardised by the increment volatility and the square root of the distance; the critical value belongs to the maximising start; no later observation influences it.", "quantifier": "all price series, time indices, windows and warm-ups", "why_tests_cant": "Supremum over all start indices; two start indices are skipped and the first value depends on the length of the series.", "anchors": ["finmlkit/feature/core/structural_break/cusum.py:_comp_max_s_nt", "finmlkit/feature/core/structural_break/cusum.py:cusum_test_developing"]}
{"id": "C59", "title": "Trade-size statistics of a bar", "statement": "Each row is computed from exactly the trades of its bar: block share is the volume of trades strictly above the block threshold over the bar volume, relative sizes are log1p of mean and 95th percentile over the typical size, concentration is one minus the sum of squared volume shares; all lie in their stated ranges; an empty bar or a zero typical size gives missing values.", "quantifier": "all trade arrays, typical sizes, close indices and multipliers", "why_tests_cant": "Order statistics and shares over arbitrary slices; ranges hold for every nonnegative size list.", "anchors": ["finmlkit/bar/base.py:comp_bar_trade_size_features"]}
{"id": "C60", "title": "Estimated tick is the greatest common step of the prices", "statement": "The estimate is the largest step of which all differences of the sampled prices are whole multiples; it depends only on the set of sampled prices; no price is an error and one price gives zero.", "quantifier": "all price lists (rational)", "why_tests_cant": "A divisibility statement over all grids; decimal scaling picks the wrong power of ten only for some grids.", "anchors": ["finmlkit/bar/utils.py:comp_price_tick_size"]}
{"id": "C61", "title": "Store inspection reports exactly the gaps and integrity problems", "statement": "The gap report of a month lists exactly the consecutive timestamps further apart than the bound; if nothing is reported every instant is covered; the integrity summary lists exactly the stored months whose last save was flagged.", "quantifier": "all save histories, bounds and timestamps", "why_tests_cant": "Any history of saves; gaps across a month end never appear in single-month tests.", "anchors": ["finmlkit/bar/io.py:H5Inspector.inspect_gaps", "finmlkit/bar/io.py:H5Inspector.get_integrity_summary", "finmlkit/bar/io.py:H5Inspector.get_metadata"]}
{"id": "C62", "title": "A view range selects exactly the trades in the closed interval", "statement": "After setting a view range the data are exactly the trades with start <= t <= end; a non-increasing range is rejected; splitting at an instant without trades loses and repeats nothing.", "quantifier": "all sorted trade lists and ranges", "why_tests_cant": "All boundaries, including duplicates at the bounds.", "anchors": ["finmlkit/bar/data_model.py:TradesData.set_view_range", "finmlkit/bar/data_model.py:TradesData.data"]}
{"id": "C63", "title": "Daily gap compares midnight with the previous day close", "statement": "The daily gap at a midnight bar is its close over the last close of the previous day minus one, missing elsewhere, and uses no later bar.", "quantifier": "all timestamped close series", "why_tests_cant": "Depends on how many bars the day has; look-ahead only shows when later bars change.", "anchors": ["finmlkit/feature/transforms.py:DailyGap"]}
{"id": "C64", "title": "Opening-range signals are causal and compare with the first four bars of the day", "statement": "The long (short) signal is set iff the bar comes after the opening bars of its day and its close is above their highest high (below their lowest low); the signals exclude each other; no later bar matters.", "quantifier": "all time-ordered bar lists", "why_tests_cant": "Prefix invariance and all day partitions.", "anchors": ["finmlkit/feature/transforms.py:ORBBreak"]}
{"id": "C65", "title": "Bar rate counts the bars of the trailing window", "statement": "The rate at a bar is the number of bars within the trailing window divided by its length, positive, causal, and outputs of different windows have different names.", "quantifier": "all timestamp lists and windows", "why_tests_cant": "Counts at arbitrary boundaries; the off-by-one shows only on exact grids.", "anchors": ["finmlkit/feature/transforms.py:BarRate"]}
{"id": "C66", "title": "Candle shape ratios partition the bar range", "statement": "Body, upper and lower wick ratios of a well-formed bar lie in [0,1) and add up to range over range plus epsilon; a flat bar gives zeros; the drift has the sign of vwap minus open.", "quantifier": "all well-formed bars over an ordered field", "why_tests_cant": "An algebraic identity over all real bars.", "anchors": ["finmlkit/feature/transforms.py:CandleShape"]}
{"id": "C67", "title": "Break flags, scores and ages describe the structural-break series", "statement": "A flag is set iff the statistic exceeds its critical value; the score is the clipped excess; the age is the number of bars since the last flag capped at the maximum; all are causal.", "quantifier": "all statistic series and caps", "why_tests_cant": "Runs of any length; the byte wraps only after 255 bars.", "anchors": ["finmlkit/feature/transforms.py:CUSUMTest"]}
{"id": "C68", "title": "Directional run length counts the current run of same-sign returns", "statement": "The output is the length of the longest run of same-sign returns ending just before the bar.", "quantifier": "all return series", "why_tests_cant": "Runs of unbounded length; byte overflow at 128.", "anchors": ["finmlkit/feature/transforms.py:DirRunLen"]}
{"id": "C69", "title": "Lags, returns and bar durations refer to the right earlier bar", "statement": "A lag of p bars returns the value p bars earlier and is missing before; returns over p bars compound (or add, in logs) over adjacent spans; durations add up, are non-negative on ordered timestamps, and the smoothed duration is the exponentially weighted mean of all durations so far; none uses later data; different outputs have different names.", "quantifier": "all series with missing values, all lags, spans and timestamps", "why_tests_cant": "Composition laws and causality over all lengths.", "anchors": ["finmlkit/feature/transforms.py:Lag", "finmlkit/feature/transforms.py:Return", "finmlkit/feature/transforms.py:BarDuration", "finmlkit/feature/transforms.py:BarDurationEWMA"]}
{"id": "C70", "title": "Rolling bi-power variation, kurtosis and mean-reversion score", "statement": "Each statistic is present exactly for complete windows and computed from exactly these values without look-ahead; bi-power variation is pi/2 times the sum of neighbouring products and bounded by the squares; excess kurtosis is at least -2, location and scale free and missing exactly for constant windows; the score is location and scale free with square at most (n-1)^2/n.", "quantifier": "all series, windows, and ordered fields", "why_tests_cant": "Inequalities over all windows (Cauchy-Schwarz type bounds).", "anchors": ["finmlkit/feature/transforms.py:BiPowerVariation", "finmlkit/feature/transforms.py:KurtosisTransform", "finmlkit/feature/transforms.py:MeanReversionZScore"]}
{"id": "C71", "title": "Trend slope and Hurst exponent are least-squares fits", "statement": "The slope minimises the sum of squared residuals, uniquely when abscissas differ, is exact on lines and shift invariant; the Hurst exponent is the slope of log deviation against log lag for lags 1, 2, 4, 8, exact on power laws and scale free, for every window.", "quantifier": "all point lists, all windows, any logarithm and square root with the stated laws", "why_tests_cant": "Optimality over all lines; universally quantified algebra.", "anchors": ["finmlkit/feature/transforms.py:TrendSlope", "finmlkit/feature/transforms.py:HurstExponent"]}
{"id": "C72", "title": "pandas and compiled implementations agree", "statement": "For every transform with two implementations both return the same values.", "quantifier": "all series and parameters", "why_tests_cant": "Differential equality over all inputs; the differences are at NaN, zero loss, short series and hard-coded cases.", "anchors": ["finmlkit/feature/transforms.py:RSIWilder", "finmlkit/feature/transforms.py:SMA", "finmlkit/feature/transforms.py:EWMA", "finmlkit/feature/transforms.py:PctChange", "finmlkit/feature/transforms.py:RealizedVolatility", "finmlkit/feature/transforms.py:VPIN", "finmlkit/feature/transforms.py:PriceVolumeCorrelation"]}
{"id": "C73", "title": "Results of a bar builder do not depend on earlier calls", "statement": "A bar builder caches its closes, highs and lows between calls. Whatever calls were made before, in any order and whether or not they failed, each call returns (or fails with) exactly what it would on a new builder.", "quantifier": "all trades, all five builder kinds and parameters, all finite call histories, all calls", "why_tests_cant": "The number of call histories is unbounded; a stale or half-set cache would show only for particular orders.", "anchors": ["finmlkit/bar/base.py:BarBuilderBase._set_bar_close", "finmlkit/bar/base.py:BarBuilderBase.build_ohlcv", "finmlkit/bar/base.py:BarBuilderBase.build_footprints", "finmlkit/bar/kit.py"]}
{"id": "C74", "title": "The tables of one builder are aligned and agree with each other", "statement": "With columns of equal length, non-negative amounts and sides of plus or minus one, a builder with at least one bar builds the OHLCV, directional and footprint tables; they carry the same stamps with one row per bar; per bar, buy plus sell counts, volumes and dollars add up to the OHLCV row and the footprint levels add up to both. Stamps are the times of the closing trades; the time-bar row stamped s summarises exactly the trades in (s - interval, s]; tick-bar rows have the threshold number of trades except the first.", "quantifier": "all trades and all five builder kinds, any monotone price-level function", "why_tests_cant": "End-to-end composition over all data, relating four separately coded loops.", "anchors": ["finmlkit/bar/kit.py", "finmlkit/bar/base.py:BarBuilderBase.build_ohlcv", "finmlkit/bar/base.py:BarBuilderBase.build_directional_features", "finmlkit/bar/base.py:BarBuilderBase.build_footprints"]}
{"id": "C75", "title": "Slicing a footprint container keeps its columns aligned", "statement": "An integer slice of a footprint container takes the same bar positions from all columns, the optional ones included; a slice by two dates keeps exactly the bars whose close time lies between them; cutting at any position loses nothing; an integer index reads one position of every column. Checked against the code: an integer index does not give a container (its length fails), dates at one end only are rejected, is_valid accepts misaligned optional and per-level columns, and from_numba fails on every output of comp_bar_footprints.", "quantifier": "all containers with consistent columns, all slice bounds, indices and dates", "why_tests_cant": "Fifteen columns, negative and missing bounds, arbitrary lengths; consistency between columns is a universal statement.", "anchors": ["finmlkit/bar/data_model.py:FootprintData.__getitem__", "finmlkit/bar/data_model.py:FootprintData.is_valid", "finmlkit/bar/data_model.py:FootprintData.from_numba"]}
{"id": "C76", "title": "The footprint table holds every price level exactly once", "statement": "Converting a consistent footprint container to a table gives one row per bar and price level with that level's values, ordered by bar time and falling price; per bar the volumes and tick counts are those of the container, and end to end they add up to the OHLCV row of the bar. With distinct close times the bars follow each other; bars with equal close times are interleaved by price.", "quantifier": "all consistent containers; end to end: all trades and all builder kinds", "why_tests_cant": "Flattening and sorting nested arrays of arbitrary shape; conservation is a statement over all inputs.", "anchors": ["finmlkit/bar/utils.py:footprint_to_dataframe", "finmlkit/bar/data_model.py:FootprintData.get_df"]}
{"id": "C77", "title": "Reading a trade archive", "statement": "An archive with six or seven columns and integral ids and times on every line yields one trade per line, with its values, in time order; any other width or any non-integral id or time rejects the whole archive. Maker flags are the truth values, or 1, or an accepted spelling.", "quantifier": "all archives (any number of lines and cells)", "why_tests_cant": "Column typing depends on all lines of a file; one unusual cell changes the reading of every other line.", "anchors": ["scripts/binance2h5.py:load_csv_from_zip"]}
{"id": "C78", "title": "Names of archives and files identify symbol, market and months", "statement": "The archive of a month is processed exactly when the month is selected; URL and file names agree; the month range in a file name is read back; within a century the two-digit rendering orders months; an existing file is renamed only if it has the same symbol, market and start and an earlier end; renaming loses nothing.", "quantifier": "all symbols, markets, months and directories", "why_tests_cant": "Regular expressions and string comparison over all names; renaming over all directory contents.", "anchors": ["scripts/binance2h5.py:_process_task", "scripts/binance2h5.py:market_label", "scripts/binance2h5.py:build_urls", "scripts/binance2h5.py:parse_range_from_name", "scripts/binance2h5.py:orchestrate_symbol"]}
{"id": "C79", "title": "Archives after the download phase", "statement": "After the download phase an archive that is present passes verification against the checksum that is present, or comes from the one re-download, or is the rest of an interrupted transfer; verified archives are left alone; the digest is the first word of 64 (else 32) hexadecimal digits of the checksum file.", "quantifier": "all sequences of download outcomes, all checksum texts", "why_tests_cant": "Outcomes of several network attempts combine; the text of a checksum file is arbitrary.", "anchors": ["scripts/binance2h5.py:download_file", "scripts/binance2h5.py:orchestrate_symbol", "scripts/binance2h5.py:_read_checksum_file"]}
{"id": "C80", "title": "Feature arithmetic is row by row", "statement": "A feature built from other features with +, -, *, /, constants, abs, min, max, clip, log, sqrt, exp and square yields in each row the value of that formula on the row values of its sources, with the IEEE rules for NaN, infinities and division by zero; operators accept features and plain numbers on either side and reject everything else; lag and the exponential means have their closed forms.", "quantifier": "all feature expressions (any depth), all columns", "why_tests_cant": "Expressions nest arbitrarily and every row may hold NaN or an infinity; tests see a few combinations.", "anchors": ["finmlkit/feature/kit.py:Feature", "finmlkit/feature/base.py:BinaryOpTransform", "finmlkit/feature/base.py:ConstantOpTransform", "finmlkit/feature/base.py:UnaryOpTransform", "finmlkit/feature/base.py:MinMaxOpTransform"]}
{"id": "C81", "title": "Generated feature names identify the feature", "statement": "Two expressions over base transforms with the same generated name are the same expression, provided base names are free of operator characters and functions have distinct names; a kit with such features gives each the value it has on its own. Without the proviso the second of two features with one name gets the values of the first.", "quantifier": "all feature expressions (any depth) over all base names", "why_tests_cant": "Injectivity of a printing function over an infinite set of expressions.", "anchors": ["finmlkit/feature/kit.py:Feature", "finmlkit/feature/kit.py:FeatureKit.build", "finmlkit/feature/base.py:BinaryOpTransform", "finmlkit/feature/base.py:ConstantOpTransform"]}
{"id": "C82", "title": "What the output name of a transform records", "statement": "The output names of two transforms are equal exactly if the classes and the recorded parameters are equal; single-input column names add the input column, multi-input ones do not.", "quantifier": "all transform classes and all parameter values", "why_tests_cant": "Pairs of classes and parameters are unbounded; injectivity cannot be sampled.", "anchors": ["finmlkit/feature/transforms.py:ReturnT", "finmlkit/feature/transforms.py:Return", "finmlkit/feature/transforms.py:ZScore", "finmlkit/feature/transforms.py:VWAPDistance", "finmlkit/feature/transforms.py:BarRate", "finmlkit/feature/base.py:SISOTransform", "finmlkit/feature/base.py:MISOTransform"]}
{"id": "C83", "title": "Volume profile of a time range equals that of the whole data set", "statement": "compute_range returns exactly the bars from one window before start to end; bars closing at least one window after the first of them have the profile that compute gives for the whole data set; all bars before start are without profile.", "quantifier": "all containers with increasing close times, all bars, ranges, windows and parameters", "why_tests_cant": "The equality is between two computations over all data sets and ranges; warm-up depends on the spacing of bars.", "anchors": ["finmlkit/feature/core/volume.py:VolumePro.compute_range", "finmlkit/feature/core/volume.py:VolumePro.compute", "finmlkit/feature/core/volume.py:VolumePro.reset_parameters"]}
{"id": "C84", "title": "Calling wrapped external functions", "statement": "An external function gets the required columns in order, then the further arguments; its results become columns with the declared names, arrays on the index of the frame; the function is looked up once, at module and name split at the last dot; a transform rebuilt from its configuration behaves the same if that lookup gives the original function.", "quantifier": "all functions, import systems, frames and parameters", "why_tests_cant": "The function and the import system are arbitrary; the statement is about every result shape.", "anchors": ["finmlkit/feature/transforms.py:ExternalFunction", "finmlkit/feature/utils.py:transform_from_config"]}
{"id": "C85", "title": "Legacy tick size is the median price gap to two digits", "statement": "comp_price_tick_size_old returns a median of the gaps between neighbouring distinct prices among the first 10000, within 5 percent; exactly the gap g if more than half of the gaps are g and g has at most two significant digits; it depends on the set of those prices only; an error for no prices and zero for one distinct price.", "quantifier": "all rational price lists", "why_tests_cant": "The statements range over all price lists and all decimal magnitudes; order independence relates arbitrary pairs of lists.", "anchors": ["finmlkit/bar/utils.py:comp_price_tick_size_old"]}
{"id": "C86", "title": "The float64 time-bar clock covers the trades", "statement": "With whole-second intervals and nanosecond timestamps between 2^53 and 2^61 the clock computed in float64 consists of consecutive multiples of the interval, starts at most 128 ns too late and ends at most 384 ns too early; on microsecond timestamps it is the exact clock without its last tick, and every trade after the first tick is in exactly one bar, the one whose interval contains it.", "quantifier": "all timestamp lists, all whole-second intervals, all trades and bars", "why_tests_cant": "Rounding of 61-bit integers to 53 bits affects only boundaries; tests with small timestamps never round.", "anchors": ["finmlkit/bar/logic.py:_time_bar_indexer"]}
{"id": "C87", "title": "Time searches through float64 find the right bar", "statement": "On microsecond timestamps from 2006 to 2043 and windows of whole seconds, the vertical barrier index is the last bar at or before event time plus barrier, the lagged index the last bar at or before time minus window, and the first bar with a return the first one a window after the start; a window of one microsecond gives the previous bar when bars are two microseconds apart.", "quantifier": "all sorted timestamp lists, events and windows", "why_tests_cant": "Double rounding of timestamp and target is invisible for small test timestamps.", "anchors": ["finmlkit/label/tbm.py:triple_barrier", "finmlkit/feature/core/utils.py:comp_lagged_returns"]}
{"id": "C88", "title": "Float64 bar volumes, dollar values and VWAPs are accurate", "statement": "The float64 volume, dollar value and VWAP of a bar differ from the exact ones by a factor (1±2^-53)^k with k at most the number of trades for the volume, one more for the dollar value, and twice the number of trades plus two (signs of both kinds) for the VWAP; the volume is at least every single trade volume, and exact when the volumes are multiples of a common unit below 2^53 units; the stored float32 volume has one more factor (1±2^-24).", "quantifier": "all bars of non-negative prices and volumes", "why_tests_cant": "The error bound holds for every order of magnitude and number of trades; tests compare with a tolerance on one example.", "anchors": ["finmlkit/bar/base.py:comp_bar_ohlcv"]}
{"id": "C89", "title": "Float64 volume and dollar bars close near their thresholds", "statement": "Each float64 volume bar closes at the first trade at which the rounded running volume reaches the threshold, which is within a factor (1±2^-53)^k of the exact one; for volumes on a common grid the bars are the exact ones.  The dollar value counted by dollar bars, number of bars times threshold plus remainder, equals the traded dollar value up to a bound linear in the number of trades times 2^-53 times the threshold.", "quantifier": "all trade lists and thresholds", "why_tests_cant": "Accumulated rounding shifts closing trades only for particular decimal volumes.", "anchors": ["finmlkit/bar/logic.py:_volume_bar_indexer", "finmlkit/bar/logic.py:_dollar_bar_indexer"]}
{"id": "C90", "title": "Running sums return to the window sum", "statement": "The running sums of VWAP distance, Bollinger %B and VPIN equal the sums over the current window up to rounding; the error after n updates grows at most like ((1+2^-53)^n - 1)(W + 3M), W bounding the window sums and M the updates.", "quantifier": "all series and window lengths", "why_tests_cant": "Drift depends on the whole past of a series; one extreme value far outside the window can change all later outputs.", "anchors": ["finmlkit/feature/core/reversion.py:vwap_distance", "finmlkit/feature/core/volatility.py:bollinger_percent_b", "finmlkit/feature/core/volume.py:vpin"]}
{"id": "C91", "title": "Float64 oscillators stay in their ranges", "statement": "Float64 RSI and ADX values lie in [0, 100] for every price series; %K lies in [0, 100(1+2^-53)^2].", "quantifier": "all price series; windows from 1 (ADX: to 2^40)", "why_tests_cant": "Range at the boundary under rounding needs every operand, not samples.", "anchors": ["finmlkit/feature/core/momentum.py:rsi_wilder", "finmlkit/feature/core/momentum.py:stoch_k", "finmlkit/feature/core/trend.py:adx_core", "finmlkit/feature/core/utils.py:comp_zscore"]}
{"id": "C92", "title": "Footprint levels are exact in float64, level volumes are float32 sums", "statement": "For prices and tick size stored as the nearest float64 of k*T and T, the level of a price is exactly k up to 2^50 ticks; so the float footprint of a bar has exactly the ticks from low to high as levels, each counts exactly its buys and sells, and its volume is the float32 running sum of their amounts in trade order, within a factor ((1±2^-24)(1±2^-53))^n of the exact one and exact for small multiples of a power of two.", "quantifier": "all tick sizes, bars and trades on the grid", "why_tests_cant": "Whether some decimal price divided by some decimal tick rounds to a neighbouring level cannot be tested for all pairs.", "anchors": ["finmlkit/bar/base.py:comp_bar_footprints"]}
{"id": "C93", "title": "A kit of causal features is causal", "statement": "If every function in a kit commutes with cutting columns to their first k rows, building on the first k rows gives the first k rows of the full build, in defined and in topological order, with failures in the same cases; every expression made with the operators and methods of Feature from causal transforms has this property unless it uses a negative lag or a user function that has not.", "quantifier": "all kits, expressions, frames, names and k", "why_tests_cant": "Look-ahead hides in combinations of cached columns and composed transforms; tests look at single features.", "anchors": ["finmlkit/feature/kit.py:FeatureKit.build", "finmlkit/feature/kit.py:Feature", "finmlkit/feature/base.py:BinaryOpTransform"]}
{"id": "C94", "title": "Footprint integers are stored exactly if and only if they fit", "statement": "The stored flag totals are the numbers of flagged levels modulo 65536 and equal to them iff below 65536; the stored longest run is the run iff it lies in [-32768, 32767]; the stored levels are the levels iff low and high lie in [-2^31, 2^31) ticks; the stored COT level is the stored form of the COT level. Outside these ranges a run of buys is stored as a run of sells, 65536 flags as none, and levels are not ascending.", "quantifier": "all bars, trades, factors and roundings", "why_tests_cant": "Overflow needs bars with tens of thousands of levels, which no test builds.", "anchors": ["finmlkit/bar/base.py:comp_bar_footprints", "finmlkit/bar/base.py:comp_footprint_features"]}
{"id": "C95", "title": "Directional bar features under rounding", "statement": "Stored buy and sell volumes and dollar values are the float64 sums in trade order rounded once to float32; the stored extremes are the largest and smallest float64 balance (or the sentinels) rounded once, although they are rounded at every trade; every balance is within ((1+2^-53)^n - 1) times the traded volume of the exact one and exact for small multiples of a power of two; exchanging buys and sells negates and exchanges the columns exactly; the largest spread is the exact largest price move at a change of side, rounded to float64 (exact for neighbouring prices within a factor of two) and stored in float32, zero only when it is zero; the mean spread is within one rounding per change of side, two more and the float32 store of the exact mean.", "quantifier": "all bars and trades", "why_tests_cant": "Rounding at each trade could accumulate; tests compare a few bars with a tolerance.", "anchors": ["finmlkit/bar/base.py:comp_bar_directional_features"]}
{"id": "C96", "title": "Tick rule and merging of split trades under rounding", "statement": "With prices stored as nearest float64 of k*T: for T >= 4e-12 and |k| <= 2^50 the inferred sides are exactly those of the tick rule on the integers k; for T >= 4e-8 the merged trades are exactly the maximal consecutive blocks of equal timestamp, price and side; the merged amount is the float32 running sum, within (1 +- 2^-24)^(n+1) of the sum of the block and exact for at most 2^24 units of a power of two.", "quantifier": "all grids, step counts, amounts and trade lists", "why_tests_cant": "Prices such as 0.1 are never exact, so whether a fixed tolerance separates them depends on the grid and magnitude, which tests sample at one tick size.", "anchors": ["finmlkit/bar/utils.py:comp_trade_side_vector", "finmlkit/bar/utils.py:merge_split_trades", "finmlkit/bar/data_model.py:_merge_trades"]}
{"id": "C97", "title": "CUSUM filter with missing prices and thresholds", "statement": "A missing price cuts the series: the events are those of the part before it followed by the shifted events of the part after it, each filtered from empty sums, and neither the gap bar nor the next bar is an event. While thresholds are missing nothing is reported but the sums run on: the first bar j with a threshold t is an event iff the returns of some stretch ending at j add up to more than t in size. Without missing values the filter is the one of C31.", "quantifier": "all series, thresholds (nonnegative or missing) and gap positions", "why_tests_cant": "Whether a NaN poisons the sums or clears them depends on the argument order of max and min; only NaN-bearing inputs reach it and tests use clean series.", "anchors": ["finmlkit/sampling/filters.py:cusum_filter"]}
{"id": "C98", "title": "Sample weights under rounding", "statement": "In float64 and with sums taken in any order: the uniqueness weight of a label lies in (0, 1], equals 1.0 iff no other label overlaps, and is within (1 +- 2^-53)^(depth+2) of the exact mean; time decay gives exactly 1.0 to the newest observation, is nondecreasing and stays in [0, 1] for every float64 last_weight in (-1, 1]; normalised return attribution adds up to the number of events within explicit factors and keeps the order.", "quantifier": "all spans (fewer than 32768 labels, fewer than 2^52 bars), uniqueness weights, last_weight and summation orders", "why_tests_cant": "Equality with 1.0 after a chain of roundings cannot be established by sampling; parallel sums may be taken in any order.", "anchors": ["finmlkit/label/weights.py:average_uniqueness", "finmlkit/label/weights.py:time_decay", "finmlkit/label/weights.py:return_attribution"]}
{"id": "C99", "title": "Tick estimate from float64 prices is the float64 of the exact tick", "statement": "For prices given with d <= 12 decimals and stored as float64 (at most 2^44 steps in size), if two prices of the first 10000 are different but less than ten steps apart, comp_price_tick_size returns the float64 number nearest to the exact tick of the sampled decimal prices, whichever way log10 is rounded at the powers of ten. If two of them are one step apart the result is the float64 of the step, and with it the footprint level of every price with d decimals is exactly its number of steps.", "quantifier": "all decimal precisions up to 12, price lists, and rounding behaviours of log10 near powers of ten", "why_tests_cant": "Measured gaps are off by rounding in either direction (0.3 - 0.2 is below 0.1), so the decade may be one too small; whether the result is still right for every price list cannot be sampled.", "anchors": ["finmlkit/bar/utils.py:comp_price_tick_size", "finmlkit/bar/base.py:build_footprints"]}
{"id": "C100", "title": "Accuracy of exponentially weighted means and deviations in float64", "statement": "For complete series with |y| <= M and spans from 2 to 2^40, the float64 variance behind ewms is missing at the first observation, exists and is nonnegative from the second on, and differs from the exact unbiased weighted variance by at most 1350 (span+3) M^2 / 2^53; the float64 ewma (span >= 1) differs from the exact weighted mean by at most 45 (span+3) M / 2^53, whatever the length of the series.", "quantifier": "all series, spans, bounds M and positions", "why_tests_cant": "A bound independent of the series length needs the contraction of the recursion; tests compare a few short series with pandas, which makes the same rounding errors.", "anchors": ["finmlkit/feature/core/volatility.py:ewms", "finmlkit/feature/core/ma.py:ewma", "finmlkit/feature/core/volatility.py:ewmst"]}
{"id": "C101", "title": "Triple barrier labels under rounding", "statement": "In float64 the triple barrier method skips the same events as in exact arithmetic, never touches a barrier later, and touches earlier only at a bar whose exact return reaches a barrier up to relative errors of 2^-53 of return and barrier. If both stop at the same bar, the return is the correctly rounded exact return, the side label is equal, the meta-label is equal unless the return rounds up to exactly the minimum return, and the return-barrier ratio is in [0,1] and off by at most 25/2^53. Returns of log prices within a factor of two are exact.", "quantifier": "all log-price paths, targets, finite multipliers with non-negative barriers, sides 1 and -1, windows below 2^53 ns", "why_tests_cant": "Where a path meets a barrier up to one rounding is a measure-zero event that samples miss, and it decides the label; the bound on the ratio must hold for any path length.", "anchors": ["finmlkit/label/tbm.py:triple_barrier"]}
{"id": "C102", "title": "Time bars do not see the merging of split trades", "statement": "Merging split trades before building time bars leaves the bar stamps and every bar volume unchanged, changes open, high, low, close and volume-weighted price by at most the largest difference between mergeable prices (nothing on a price grid coarser than the tolerance), keeps buy and sell volumes, and can only lower trade counts, never to zero. On such a price grid a bar's footprint keeps its levels, per-level volumes and everything computed from them.", "quantifier": "all time-ordered trade lists with non-negative amounts, all intervals, tolerances and merge results in the sense of C17", "why_tests_cant": "Concerns the composition of two modules over all orders split across all bar boundaries; tests exercise the two modules separately.", "anchors": ["finmlkit/bar/utils.py:merge_split_trades", "finmlkit/bar/kit.py:TimeBarKit", "finmlkit/bar/base.py:comp_bar_ohlcv", "finmlkit/bar/base.py:comp_bar_directional_features", "finmlkit/bar/base.py:comp_bar_footprints"]}
{"id": "C103", "title": "Indicators and the units of price and volume", "statement": "Returns, RSI, stochastic, ADX, VWAP distance, volume burst, z-score, Bollinger percent, variance ratio and price-volume correlation do not depend on the units of price and volume; means, ranges and volatilities carry the unit. Features that compare with absolute constants (VPIN, flow acceleration, floors of the volatility) do so if the constants are converted too.", "quantifier": "all series, windows and positive conversion factors; square roots that are homogeneous", "why_tests_cant": "Scaling laws relate two runs on all inputs; tests check one run.", "anchors": ["finmlkit/feature/core/momentum.py:roc", "finmlkit/feature/core/volatility.py:ewmst", "finmlkit/feature/core/volume.py:comp_flow_acceleration", "finmlkit/feature/core/volume.py:vpin", "finmlkit/feature/core/utils.py:comp_burst_ratio"]}
{"id": "C104", "title": "Bars, footprints, events and labels under a change of units or origin of time", "statement": "With prices and volumes in other units, bars, directional features and footprints are the converted ones, threshold bars close at the same trades, CUSUM events, triple barrier labels and attributed returns do not change; moving all timestamps leaves labels, lagged returns and time-weighted deviations unchanged, and time bars too if the shift is a multiple of the interval.", "quantifier": "all trade lists, close indices, thresholds, positive conversion factors and time shifts; logarithms with log(cx) = log c + log x on positive prices (labels only)", "why_tests_cant": "Scaling and shift laws relate two runs on all inputs; tests check one run.", "anchors": ["finmlkit/bar/base.py:comp_bar_ohlcv", "finmlkit/bar/base.py:comp_bar_directional_features", "finmlkit/bar/base.py:comp_bar_footprints", "finmlkit/bar/logic.py:_dollar_bar_indexer", "finmlkit/sampling/filters.py:cusum_filter", "finmlkit/label/tbm.py:triple_barrier"]}
{"id": "C105", "title": "Log thresholds are price levels and decay is measured in time (real numbers)", "statement": "With the real logarithm, exponential and square root: CUSUM filter events and CUSUM bars are exactly the bars whose price has moved by a factor e^threshold from some price since the last event on that side; triple barrier events touch exactly when the close leaves [p0 e^(-target bottom), p0 e^(target top)] and are labelled by comparing the two closes; the weights of the time-decayed deviations are differences of e^(-age/half_life), add up to 1 - e^(-(elapsed)/half_life), and repeating a sample does not change the zero-mean deviation; log returns never exceed simple returns and have the same sign.", "quantifier": "all positive real price series, thresholds, multipliers, targets, timestamps and half-lives", "why_tests_cant": "Relates loops over logarithms to price levels for all real series; tests compare a few floating-point values.", "anchors": ["finmlkit/sampling/filters.py:cusum_filter", "finmlkit/bar/logic.py:_cusum_bar_indexer", "finmlkit/label/tbm.py:triple_barrier", "finmlkit/feature/core/volatility.py:ewmst_mean0", "finmlkit/feature/core/volatility.py:parkinson_range", "finmlkit/feature/core/volume.py:comp_flow_acceleration"]}
{"id": "C106", "title": "The labelling object: calls do not accumulate, labels stay aligned with features and weights", "statement": "A TBMLabel is built exactly when its documented checks hold and some event qualifies. A call of compute_labels succeeds exactly when there are as many prices as trades, the vertical barrier is positive and some event window ends by the last trade; then features and output have one row per covered event, in order, with the same times, and the object is the one a fresh labeller would hold after this call alone. Sample weights computed from it have the same rows, average uniqueness in (0,1] and non-negative return attribution.", "quantifier": "all event frames, configurations, sequences of calls (failing ones included), trades and prices", "why_tests_cant": "Quantifies over call histories with exceptions; tests use one object once.", "anchors": ["finmlkit/label/kit.py:TBMLabel", "finmlkit/label/kit.py:TBMLabel.compute_labels", "finmlkit/label/kit.py:TBMLabel.compute_weights", "finmlkit/label/kit.py:SampleWeights.compute_info_weights"]}
{"id": "C107", "title": "Buyers and sellers are treated alike", "statement": "If every trade changes its side, the directional bar features and footprint levels of buyers and sellers are exchanged (cumulative extremes reflected, spreads, volume point and profile statistics unchanged); footprint imbalances of the mirrored market are the mirrored imbalances; the tick rule on reflected prices gives the opposite sides; CUSUM filter and CUSUM bars fire at the same places on inverse prices when the threshold never decreases (bars: outside blocks of equal timestamps); a short position on inverse prices is labelled like the long one; side labels on inverse prices with exchanged multipliers are opposite unless the return is zero.", "quantifier": "all trades, sides, prices, bar boundaries, thresholds that do not decrease, and events", "why_tests_cant": "A relation between two runs for all inputs; unit tests fix one input per function.", "anchors": ["finmlkit/bar/base.py:comp_bar_directional_features", "finmlkit/bar/base.py:comp_bar_footprints", "finmlkit/bar/base.py:comp_footprint_features", "finmlkit/bar/utils.py:comp_trade_side_vector", "finmlkit/sampling/filters.py:cusum_filter", "finmlkit/bar/logic.py:_cusum_bar_indexer", "finmlkit/label/tbm.py:triple_barrier"]}
{"id": "C108", "title": "Indicators on mirrored prices", "statement": "With every price p replaced by c - p: RSI becomes 100 - RSI where both gains and losses exist, the stochastic %K becomes 100 - %K, ADX is unchanged, z-scores change sign, Bollinger %B becomes 1 - %B, candle wicks change places; VPIN is symmetric in buy and sell volume; on inverse prices the two directions of the structural-break statistic change places.", "quantifier": "all price and volume series, windows, reflection levels", "why_tests_cant": "A relation between two runs over all series.", "anchors": ["finmlkit/feature/core/momentum.py:rsi_wilder", "finmlkit/feature/core/momentum.py:stoch_k", "finmlkit/feature/core/trend.py:adx_core", "finmlkit/feature/core/utils.py:comp_zscore", "finmlkit/feature/core/volatility.py:bollinger_percent_b", "finmlkit/feature/core/volume.py:vpin", "finmlkit/feature/core/structural_break/cusum.py:_comp_max_s_nt", "finmlkit/feature/transforms.py:CandleShape"]}
{"id": "C109", "title": "The CUSUM builder fills the caller's volatility array in place", "statement": "Building CUSUM bars replaces the NaN gaps of the caller's array by the last value before them and changes nothing else; building again gives the same bars; get_sigma returns the filled volatility at the bar closes, which is not the threshold max(mult*sigma, floor) used for the bar; a later build on a window of the same array is unaffected if the window does not start inside a gap, but a window that starts inside a gap gets other bars if the whole array was built before; builds on disjoint windows commute.", "quantifier": "all trades, volatility arrays with NaN, floors, multipliers, windows", "why_tests_cant": "The effect is on the argument after the call; tests compare return values of one call.", "anchors": ["finmlkit/bar/logic.py:_cusum_bar_indexer", "finmlkit/bar/kit.py:CUSUMBarKit"]}
{"id": "C110", "title": "Loading trades and saving them again", "statement": "Loading a whole month in time order and saving it back changes no row of any month and nothing of any other month, but sets the integrity flag to None and the missing percentage to 0 and deletes the discontinuity records, so the month leaves the integrity summary. Loading a range over several months and saving it without a month key puts all rows into the first month; loading the range again returns every row of the other months at least twice. get_statistics returns the row count and the exact ranges of time, price and amount, which agree with the metadata for months saved in time order.", "quantifier": "all stores reachable by saves, frames, months, ranges, worker completion orders", "why_tests_cant": "A composition of calls over all stores; tests check one save and one load of a fresh file.", "anchors": ["finmlkit/bar/data_model.py:TradesData.save_h5", "finmlkit/bar/data_model.py:TradesData.load_trades_h5", "finmlkit/bar/io.py:H5Inspector.get_integrity_summary", "finmlkit/bar/io.py:H5Inspector.get_statistics"]}
{"id": "C111", "title": "Moving averages and rates of change in the type of the column", "statement": "sma and roc allocate their result with the type of the input column. In float64 the moving average of w non-negative numbers is the mean up to w+2 roundings. In an int64 column (the trade counts of a bar table) it is the mean rounded down when the window does not divide the sum, the mean or one less when it does, and exactly the mean rounded down for windows that are powers of two; the warm-up holds -2^63 and no position is NaN. The rate of change of an integer column is truncated towards zero: a change below one percent is reported as zero.", "quantifier": "all columns of non-negative numbers or integers (sums and windows up to 2^50), windows, periods", "why_tests_cant": "Tests use float64 columns; the integer results depend on the rounding of 1/w for each window.", "anchors": ["finmlkit/feature/core/ma.py:sma", "finmlkit/feature/core/momentum.py:roc", "finmlkit/bar/base.py:BarBuilderBase.build_ohlcv"]}
{"id": "C112", "title": "Logging is set up once and hides no record a handler wants", "statement": "Importing the library leaves a root logger that already has handlers unchanged. On a fresh root logger the set-up succeeds exactly when both level names are known and the log path, if given, has a directory part that can be created; then every record reaches exactly the handlers whose own level it reaches. A path without a directory fails after the console handler is installed, so every later call reports success without file logging.", "quantifier": "all environments, level names, paths and prior logger states", "why_tests_cant": "Tests run with one environment; the half-configured state appears only after a failed import.", "anchors": ["finmlkit/utils/log.py:setup_logging"]}
{"id": "C113", "title": "The bars are the bars of the raw trades, from the archives through the store", "statement": "Pre-processing raw archives (unit conversion, sort by time and id, merging of split trades, rounding to the processing resolution), saving each to its own month, loading any time range sequentially or in parallel, and building time bars gives a table in which every bar has the volume, and up to the merge tolerance the open, high, low, close and traded value, of exactly the raw trades in its interval and in the range. No raw trade is lost or counted twice, except that trades at the very first instant belong to no bar when that instant is a multiple of the interval.", "quantifier": "all archives with distinct ids in known units, all saves to distinct months, all load ranges and read orders, all bar intervals", "why_tests_cant": "Each stage is tested alone on small frames; the composition over several archives, units and months is not tested at all.", "anchors": ["finmlkit/bar/data_model.py:TradesData.__init__", "finmlkit/bar/data_model.py:TradesData.save_h5", "finmlkit/bar/data_model.py:TradesData.load_trades_h5", "finmlkit/bar/kit.py:TimeBarKit"]}
{"id": "C114", "title": "The backend argument selects one implementation for the whole kit", "statement": "With \"pd\" or \"nb\" FeatureKit.build runs that implementation in every base transform, through all compositions, operators and caches, and returns exactly when and what the kit of that single implementation returns. Implementations that are related column by column (equal, or equal up to anything the operations keep) give builds that either both raise or return the same names with related columns. Any other backend name raises as soon as a base transform, a composition or a multi-output transform has to run; a build that returns in spite of it is the same for every backend. Missing columns are named exactly, in order, before the backend is looked at. The timing report has one line per name, slowest first, with bars of at most fifty characters.", "quantifier": "all column types, frames, transforms, operators, feature lists, backend names and relations between columns", "why_tests_cant": "Tests call both backends on single transforms; no finite set of kits covers arbitrary nesting with cached columns, and no test passes an unknown backend to a kit with cached columns.", "anchors": ["finmlkit/feature/base.py:CoreTransform.__call__", "finmlkit/feature/kit.py:Compose.__call__", "finmlkit/feature/kit.py:Feature.__call__", "finmlkit/feature/kit.py:FeatureKit.build"]}
{"id": "C115", "title": "Bars of a stretch of the data against bars of the whole", "statement": "Let the data from trade s on be processed as a data set of its own. For tick bars, for volume bars with non-negative volumes, and for dollar bars whose trades are non-negative and below the threshold, the number of bars closed between s and any later trade differs from that of the whole data set by at most one, and always in the same direction. After a volume close the later bars are those of the remaining trades preceded by a trade of volume zero; tick bars restarted at a close come exactly one trade early, for ever. A fresh CUSUM run never closes its first bar before a run that arrives with accumulated sums. With a constant threshold and no shared timestamps the CUSUM bars after a close are those of a fresh run from that close, although the code resets one side only.", "quantifier": "all data, all thresholds, all starting trades, all later trades", "why_tests_cant": "The count in every window is a statement about all prefixes of all data sets; the one-sided reset is harmless only by an invariant of the two sums.", "anchors": ["finmlkit/bar/logic.py:_tick_bar_indexer", "finmlkit/bar/logic.py:_volume_bar_indexer", "finmlkit/bar/logic.py:_dollar_bar_indexer", "finmlkit/bar/logic.py:_cusum_bar_indexer"]}
{"id": "C116", "title": "Constructing a trades object", "statement": "Without pre-processing TradesData accepts exactly columns of one length and stores them unchanged; the timestamps are taken for nanoseconds whatever unit is given, and maker flags, ids and resolution have no effect. Passing the columns and the index of an object back, as loading from the store does, gives the same columns and index. With pre-processing the ids are required, a given side column is ignored, and a given index must have the length of the merged result. Pre-processing a pre-processed table again, in nanoseconds, with increasing ids and the maker flags of its sides, changes nothing.", "quantifier": "all columns, all combinations of optional arguments, all tables, units, ids and tolerances", "why_tests_cant": "Idempotence ranges over all tables and needs the maximality of merging together with order and 64-bit wrap-around; tests construct a handful of objects with one combination of arguments.", "anchors": ["finmlkit/bar/data_model.py:TradesData.__init__", "finmlkit/bar/data_model.py:TradesData._merge_trades", "finmlkit/bar/data_model.py:TradesData.load_trades_h5"]}
{"id": "C117", "title": "Appending trades does not repaint bars or features", "statement": "For tick, volume and dollar bars, and for CUSUM bars when the volatility array is extended, has a number among the earlier trades and the first new trade has a new timestamp, every table built from the data (close indices, close timestamps, OHLCV, directional, trade-size features with extended typical sizes, footprints with a given tick size) is the beginning of the table built from the data with trades appended, whatever calls came before. Time bars stamped before the first new trade keep their place and content (directional rows up to the spreads, trade-size rows, footprints with a given tick size). Feature columns that a kit of backward-looking features computes from the OHLCV table keep their earlier values.", "quantifier": "all trades, all appended trades, all thresholds, all call histories of both builders, all kits of features that commute with taking a prefix", "why_tests_cant": "The claim compares two runs on data of different lengths for every possible continuation and follows the values from trades to feature rows; tests run once on one dataset.", "anchors": ["finmlkit/bar/kit.py", "finmlkit/bar/base.py:BarBuilderBase", "finmlkit/bar/logic.py", "finmlkit/feature/kit.py:FeatureKit.build"]}
{"id": "C118", "title": "CUSUM events and CUSUM bars in float64 are the exact ones unless a price ratio is at the threshold", "statement": "Let the float64 logarithm be accurate to one unit in the last place and let L bound the log ratios of all prices. If at no position the log ratio of the price there to an earlier price comes within n(5L+8)/2^52 of the threshold there, the events of the float64 filter are exactly those of the exact filter with the real logarithm; the same for the bars, with the rounding of sigma_mult*sigma added to the margin. Without any margin: wherever a single float64 log return exceeds the threshold, the float64 filter reports an event and the float64 bar indexer closes a bar (at trades where a bar may close).", "quantifier": "all positive prices, all thresholds and volatility arrays, all lengths up to 2^52, all logarithms of the assumed accuracy", "why_tests_cant": "Rounding errors accumulate over the whole run; a test compares one run with itself and cannot bound the drift of the sums for all prices.", "anchors": ["finmlkit/sampling/filters.py:cusum_filter", "finmlkit/bar/logic.py:_cusum_bar_indexer"]}
{"id": "C119", "title": "File modes and view ranges of saves", "statement": "After any history of saves in modes \"a\" and \"w\" each month holds exactly what was last saved to it since, and including, the last save in mode \"w\"; earlier content of the file is gone. Mode \"r\" and unknown modes raise and change nothing, \"r+\" is \"a\" on an existing file and fails on a missing one. An object with a view range saves exactly the trades of the view under the month of the first of them, replacing the month, with the integrity report of the whole object; an empty view without a month key leaves the file untouched in every mode.", "quantifier": "all files, all histories of saves, all month keys, all objects with time-ordered trades and all view ranges", "why_tests_cant": "Which months survive depends on the whole sequence of modes, keys and views; tests save once to a fresh file.", "anchors": ["finmlkit/bar/data_model.py:TradesData.save_h5", "finmlkit/bar/data_model.py:TradesData.data"]}
{"id": "C120", "title": "Rolling approximate entropy", "statement": "With the package installed and templates that fit into the window (2 <= m < window) a row has a value exactly if its window is complete and has no missing entry; otherwise the call raises as soon as one complete window exists, and always without the package. The value depends only on the window (causal), is unchanged when the column is replaced by a*x+b with a != 0, is zero on a window of equal values, and lies between -log(window-m+1) and log(window-m).", "quantifier": "all columns with missing values, all windows, template lengths, tolerances, all affine changes of the column", "why_tests_cant": "Invariance and range quantify over all columns; tests compare single values.", "anchors": ["finmlkit/feature/transforms.py:ApproximateEntropy"]}
{"id": "C121", "title": "Resampled time bars in terms of the trades", "statement": "Building time bars of an interval I and resampling them to a multiple d gives rows that summarise, each, exactly the trades from I before the row's label to I before the next label (those after the beginning of the first fine interval): volume, count, volume-weighted price, close, and high and low up to the open. The open is the first trade of the window if the first fine interval has a trade and otherwise the last price before the window. Every later trade belongs to exactly one row.", "quantifier": "all time-ordered non-empty trade lists with non-negative amounts, all fine intervals and all their multiples", "why_tests_cant": "The claim relates the output of two modules to the raw trades for every alignment of trades, fine and coarse clocks; tests compare resampled bars with hand-made fine bars only.", "anchors": ["finmlkit/bar/io.py:TimeBarReader._resample", "finmlkit/bar/kit.py:TimeBarKit", "finmlkit/bar/logic.py:_time_bar_indexer", "finmlkit/bar/base.py:comp_bar_ohlcv"]}
{"id": "C122", "title": "Second moments of a window under float64 rounding", "statement": "In float64 the mean square of realized_vol is within the factors (1 +- 2^-53)^(n+2) of the exact one over n present returns, without any condition on the returns. The rolling variance, a difference of two means, is off by at most (6n+17) 2^-53 M^2 n/(n-ddof) for values of size at most M, and is missing exactly when the exact one is. The two-pass variance of comp_zscore is within (1 +- 2^-53)^(n+4) of a number between the exact variance V and V + n/(n-ddof) ((n+2) 2^-53 M)^2, and every squared z-score is at most (n-ddof)(1+2^-53)^2/(1-2^-53)^4. The rolling variance of a constant series can be positive, and the variance ratio of steadily growing prices, which has no value in exact arithmetic, can be a ratio of two rounding errors. With a correctly rounded square root, realized_vol is within the relative error 4/3 (n+4) 2^-53 of the real root, and for a positive variance V the z-score differs from the real z by at most |z| (k + 4/3 (n+9) 2^-53) + 2d/sqrt V, d = (n+2) M 2^-53 and k = n/(n-ddof) d^2/V.", "quantifier": "all series with missing values, all windows up to 2^40, all ddof, all bounds M; for the z-score every square root as accurate as a rounded one", "why_tests_cant": "The size of the rounding error over all inputs cannot be sampled; the effect on data with little variation appears only on particular mantissas.", "anchors": ["finmlkit/feature/core/volatility.py:realized_vol", "finmlkit/feature/core/volatility.py:rolling_variance_nb", "finmlkit/feature/core/volatility.py:variance_ratio_1_4_core", "finmlkit/feature/core/utils.py:comp_zscore"]}
{"id": "C123", "title": "Appending data does not change settled labels; weights of a label change only when a new label meets it", "statement": "The row of an event (label, touch, return, ratio, touch time) is final once every further trade comes after its vertical barrier measured from the trade that opens it; so with events at trade times and strictly later trades, the rows computed from more trades and more events begin with the rows computed before. The events kept from more rows begin with those kept before when every column already has a value. A new label never raises the average uniqueness of an old one, and leaves it equal exactly when it does not meet its span; then the return attribution is unchanged too. Without these conditions labels, events and weights are repainted.", "quantifier": "all ordered trade lists, all appended trades, prices and events, all labelling parameters; up to 32767 labels for uniqueness", "why_tests_cant": "Look-ahead through re-labelling shows only when the same data set is labelled twice with different ends; a test labels one data set once.", "anchors": ["finmlkit/label/kit.py:TBMLabel.compute_labels", "finmlkit/label/kit.py:TBMLabel._drop_trailing_events", "finmlkit/label/kit.py:TBMLabel._preprocess_features", "finmlkit/label/tbm.py:triple_barrier", "finmlkit/label/weights.py:average_uniqueness", "finmlkit/label/weights.py:return_attribution"]}
{"id": "C124", "title": "Volume profile in float32 and float64", "statement": "With the level volumes, their total and the volumes of pairs of levels rounded to float32 and the running volume to float64: the point of control is the first level of largest stored volume; the value-area loop ends within n + 2 passes; LVA <= POC <= HVA are levels; the area is a greedy extension of the point of control in which a one-sided step goes to the side that really holds more and a two-sided step means agreement to 2^-23; for 0 <= va_pct <= 100 the levels of the area hold the requested share of the volume up to (n + 2)/2^24 of it and the area before the last step misses it up to the same roundings. If the volumes are multiples of a power of two with a total of at most 2^24 of it, only the threshold is rounded. The share above the point of control is the exact one up to the stated factors, never negative, and at most 1 for up to 4095 levels.", "quantifier": "all profiles of non-negative float32 volumes, all percentages (coverage: up to 2^26 levels)", "why_tests_cant": "Rounding of long sums shows on profiles with thousands of levels; tests use a handful of small integers, for which every sum is exact.", "anchors": ["finmlkit/feature/core/volume.py:comp_poc_hva_lva", "finmlkit/feature/core/volume.py:calc_volume_percentage_above_poc", "finmlkit/feature/core/volume.py:aggregate_footprint"]}
{"id": "C125", "title": "Footprint statistics in float32 and float64", "statement": "With level volumes in float32, totals and proportions in float32 and the products with the imbalance factor in float64: a level is never flagged that exact arithmetic on the stored volumes would not flag, and is missed only when its volume equals the rounded product; with a factor of at most 29 significant bits (the default 3.0) all flags and the longest signed run are exact. The centre of trades has the largest float32 total, is the lowest such level, and exceeds every lower level exactly. The concentration measure is the exact one up to (3n + 8)/2^23 for n <= 2^21 levels.", "quantifier": "all levels, all stored volumes (non-negative for the centre of trades and the concentration), all factors", "why_tests_cant": "Rounding coincidences need volumes chosen to the last bit; the error of the skew appears only for prices of millions of ticks, while tests use small integers and switch the compiler off in CI.", "anchors": ["finmlkit/bar/base.py:comp_footprint_features"]}
{"id": "C126", "title": "The training set built from trades only grows when trades are appended", "statement": "Bars, features and triple-barrier labels computed in sequence: for tick, volume, dollar and CUSUM bars, features that look only backwards and ordered trades, the list of samples (features with label, return, weight and touch time) of the first trades is the beginning of the list of samples of all trades, if the new trades are later than the old and every column has a value in the old bars. For time bars the features of the samples are kept in their places, and so is every sample whose window, counted from the first trade at or after the bar's stamp, ends before the first new trade.", "quantifier": "all trades, all later trades, all bar parameters, all feature kits that commute with truncation, all barrier settings without an event_idx column", "why_tests_cant": "A look-ahead between three modules is visible only when the whole pipeline is run twice on data of different length and compared; the tests exercise each module alone.", "anchors": ["finmlkit/bar/base.py:BarBuilderBase.build_ohlcv", "finmlkit/feature/kit.py:FeatureKit.build", "finmlkit/label/kit.py:TBMLabel.compute_labels"]}
{"id": "C127", "title": "How the indicators treat missing values", "statement": "Moving average, z-score, percentage change, rate of change and Parkinson range are missing exactly while a missing value is in the window. Flow acceleration and Bollinger %B are as usual before the first missing value and missing for ever from it on. The VWAP distance freezes at its last value after a missing volume (and is missing throughout if the volume is in the first window) and is missing for ever after a missing price. RSI is missing throughout if one of the first w + 1 prices is missing; a later missing price repeats the RSI of the position before it twice. The stochastic oscillator is missing throughout if lows and highs of the first window both have a missing value. ADX is never missing: a missing high or low sets the directional index to 0 from then on, so ADX decays by (len - 1)/len per bar. The structural-break statistic keeps its initial values (no break) whenever a price up to the index is missing. Without missing values up to an index each function has the value of the model on numbers.", "quantifier": "all columns with and without missing values, all windows, all positions; log and square root arbitrary", "why_tests_cant": "The loops have no NaN test, so what a NaN does depends on which running sum it enters and on the direction of each comparison; the tests use complete columns.", "anchors": ["finmlkit/feature/core/ma.py:sma", "finmlkit/feature/core/utils.py:comp_zscore", "finmlkit/feature/core/utils.py:pct_change", "finmlkit/feature/core/momentum.py:roc", "finmlkit/feature/core/momentum.py:rsi_wilder", "finmlkit/feature/core/momentum.py:stoch_k", "finmlkit/feature/core/trend.py:adx_core", "finmlkit/feature/core/reversion.py:vwap_distance", "finmlkit/feature/core/volatility.py:bollinger_percent_b", "finmlkit/feature/core/volatility.py:parkinson_range", "finmlkit/feature/core/volume.py:comp_flow_acceleration", "finmlkit/feature/core/structural_break/cusum.py:_comp_max_s_nt"]}
{"id": "C128", "title": "Parallel loops: the result does not depend on the schedule", "statement": "If no two iterations of a parallel loop access the same array cell, every interleaving of their single loads and stores that lets all iterations finish leaves the memory of the sequential loop. The loop of comp_bar_directional_features, whose iterations read, compare and rewrite cells of six output arrays once per trade, satisfies this, and under every complete schedule its rows are those of the sequential model. A loop that stores once in out[i] gives the value of iteration i at i under every schedule.", "quantifier": "all trades, bars and inputs; all schedules at the level of single loads and stores; any number of iterations and register types in the general theorem", "why_tests_cant": "Races depend on the thread scheduling of one run; a test sees one interleaving on one machine.", "anchors": ["finmlkit/bar/base.py:comp_bar_directional_features", "finmlkit/feature/core/ma.py:sma", "finmlkit/feature/core/utils.py:comp_zscore", "finmlkit/feature/core/volatility.py:true_range", "finmlkit/sampling/filters.py:cusum_filter"]}
{"id": "C129", "title": "What appending events does to the weights of earlier events", "statement": "When events are appended, the time-decay weight of no earlier event rises. Of two earlier events the older gains relative to the younger for last_weight > 0, their ratio stays for last_weight = 0, and the older loses for last_weight < 0. Without decay (the default) the final weights of all earlier events are multiplied by one positive factor, with or without return attribution and vertical-touch weights; with class balancing the factor depends only on the class. Multiplying the return attribution by a positive number changes no final weight.", "quantifier": "all uniqueness values >= 0 of the old and the new events with positive old total; every last_weight in (-1, 1]; all attribution and vertical-touch columns; all labels with positive class totals", "why_tests_cant": "It compares two runs on samples of different size; tests check one run.", "anchors": ["finmlkit/label/weights.py:time_decay", "finmlkit/label/weights.py:class_balance_weights", "finmlkit/label/kit.py:SampleWeights.compute_final_weights"]}
{"id": "C130", "title": "True range, average true range, flow acceleration and burst ratio in float64", "statement": "The float64 true range is the exact one rounded once. The average true range is NaN exactly where the exact one is and otherwise within w + 2 roundings of it (three more per bar for the exponential average; one more above and two below the fraction when normalised). The stretch volumes of the flow acceleration are off by at most the rounding of the running total of all volume so far, and exact for whole numbers with total up to 2^53. The burst ratio is NaN where the exact one is, equals its rounding for odd windows and is within three roundings for even ones.", "quantifier": "all columns of high, low, close with NaN anywhere (first low <= first high); all windows >= 1; both averages, with and without normalisation; all non-negative volumes", "why_tests_cant": "Tests compare a few rounded values with a tolerance; the bound is for all data and every length, and the loss after a large volume needs extreme data.", "anchors": ["finmlkit/feature/core/volatility.py:true_range", "finmlkit/feature/core/volatility.py:atr", "finmlkit/feature/core/volume.py:comp_flow_acceleration", "finmlkit/feature/core/utils.py:comp_burst_ratio"]}
{"id": "C131", "title": "Trade-size features in float64 and float32", "statement": "In the arithmetic of the compiled code the stored concentration and the stored block share of a bar always lie in [0, 1], whatever the number and the sizes of the trades. The concentration of n trades differs from the exact one by at most (4 n + 5) 2^-53 (plus 2^-24 for the float32 storage), the block share by (3 n + 2) 2^-53 (plus 2^-24). The share is 0 exactly when no positive trade exceeds the rounded threshold and 1 when all do. The same rows are missing as in exact arithmetic, and the mean size enters the logarithm within n + 2 roundings of mean / threshold (one more for the threshold).", "quantifier": "all lists of non-negative float64 trade sizes of any length (error bounds: up to 2^40 trades); all positive typical sizes and multipliers; all functions in place of log1p and the percentile", "why_tests_cant": "A negative concentration could only arise from rounding errors that accumulate over millions of trades or between trades of extreme ratio; the proof is an invariant of the summation loop that no finite set of bars can check.", "anchors": ["finmlkit/bar/base.py:comp_bar_trade_size_features"]}
{"id": "C132", "title": "Structural-break statistic in float64", "statement": "With a correctly rounded square root and a variance estimate of at least 1e-30, the squared upward (downward) statistic at index t of a float64 log-price series is at least 1 - (t + 14) 2^-53 times every squared exact departure from the start indices 1 to t - 2, and at most 1 + 4/3 (t + 14) 2^-53 times the departure of the index whose critical value is returned. It is 0 exactly when the last log price is not above (not below) any of the start prices. The critical value belongs to the first maximiser of the computed departures; the squared critical value of a start index is 4.6 + log(t - n) up to the relative error 6*2^-53 and exceeds 4.", "quantifier": "all float64 log-price series, all t from 3 to 2^40, all logarithms, all square roots accurate to one rounding; first-maximiser statement for every square root and every sigma > 0", "why_tests_cant": "Tests evaluate a few series; the bound covers every cancellation in differences, every sum of squares and every choice of the maximiser.", "anchors": ["finmlkit/feature/core/structural_break/cusum.py:_comp_max_s_nt", "finmlkit/feature/core/structural_break/cusum.py:cusum_test_developing", "finmlkit/feature/core/structural_break/cusum.py:cusum_test_last"]}
{"id": "C133", "title": "Simple returns and the moving average in float64", "statement": "A return a / b - 1 of positive float64 prices has exactly the sign of a - b and an error of at most 3 (a/b + 1) 2^-53; a return (a - b) / b has that sign and a relative error of at most 3 * 2^-53, position by position for a percentage-change column with the same missing values. A moving average of nonnegative values is missing at the same positions as the exact one and within window + 2 roundings of it elsewhere, and is exact for a window of a power of two and prices that are moderate multiples of a power of two.", "quantifier": "all positive float64 price pairs; all columns, periods, windows and positions; unbounded exponent range", "why_tests_cant": "The sign statement concerns adjacent float64 numbers in every binade, which no sample of prices reaches; the bounds hold for every column.", "anchors": ["finmlkit/feature/core/utils.py:pct_change", "finmlkit/feature/core/utils.py:comp_lagged_returns", "finmlkit/feature/core/ma.py:sma"]}
{"id": "C134", "title": "RSI and ADX in float64", "statement": "At every bar the float64 RSI is missing exactly when the exact RSI is, and otherwise within 800 (w + 3m + 3) 2^-53 of it, m bars after the first value of a window w. For float64 prices whose highs and lows at most double or halve from bar to bar, the float64 ADX is within 1000 (5w + 4m + 3) 2^-53 of the exact ADX.", "quantifier": "all price series, all windows w >= 1 and all positions with w + 3m + 2 <= 2^40 (RSI), w + m <= 2^40 (ADX)", "why_tests_cant": "The recursions run over the whole history; tests compare a few values with a tolerance and cannot bound the growth of the error or exclude a wrong sign decision.", "anchors": ["finmlkit/feature/core/momentum.py:rsi_wilder", "finmlkit/feature/core/trend.py:adx_core"]}
{"id": "C135", "title": "Attribution, combination and class balance of weights in float64", "statement": "For nonnegative base weights every class-balanced float64 weight is within 3n + c + 4 roundings of the exact one (n samples, c classes), the same weights vanish, and every class total is within as many roundings of the grand total over c. Combining and normalising from the same decay weights fails exactly when the exact combination does and is otherwise within 3a + 2 depth + 9 roundings, whatever the summation order. A return attribution over m bars is off by at most ((1 + 2^-53)^(m+1) - 1) times the sum of absolute attributed returns.", "quantifier": "all label and weight lists, all spans and concurrency counts, all summation orders of numpy and pandas", "why_tests_cant": "A test compares a few balanced weights with a tolerance; it cannot bound the error for every sample size or exclude that a class vanishes or appears by rounding.", "anchors": ["finmlkit/label/weights.py:class_balance_weights", "finmlkit/label/weights.py:return_attribution", "finmlkit/label/kit.py:SampleWeights.compute_final_weights"]}
{"id": "C136", "title": "Price-volume correlation in float64", "statement": "Every float64 correlation lies in [-1, 1]; a bar has no value, or a built-in value 1 or -1, under the same rule as exactly, and the returns used are within 3 units of 2^-53 of the exact ones. Given pairs have no float64 correlation only if fewer than two exist or a coordinate equals its rounded mean throughout, in which case the exact correlation is missing too. On n pairs whose squared mean errors are at most eps times the mean squared deviations, the float64 correlation is within (3n + 20) 2^-53 + 3 eps of Pearson's.", "quantifier": "all price and volume series with gaps, all windows, all positions, any correctly rounded square root", "why_tests_cant": "The denominator is a product of rounded roots of rounded sums; tests compare ten points, most of them hard coded, and cannot bound the error or detect correlations of rounding noise.", "anchors": ["finmlkit/feature/core/correlation.py:rolling_price_volume_correlation"]}
{"id": "C137", "title": "Bollinger %B in float64", "statement": "The sign of a float64 %B and its comparison with one are right for the bands that were computed, and it is missing exactly when both bands round to the mean, which needs a half-width of at most 2^-52 of the mean. For a mean m and a half-width d it is within (|m|/d + 4)(1 + 2|b|) 2^-53 of the exact b. The variance behind the bands, from running sums, is within (i + 1) X^2 / 2^45 of the sample variance of the window at index i for prices of size at most X, and a constant price k 2^j with window * k^2 <= 2^53 has no value.", "quantifier": "all price series, all windows of at least two bars, all multipliers, all indices below 2^40, any square root (zero at zero)", "why_tests_cant": "The variance is a difference of two running sums; its error grows with the square of the price and with the index. Tests use prices near 100 on a short series.", "anchors": ["finmlkit/feature/core/volatility.py:bollinger_percent_b"]}
{"id": "C138", "title": "Zero-mean time-decayed deviation in float64", "statement": "For float64 exponentials between 0 and 1 the weights alpha and 1 - alpha add up to exactly one, and 1 - alpha is the exponential itself from 1/2 on and within 2^-53 below. The running sums are within 2i + 1 and 2i roundings of the exact sums for these weights, and the weights change the exact sums by at most M 2^-52 and 2^-52 at every position. Where the exact weights sum to V >= 2^-51 there is a value, and the variance is within M (8i + 3 + 8/V) 2^-53 of the exact one for squares up to M. The deviation is missing where the exact weights sum to 0, and is never below the floor.", "quantifier": "all series with gaps, all timestamps, all decays with float64 values in [0, 1], all positions up to 2^40, any square root", "why_tests_cant": "Errors of the weights could accumulate over the whole history; that they do not depends on which weights are inexact. Tests compare a few points of one series.", "anchors": ["finmlkit/feature/core/volatility.py:ewmst_mean0"]}
{"id": "C139", "title": "Parkinson range in float64", "statement": "The float64 Parkinson range of two positive float64 prices is never negative and is 0 exactly when high and low are equal, however close they are. With x = log(high / low) it is within (|x| + 2)(|x| + (|x| + 2) 2^-52) 2^-51 of x^2 / (4 log 2).", "quantifier": "all pairs of positive prices, any logarithm that is accurate to one unit in the last place", "why_tests_cant": "The quotient is rounded before the logarithm, which magnifies the error near one; tests use ranges of several per cent.", "anchors": ["finmlkit/feature/core/volatility.py:parkinson_range"]}
{"id": "C140", "title": "Time-decayed deviation in float64", "statement": "For float64 exponentials between 0 and 1 the four running sums of ewmst are within 5i 2^-53, relative to the weights, of the exact sums for the weights used, and the weights change the exact sums by at most 2^-51 in units of the largest observation, at every position. Where the exact weights sum to W >= 2^-20 and the effective number of observations W^2/W2 is at least 8/5 there is a variance, it is not negative, and it is within 100 (5i + 8/W^2) 2^-53 M^2 of the exact one for observations up to M. There is no value at the first sample and while no time passes, and no value is below the floor.", "quantifier": "all series with gaps, all timestamps, all decays with float64 values in [0, 1], all positions up to 2^40, any square root", "why_tests_cant": "The variance is a difference of two means multiplied by a correction that is itself a quotient with a small denominator; where the result can be trusted depends on the weights. Tests compare a few points of one series.", "anchors": ["finmlkit/feature/core/volatility.py:ewmst"]}
{"id": "C141", "title": "Lagged returns in float64", "statement": "On sorted microsecond timestamps and a window of whole seconds, the float64 column of comp_lagged_returns agrees with the exact one position by position: both are missing, or both are the return of the price there against the same earlier price. A simple return of positive float64 prices has the sign of the price change and is within 3 (c/b + 1) 2^-53 of the exact return; a log return has that sign too and is within (|log(c/b)| + 2) 2^-52. A base price of zero gives infinity.", "quantifier": "all timestamp and price columns of equal length, all windows of whole seconds, all positions; any logarithm that is accurate to 2^-52", "why_tests_cant": "The base index is found by comparing rounded timestamps with a rounded target, and the value is rounded twice; the tests use small integer timestamps.", "anchors": ["finmlkit/feature/core/utils.py:comp_lagged_returns"]}
{"id": "C142", "title": "Levels and buckets of the volume profile in float32", "statement": "The rolling profile at a bar uses exactly the bars of its trailing window. For a window of N footprint bars with distinct levels and non-negative volumes the computed grid, buckets and representatives are those of exact arithmetic; the volume of a level is the exact one up to N + 1 float32 roundings, the volume of a bucket of bw ticks up to N + 1 + bw. The point of control has the largest exact volume, and the value area holds the requested share of the exact volume, up to these roundings. Volumes in multiples of a power of two with a total of at most 2^24 multiples are aggregated exactly and the point of control is the exact one. The same holds for each step of the developing profile.", "quantifier": "all windows of well-formed footprint bars, all tick roundings that preserve order, all positive bucket counts, all percentages between 0 and 100", "why_tests_cant": "The arrays are float32 and every += rounds; the tests use a few small volumes for which float32 sums are exact.", "anchors": ["finmlkit/feature/core/volume.py:aggregate_footprint", "finmlkit/feature/core/volume.py:bucket_price_levels", "finmlkit/feature/core/volume.py:volume_profile_rolling", "finmlkit/feature/core/volume.py:volume_profile_developing"]}
{"id": "C143", "title": "The bounded exponent of IEEE arithmetic", "statement": "In the normal range a float64 or float32 rounding with IEEE's bounded exponent is the rounding with an unbounded exponent; overflow starts exactly at 2^1024 - 2^970; the error of any finite result is at most 2^-53 of the number or 2^-1075. Sums and differences of float64 numbers are not affected by underflow at all. Hence bar volume, dollar value, VWAP, the stored float32 volume, volume bars and dollar bars computed with IEEE arithmetic are those of the unbounded model whenever no product is subnormal and the totals stay below stated bounds (2^1022 for volume, 2^1021 for dollars, 2^126 for the stored volume).", "quantifier": "all rationals; all lists of at most 2^48 trades within the stated ranges", "why_tests_cant": "The float theorems round with an unbounded exponent; a test cannot show that no subnormal or overflowing intermediate result changes a bar.", "anchors": ["finmlkit/bar/base.py:comp_bar_ohlcv", "finmlkit/bar/logic.py:_volume_bar_indexer", "finmlkit/bar/logic.py:_dollar_bar_indexer"]}
{"id": "C144", "title": "Candle shapes, gaps, bar rates, durations and bi-power variation in float64", "statement": "In float64 the three candle ratios lie between 0 and 1, are the exact ones up to six roundings, add up to (high - low) / (high - low + 1e-12) up to six roundings and are 0 exactly when the wick or body is empty. VWAP drift and daily gap have the exact sign and are off by at most three units of 2^-53 of their size; between float64 numbers within a factor of 2 the drift is rounded once. The bar rate is the exact one up to two roundings and strictly increasing in the number of bars. Durations keep their order, whole seconds are exact. Bi-power variation is missing exactly where the exact one is and otherwise the exact one up to the depth of the summation plus two roundings.", "quantifier": "all prices with low <= open, close <= high; all timestamps; all window lengths; all orders of summation", "why_tests_cant": "The tests compare with a tolerance on a few rows; they cannot show that no bar gets a ratio above 1, a wrong sign or a tie between different counts.", "anchors": ["finmlkit/feature/transforms.py:CandleShape", "finmlkit/feature/transforms.py:DailyGap", "finmlkit/feature/transforms.py:BarRate", "finmlkit/feature/transforms.py:BarDuration", "finmlkit/feature/transforms.py:BiPowerVariation"]}
{"id": "C145", "title": "Triple barrier labels of float64 prices against the real logarithms", "statement": "Take prices whose absolute logarithms are at most M and a logarithm within one unit of 2^-52 of the real one. The float64 return of every examined bar is the real log return up to M / 2^50. If no examined bar is closer than that, plus the rounding of the barrier, to a barrier, the float64 labelling skips the same events, touches at the same bar and reports the real return up to M / 2^50. The label is then the real one whenever the final return is further than M / 2^50 from 0 (meta-labels: from the minimum return), and always when a finite barrier on its own side of 0 was touched.", "quantifier": "all positive prices, timestamps, events, targets, finite or infinite multipliers, sides of 1 or -1", "why_tests_cant": "A test compares with the same float64 logarithm; it cannot say how close to a barrier a path may come before rounding changes the label.", "anchors": ["finmlkit/label/tbm.py:triple_barrier"]}
{"id": "C146", "title": "Return attribution and VWAP distance of float64 prices against the real logarithms", "statement": "With a logarithm within one unit of 2^-52 of the real one and L bounding the bar-to-bar log returns, the attribution of a label over m bars is the real one up to m (m + 2) (L + 2) / 2^52; a label that meets no other is worth the absolute log return from the bar before it to its last bar, up to the same error. The VWAP distance column: if the rounding of the running sums may reach at most a share eps <= 1/8 of the window's volume and value, the simple distance is the exact one up to 4 (eps + 4 / 2^53) (close / vwap + 1) and the log distance the real log(close / vwap) up to 4 eps + (|log(close / vwap)| + 5) / 2^52.", "quantifier": "all positive prices, non-negative volumes, spans, concurrencies, windows of at least two bars, positions", "why_tests_cant": "Tests compare float64 with float64; the drift of the running sums and of the logarithms shows only over long series.", "anchors": ["finmlkit/label/weights.py:return_attribution", "finmlkit/feature/core/reversion.py:vwap_distance"]}
{"id": "C147", "title": "A run of the ingestion script as a whole, and ingestion in several runs", "statement": "After a successful run the file named after the first and the last month with an archive holds for every archive that verifies and reads exactly its trades, metadata and integrity records, for every other month what the file had before, and the time bars of every stored month (kept if they exist and the overwrite flag is not set); the order in which the workers finish does not matter; files and archives of other symbols and markets are unchanged. Ingesting a range in two runs leaves the same directory as one run over the whole range: the first file is renamed and extended. Running again with unchanged archives changes no file unless a file with the same first and an earlier last month is there.", "quantifier": "all symbols, months, network outcomes, worker orders, directories and archive contents with trades of distinct months", "why_tests_cant": "A test of the script needs the network and many runs; the interplay of naming, renaming, verification and incremental bars appears only over sequences of runs.", "anchors": ["scripts/binance2h5.py:orchestrate_symbol", "scripts/binance2h5.py:main"]}
{"id": "C148", "title": "The volatility target of the tutorials is known when the bar closes", "statement": "In the labelling workflow of the tutorials the target of a bar is the time-decayed deviation of the time-lagged returns of the trade prices, computed per trade and joined to the bars by the last value not later than the bar. For every kind of bars the target of a bar is the last value of the same computation on the trades up to the trade that closes the bar; later trades, even at the same timestamp, do not change it, and appending trades leaves the targets of earlier bars as they are. Of trades with one timestamp only the first counts. Before one window has passed the target is the floor (and missing at the time of the first trade); the missing returns of that stretch are then averaged in as zeros, so a price growing at a constant rate has a positive target (violation).", "quantifier": "all trade tables with ascending timestamps and columns of equal length, all bar kinds and thresholds, all windows greater than zero, all decay functions with decay 0 = 1 (for the first window also 0 <= decay < 1 at positive times), all floors, all logarithm and square root functions", "why_tests_cant": "look-ahead through trades sharing the timestamp of a close depends on the interplay of the join, the zero weight of simultaneous trades and the bar indexer; the tests check each transform on separate regular series", "anchors": ["finmlkit/feature/transforms.py:ReturnT", "finmlkit/feature/transforms.py:EWMST", "finmlkit/feature/core/volatility.py:ewmst", "finmlkit/feature/core/utils.py:comp_lagged_returns", "finmlkit/feature/kit.py:Compose", "docs/source/tutorials/building_labels.rst"]}
{"id": "C149", "title": "Volatility features of the quick start: ranges, and a jump proportion that measures the size of the returns", "statement": "The quick start compares RealizedVolatility with BiPowerVariation as the documentation of the latter suggests, and divides volatilities of different windows. The jump proportion (rv - bv).clip(lower=0)/(rv + eps) is missing exactly before bar w and while one of w + 1 returns is missing, and otherwise lies in [0, 1). The ratio of the volatilities of the last k and the last w returns, where it has a value, is not negative and its square is below the quotient of the numbers of valid returns. The realised volatility is a deviation while the bi-power variation is a sum of products, so the proportion is at least (1 - w c d) rv/(rv + eps) for returns of size at most d, jumps or not; for returns of constant size, which contain no jump, it is (1 - w c d) d/(d + eps) while positive, close to one for small returns, and zero for large ones (violation).", "quantifier": "all return columns with missing values, all windows, all eps > 0, all factors c >= 0, all functions that are a square root on non-negative numbers", "why_tests_cant": "the proportion looks plausible on every single sample; that it depends on the unit of the returns shows only over all magnitudes", "anchors": ["examples/QuickStartGuide.ipynb", "finmlkit/feature/transforms.py:450-491", "finmlkit/feature/transforms.py:1551-1604", "finmlkit/feature/core/volatility.py:256-286"]}
{"id": "C150", "title": "The training set of the labelling tutorial only grows when trades are appended", "statement": "The labelling tutorial computes a volatility on the trades, joins it to the features of the bars and uses it as target of the triple-barrier labels. If later trades are appended, the training set for tick, volume, dollar and CUSUM bars keeps its samples, with their features, targets and labels, and new samples follow. For time bars the samples keep their place, features and targets; the label of a sample stays if its window ends before the new trades.", "quantifier": "all trade tables in time order, all later trades, all bar kinds and thresholds, all causal features, all windows and decay functions of the volatility, all barriers", "why_tests_cant": "look-ahead can enter through the volatility, the join, the warm-up rows or the label window; tests run each step on one data set and never rerun on longer data", "anchors": ["docs/source/tutorials/building_labels.rst", "finmlkit/label/kit.py:TBMLabel", "finmlkit/feature/kit.py:FeatureKit.build", "finmlkit/feature/transforms.py:308-332"]}
{"id": "C151", "title": "The timestamp column must be 64 bits wide: narrower columns keep the nanoseconds modulo their width", "statement": "Pre-processing multiplies the timestamps in int64 and writes the products back into the array that was handed in. So an integer column of b bits ends with the one number it can hold that agrees with the nanoseconds modulo 2^b, which is right exactly when the nanoseconds fit. On int64 this is the pipeline of C18, C19 and C116. A float column is refused with a type error. Unix seconds in int32 come out as multiples of 512 within 2.15 s of the epoch: only the seconds -2 to 2 are right, two seconds collide exactly when they differ by a multiple of 2^23, any six consecutive seconds contain an inversion, and the whole frame is dated at 1970-01-01.", "quantifier": "all columns of 1 to 64 bits, signed or unsigned, all units, all trade tables, all ids, all side information", "why_tests_cant": "tests use int64 arrays throughout; no exception is raised, and the later steps sort the broken timestamps and carry on", "anchors": ["finmlkit/bar/data_model.py:346-368", "finmlkit/bar/data_model.py:TradesData"]}
{"id": "C152", "title": "Casting footprints to NumPy and back works exactly when two bars differ in their number of levels", "statement": "The container built by build_footprints holds Numba lists; casting it to Numba lists again changes nothing. cast_to_numpy turns a column into an array of arrays only if its bars have different numbers of levels; otherwise NumPy stacks the rows into a two-dimensional object array. Casting back (as the volume profile does) then fails, so for every builder and all trades the round trip gives back the container exactly when two bars differ in their number of levels or there is no bar; it fails for every single bar. No cast or slice changes a value. Whether a selection can be cast back depends on whether it was sliced before or after the cast.", "quantifier": "all containers with matching columns, all builders, trades, ticks and imbalance factors, all slices", "why_tests_cant": "the failure needs bars of equal height, rare with real trades but certain for one bar; tests never call cast_to_numpy", "anchors": ["finmlkit/bar/data_model.py:994-1016", "finmlkit/feature/core/volume.py:VolumePro.compute", "finmlkit/bar/base.py:280-297"]}
{"id": "C153", "title": "A date as end of a range: its first nanosecond for trades, the whole day for bars and footprints", "statement": "Loading trades up to a date, for every store, month and worker order, gives no trade of that day except at its first nanosecond, and a view between two dates ends there too; a view with one date at both ends is refused. The bar reader, given the same date, keeps every bar on a full second of that day, and a footprint slice between two dates keeps exactly the bars of all days from the first to the last.", "quantifier": "all stores and save histories, all trade tables in time order, all dates, starts and worker orders, all containers in time order", "why_tests_cant": "tests give bounds with a time of day, or check one class at a time; the documented examples use dates for trades", "anchors": ["finmlkit/bar/data_model.py:212-243", "finmlkit/bar/data_model.py:647-685", "finmlkit/bar/io.py:832-840", "finmlkit/bar/data_model.py:879-883"]}
{"id": "C154", "title": "Unit of the index in time-based transforms and labels", "statement": "The time-based transforms (ReturnT, EWMST, TimeCues) and the event search of the label kit take the integers stored in the DatetimeIndex as nanoseconds. They are the instants of the index exactly for nanosecond indices. For an index whose tick is p nanoseconds, ReturnT with window w is the lagged return of the instants with window p*w, EWMST uses a half-life p times as long, TimeCues at instant t are those of t/p (constants from 1970 to 2083 for p = 10^6 or 10^9), and an event is searched at t/p among nanosecond trades, so that it is placed on trade 0 iff t < (first+1)*p. Input without dates in its index is refused.", "quantifier": "all indices of the four pandas units, all prices, windows, half-lives, columns, trade streams and events", "why_tests_cant": "the tests build every index with the default nanosecond unit; a frame read from Parquet or built by arrow has milliseconds or microseconds, nothing raises, and the values look plausible", "anchors": ["finmlkit/feature/base.py:_get_timestamps", "finmlkit/feature/base.py:_check_datetime_index", "finmlkit/feature/transforms.py:ReturnT", "finmlkit/feature/transforms.py:EWMST", "finmlkit/feature/transforms.py:TimeCues", "finmlkit/label/kit.py:compute_labels"]}
{"id": "C155", "title": "Array accesses of the compiled bar code", "statement": "The compiled loops (no bounds checks) of the bar builders, run with every read and write checked, stay inside their arrays and give the model's result under these exact conditions. comp_bar_ohlcv: iff every bar is empty at a trade or spans trades -1 <= start < end < n; this holds for every builder on non-empty time-ordered trades. comp_bar_directional_features: for all builders that close at trades; for time bars of trades with sides iff the first trade is exactly on the clock, otherwise the first bar reads index -1. Footprint level arrays are never written outside. Volume bars: iff there is a trade. Dollar bars: with at least as many volumes as prices; with fewer the volumes are read beyond their end. CUSUM bars: with as many volatilities as prices, at least one number, and at least as many times; calls that pass the chained length check with fewer volatilities or fewer times leave the arrays.", "quantifier": "all trade streams, close indices, thresholds, volatility columns and builder parameters", "why_tests_cant": "an out-of-bounds read in compiled code returns whatever is in memory and does not raise; a negative index silently reads the last element; tests see plausible numbers", "anchors": ["finmlkit/bar/base.py:comp_bar_ohlcv", "finmlkit/bar/base.py:comp_bar_directional_features", "finmlkit/bar/base.py:comp_bar_footprints", "finmlkit/bar/logic.py:_volume_bar_indexer", "finmlkit/bar/logic.py:_dollar_bar_indexer", "finmlkit/bar/logic.py:_cusum_bar_indexer"]}
{"id": "C156", "title": "Array accesses of the compiled event, label and weight code", "statement": "The compiled loops (no bounds checks) behind events, labels and sample weights, run with every read and write checked, stay inside their arrays and give the model's result under these exact conditions. cusum_filter: always, including the buffer of event indices. comp_lagged_returns with a positive window: iff there is a timestamp and no close without one. triple_barrier with accepted arguments: iff every event index is a position of the series. TBMLabel.compute_labels looks events up at positions of the trades because trailing events are dropped. return_attribution: iff every label covers no bar or only bars of the series; after compute_labels this holds for any content of the uninitialised touch indices iff no event was skipped. time_decay: iff there is an event. class_balance_weights: iff there are at least as many weights as labels.", "quantifier": "all series, thresholds, windows, event indices (negative included), barriers, labels, weights and contents of uninitialised memory", "why_tests_cant": "compiled code returns whatever is in memory instead of raising; whether a skipped event corrupts the weights depends on what the allocator hands out", "anchors": ["finmlkit/sampling/filters.py:cusum_filter", "finmlkit/feature/core/utils.py:comp_lagged_returns", "finmlkit/label/tbm.py:triple_barrier", "finmlkit/label/weights.py:return_attribution", "finmlkit/label/weights.py:time_decay", "finmlkit/label/weights.py:class_balance_weights", "finmlkit/label/kit.py:TBMLabel.compute_labels"]}
{"id": "C157", "title": "Array accesses and uninitialised entries of the compiled feature kernels", "statement": "The compiled feature kernels allocate their outputs with np.empty and index without bounds checks. Run with every access checked and every output slot tracked, they stay inside the arrays, read no slot before writing it, write every slot and give the model's values under these conditions. ewma and true_range: iff the input is not empty. rolling_price_volume_correlation with a volume for every price: iff there is a price. ewmst and ewmst_mean0: iff there is a timestamp for every value. vpin: iff there is a sold volume for every bought one. parkinson_range: iff there is a low for every high. adx_core with a window of at least one and at least two bars: iff there is a low for every high and a close for every bar but the last. vwap_distance with a window of at least one that fits: iff there is a volume for every price; with window 0 its output starts from a slot that was never written. bollinger_percent_b and stoch_k: for every window of at least one (stoch_k: with lows and highs as long as the closes). roc, pct_change, rsi_wilder and comp_flow_acceleration: always.", "quantifier": "all input columns (NaN where the model admits it), lengths, windows and periods", "why_tests_cant": "what an np.empty slot holds depends on the allocator, so a forgotten slot looks right in most runs; out-of-bounds reads and writes of compiled code raise nothing", "anchors": ["finmlkit/feature/core/ma.py:ewma", "finmlkit/feature/core/volatility.py:true_range", "finmlkit/feature/core/volatility.py:ewmst_mean0", "finmlkit/feature/core/volatility.py:ewmst", "finmlkit/feature/core/volatility.py:bollinger_percent_b", "finmlkit/feature/core/volatility.py:parkinson_range", "finmlkit/feature/core/momentum.py:roc", "finmlkit/feature/core/momentum.py:rsi_wilder", "finmlkit/feature/core/momentum.py:stoch_k", "finmlkit/feature/core/utils.py:pct_change", "finmlkit/feature/core/reversion.py:vwap_distance", "finmlkit/feature/core/volume.py:comp_flow_acceleration", "finmlkit/feature/core/volume.py:vpin", "finmlkit/feature/core/correlation.py:rolling_price_volume_correlation", "finmlkit/feature/core/trend.py:adx_core"]}
{"id": "C158", "title": "Array accesses of trade preparation, structural-break test and volume profile", "statement": "Run with every array access checked, the remaining compiled helpers stay inside their arrays and give the model's values under these conditions. comp_trade_side_vector: iff there is a price. check_timestamps_order: always. merge_split_trades: iff there is a trade and the price, amount and side arrays are at least as long as the timestamps (it never reads an output slot before writing it). cusum_test_developing: with a warm-up of at least one observation; with warm-up 0 the first iteration reads entry -1. cusum_test_last: iff there are two prices (it divides by zero at two and equals the model from three on); the windows of cusum_test_rolling always hold at least three. comp_poc_hva_lva, calc_volume_percentage_above_poc and trim_trailing_zeros: with one volume per level (comp_poc_hva_lva: and at least one level). bucket_price_levels: for ascending levels. aggregate_footprint: when no level of a selected bar lies above the rounded highest price; one level above it is written past the end.", "quantifier": "all arrays, lengths, tolerances, warm-ups, windows, bin numbers and value-area percentages", "why_tests_cant": "a compiled access outside an array raises nothing and returns or overwrites whatever lies there, so tests with well-formed input pass", "anchors": ["finmlkit/bar/utils.py:comp_trade_side_vector", "finmlkit/bar/utils.py:check_timestamps_order", "finmlkit/bar/utils.py:merge_split_trades", "finmlkit/feature/core/structural_break/cusum.py:_comp_max_s_nt", "finmlkit/feature/core/structural_break/cusum.py:cusum_test_developing", "finmlkit/feature/core/structural_break/cusum.py:cusum_test_last", "finmlkit/feature/core/structural_break/cusum.py:cusum_test_rolling", "finmlkit/feature/core/volume.py:aggregate_footprint", "finmlkit/feature/core/volume.py:bucket_price_levels", "finmlkit/feature/core/volume.py:comp_poc_hva_lva", "finmlkit/feature/core/volume.py:calc_volume_percentage_above_poc", "finmlkit/feature/core/volume.py:trim_trailing_zeros"]}
{"id": "C159", "title": "Order of trades with equal timestamps", "statement": "If two trade tables hold the same trades in time order and differ only in the order of trades with equal timestamps, then time bars have the same stamps, volumes, volume-weighted prices, trade counts and median sizes, bars with trades the same high and low; the number, volume and turnover of buys and of sells, the trade-size statistics and the complete footprint of a clock window are the same; tick bars close at the same trade numbers and times. Open, close, all prices of empty bars, spreads, extremes of the running imbalances, volume-bar closes and the contents of tick bars can differ. With distinct trade ids the prepared table does not depend on the order of the raw rows or on the sort used; with equal ids it does.", "quantifier": "all pairs of time-ordered permutations of a trade table, bar lengths, clock windows, thresholds, tick roundings and footprint bounds", "why_tests_cant": "exchange data carry many equal timestamps and their order varies with the download; a test has one fixed order and cannot show which columns are insensitive to it", "anchors": ["finmlkit/bar/base.py:comp_bar_ohlcv", "finmlkit/bar/base.py:comp_bar_directional_features", "finmlkit/bar/base.py:comp_bar_trade_size_features", "finmlkit/bar/base.py:comp_bar_footprints", "finmlkit/bar/logic.py:_time_bar_indexer", "finmlkit/bar/logic.py:_tick_bar_indexer", "finmlkit/bar/logic.py:_volume_bar_indexer", "finmlkit/bar/data_model.py:TradesData._sort_trades"]}
{"id": "C160", "title": "Larger thresholds give fewer and later closes; multiples of a threshold", "statement": "Raising the threshold of tick bars, of volume bars (non-negative volumes), of dollar bars (any trades) or of the CUSUM filter (constant threshold, not negative) never gives more closes, and the close with a given number never comes earlier. For CUSUM bars this holds with a constant positive threshold and no two consecutive trades at the same timestamp; with blocks of equal timestamps a larger threshold can give more bars. Closes of tick bars of m·T trades are closes of tick bars of T trades, and closes of dollar bars of m·T are closes of dollar bars of T for trades of non-negative value; volume bars and CUSUM bars are not nested in this sense.", "quantifier": "all trade sequences, all pairs of thresholds in order, all multiples", "why_tests_cant": "a relation between two runs with different thresholds over arbitrary data; the carry of dollar bars and the two one-sided sums of the CUSUM make it non-obvious, and it fails only on blocks of equal timestamps", "anchors": ["finmlkit/bar/logic.py:_tick_bar_indexer", "finmlkit/bar/logic.py:_volume_bar_indexer", "finmlkit/bar/logic.py:_dollar_bar_indexer", "finmlkit/bar/logic.py:_cusum_bar_indexer", "finmlkit/sampling/filters.py:cusum_filter"]}
{"id": "C161", "title": "Triple barriers moved further away", "statement": "For one event on a sorted bar sequence: if every return beyond a new horizontal barrier is beyond the old one (larger multipliers, larger target, or a barrier switched off), the vertical barrier is not nearer and the minimum holding time is not smaller, then the event does not end earlier, and an event that was labelled is still labelled. If no horizontal barrier was touched, moving them outward changes neither touch, return nor label. An event that ended at a horizontal barrier keeps touch, return and label when the vertical barrier is moved later, and when the horizontal barriers are moved outward but its return is still beyond one of them. Otherwise the label can flip in either direction.", "quantifier": "all sorted timestamps, close series, targets, sides, pairs of parameter sets in the stated order", "why_tests_cant": "a relation between two runs with different barriers over arbitrary paths; tests compare labels for fixed settings", "anchors": ["finmlkit/label/tbm.py:triple_barrier"]}
{"id": "C162", "title": "Momentum indicators do not fall when the latest price rises", "statement": "Change only the latest observation of a series, upwards. Then the exponential and simple moving averages (also for a series nowhere lower), rate of change and percentage change (positive earlier price), Wilder RSI, %K of the kernel, z-score, Bollinger %B, lagged return and VWAP distance (positive prices, non-negative volumes) at that position are not lower, wherever both are numbers. An RSI that is missing stays missing, and raising the price can make it missing. The StochK feature, which passes its columns in another order, falls instead.", "quantifier": "all series, windows, degrees of freedom below the window, non-negative band widths, all raises of the latest value", "why_tests_cant": "the latest value enters mean, deviation and window extremes at once, so that monotonicity needs an argument over all windows; the one feature that violates it looks plausible on any single data set", "anchors": ["finmlkit/feature/core/ma.py:ewma", "finmlkit/feature/core/ma.py:sma", "finmlkit/feature/core/momentum.py:roc", "finmlkit/feature/core/momentum.py:rsi_wilder", "finmlkit/feature/core/momentum.py:stoch_k", "finmlkit/feature/core/utils.py:comp_zscore", "finmlkit/feature/core/utils.py:comp_lagged_returns", "finmlkit/feature/core/volatility.py:bollinger_percent_b", "finmlkit/feature/core/reversion.py:vwap_distance", "finmlkit/feature/transforms.py:StochK"]}
{"id": "C163", "title": "Wider bars and larger moves do not lower the volatility measures", "statement": "Widen bars (no high lower, no low higher, missing prices unchanged, lows at or below highs): true ranges and average true ranges, simple or smoothed, are nowhere smaller, and neither is the Parkinson range. Move returns away from zero: realised volatility and the time-decayed deviation about zero are nowhere smaller. Move the latest value away from the mean of the other present values of its window: the rolling variance is not smaller. Missing outputs stay where they were. The average true range divided by the mid price does not have the property.", "quantifier": "all bars and series with missing values, windows, decay factors between 0 and 1, floors, degrees of freedom", "why_tests_cant": "relations between two runs over arbitrary data; in the true range a higher high lies nearer to the previous close when the bar is below it", "anchors": ["finmlkit/feature/core/volatility.py:true_range", "finmlkit/feature/core/volatility.py:atr", "finmlkit/feature/core/volatility.py:parkinson_range", "finmlkit/feature/core/volatility.py:realized_vol", "finmlkit/feature/core/volatility.py:ewmst_mean0", "finmlkit/feature/core/volatility.py:rolling_variance_nb"]}
{"id": "C164", "title": "Stricter selections select a part", "statement": "With a larger imbalance multiplier and non-negative volumes a footprint flags a part of the levels; if no level carries both flags, the longest run does not become longer, and otherwise it can become longer and change sign. On ascending levels the value area of a larger percentage (up to 100) contains that of a smaller one, about the same point of control. A larger minimum return keeps a part of the events in order and turns meta labels from 1 to 0 only, and a longer vertical barrier keeps a part of the events.", "quantifier": "all footprints, profiles, event tables and pairs of parameters in order", "why_tests_cant": "relations between two runs with different parameters over arbitrary data; the run length violates it only where a level carries both flags", "anchors": ["finmlkit/bar/base.py:comp_footprint_features", "finmlkit/feature/core/volume.py:comp_poc_hva_lva", "finmlkit/label/kit.py:TBMLabel", "finmlkit/label/tbm.py:triple_barrier"]}
{"id": "C165", "title": "Joining two consecutive bars", "statement": "For closes a < b < c the rows of the bar (a, c] follow from those of (a, b] and (b, c]: open of the first, close of the second, larger high, smaller low, volume, trade count and VWAP times volume add up; trades, volume and dollars of buys and of sells add up; the extreme running imbalance is that of the first bar or its total imbalance plus that of the second, unless the second shows the initial value 1e9; with at least two trades in each bar the maximum spread is the larger one and the mean spread the mean weighted with the signed trades; the footprint is the sum of the two level by level. The median trade size is not determined by the two medians, and the spread rule fails for bars of one trade.", "quantifier": "all trades, all closes a < b < c", "why_tests_cant": "relates three runs of each kernel over arbitrary trades and cuts; the exceptions (1e9 initial values, one-trade bars) need particular cuts", "anchors": ["finmlkit/bar/base.py:comp_bar_ohlcv", "finmlkit/bar/base.py:comp_bar_directional_features", "finmlkit/bar/base.py:comp_bar_footprints"]}
{"id": "C166", "title": "Indicators on a stretch of unchanged prices", "statement": "Where the last w values are all c: the moving average is c, z-score and Bollinger %B are NaN, the burst ratio is 1 (NaN unless c > 0), rates of change are 0, the stochastic oscillator is NaN, the distance from the VWAP is 0 if the window has volume, the price-volume correlation is NaN for windows of at least 2, realised volatility, rolling variance, Parkinson range and true range are 0. An unchanged price leaves the RSI (period at least 2) and the directional index as they were. Prices that never move give no CUSUM event, and an event followed by unchanged prices ends at its vertical barrier with return 0 and label 1. With a correlation window of 1 the correlation is 1 on unchanged prices for bars 4 to 9.", "quantifier": "all series with such a stretch, all windows and positions", "why_tests_cant": "the degenerate branches (zero variance, zero range, zero volume) for every window, position and past of the series", "anchors": ["finmlkit/feature/core/ma.py:sma", "finmlkit/feature/core/utils.py:comp_zscore", "finmlkit/feature/core/momentum.py:rsi_wilder", "finmlkit/feature/core/trend.py:adx_core", "finmlkit/feature/core/reversion.py:vwap_distance", "finmlkit/feature/core/correlation.py:rolling_price_volume_correlation", "finmlkit/feature/core/volatility.py:bollinger_percent_b", "finmlkit/sampling/filters.py:cusum_filter", "finmlkit/label/tbm.py:triple_barrier"]}
{"id": "C167", "title": "How long one observation is remembered", "statement": "Moving average, z-score, burst ratio, rolling variance, realised volatility, Bollinger %B, VPIN, flow acceleration, stochastic oscillator and (where the window has volume) distance from the VWAP are the same for series that agree on the last w positions, the price-volume correlation for w+1 prices and w volumes. The EWMA never forgets: a change d of observation k changes it at t by d (1-alpha)^(t-k) / W with W >= 1 independent of the data. The smoothed averages behind RSI and ADX and the sums behind the exponentially weighted deviation differ, once the series agree, by amounts that shrink by (w-1)/w or 1-alpha with every bar. Without volume the distance from the VWAP repeats the last value for as long as no volume comes.", "quantifier": "all pairs of series, windows, spans and positions", "why_tests_cant": "relates two runs on different pasts; a test sees one past, and a leak of state beyond the window can be arbitrarily small or rare", "anchors": ["finmlkit/feature/core/ma.py:ewma", "finmlkit/feature/core/utils.py:comp_zscore", "finmlkit/feature/core/momentum.py:stoch_k", "finmlkit/feature/core/momentum.py:rsi_wilder", "finmlkit/feature/core/trend.py:adx_core", "finmlkit/feature/core/reversion.py:vwap_distance", "finmlkit/feature/core/correlation.py:rolling_price_volume_correlation", "finmlkit/feature/core/volume.py:vpin", "finmlkit/feature/core/volatility.py:ewms"]}
{"id": "C168", "title": "Memory of returns, true ranges and time-decayed deviations", "statement": "A rate of change depends on two observations, a lagged return on the current price and the one found by its timestamps, the simple ATR of w bars on w highs and lows and w+1 closes, the variance ratio on the last w+4 prices. The exponential ATR never forgets: once two series agree, both are missing or their difference shrinks by (w-1)/w with every bar. The weighted sums of the time-decayed deviations differ, once the series agree, by the decay of the elapsed time whatever the number of observations in it; the weights of ewmst do not depend on the observations, those of ewmst_mean0 forget missing observations at the same rate.", "quantifier": "all pairs of series, timestamps, windows, decays with decay(a+b) = decay(a) decay(b), and positions", "why_tests_cant": "relates two runs on different pasts, and the same span of time sampled differently; a test sees one past and one sampling", "anchors": ["finmlkit/feature/core/momentum.py:roc", "finmlkit/feature/core/utils.py:pct_change", "finmlkit/feature/core/utils.py:comp_lagged_returns", "finmlkit/feature/core/volatility.py:atr", "finmlkit/feature/core/volatility.py:variance_ratio_1_4_core", "finmlkit/feature/core/volatility.py:ewmst", "finmlkit/feature/core/volatility.py:ewmst_mean0"]}
{"id": "C169", "title": "Labels and sample weights under reordering of the events", "statement": "For every permutation of the events: the concurrency counts are the same (also when the 16-bit counter wraps), whether labelling, attribution or weight combination fails is the same, and label, touch, uniqueness, attributed return, balanced weight and (without time decay) final weight of an event are the same function of the event. The time-decay weight at a position changes only if the set of events up to the position changes; it is by position, so reordering events does change it.", "quantifier": "all event lists, their permutations, prices, parameters and weights", "why_tests_cant": "a statement about all orders of all event lists; a test tries sorted events", "anchors": ["finmlkit/label/weights.py:average_uniqueness", "finmlkit/label/weights.py:return_attribution", "finmlkit/label/weights.py:time_decay", "finmlkit/label/weights.py:class_balance_weights", "finmlkit/label/tbm.py:triple_barrier", "finmlkit/label/kit.py:SampleWeights.compute_final_weights"]}
{"id": "C170", "title": "Volume profile on the reversed price axis", "statement": "If one level has more volume than every other, reversing the price axis negates the point of control and exchanges and negates the two bounds of the value area, for every value-area percentage. Of several levels with the largest volume the lowest is chosen. The shares of volume above a level, above its mirror image and at the level add up to 1. On the mirrored market (sides exchanged, axis reversed) the volume point of a footprint with a unique maximum is negated and its concentration (Gini) unchanged.", "quantifier": "all profiles, percentages and levels", "why_tests_cant": "relates runs on two different profiles; an index slip on one side of the two-level search shows only on particular profiles", "anchors": ["finmlkit/feature/core/volume.py:comp_poc_hva_lva", "finmlkit/feature/core/volume.py:calc_volume_percentage_above_poc", "finmlkit/bar/base.py:comp_footprint_features"]}
{"id": "C171", "title": "Returns over adjoining periods compound", "statement": "Relative changes and rates of change over p positions and over the q positions before them compound to the change over p + q positions. Lagged returns over v and w compound (logarithmic ones add up) to the return over v + w whenever a bar lies exactly v before; without such a bar they need not. The four-bar logarithmic return of the variance ratio is the logarithm of the price ratio over four bars; the four-bar simple return is a sum and not the return over four bars.", "quantifier": "all series, periods, windows and positions", "why_tests_cant": "relates runs with three different periods on the same series", "anchors": ["finmlkit/feature/core/momentum.py:roc", "finmlkit/feature/core/utils.py:comp_lagged_returns", "finmlkit/feature/core/utils.py:pct_change", "finmlkit/feature/core/volatility.py:variance_ratio_1_4_core"]}
{"id": "C172", "title": "Moving averages and variances of combined series", "statement": "The simple and the exponential moving average of a combination a·x + b·y of two series is the same combination of their averages, and a series that is nowhere above another has averages nowhere above those of the other. For two series with missing values at the same places the rolling variances of sum and difference add up to twice the two variances, for every window, minimum count and degrees of freedom.", "quantifier": "all pairs of series, factors, windows and spans", "why_tests_cant": "relates runs on up to four different series", "anchors": ["finmlkit/feature/core/ma.py:ewma", "finmlkit/feature/core/ma.py:sma", "finmlkit/feature/core/volatility.py:rolling_variance_nb"]}
{"id": "C173", "title": "All prices raised by the same amount", "statement": "Adding the same amount to all prices leaves RSI, ADX, the stochastic oscillator, z-scores, the position in the Bollinger bands, true ranges, the average true range in price units, rolling variances and the wicks and body of a candle unchanged, and raises the simple and the exponential moving average by that amount. Relative changes and the average true range divided by the mid price do not survive it.", "quantifier": "all series (with missing values for true range and variance), amounts, windows and spans", "why_tests_cant": "relates runs on two series that differ by an arbitrary constant", "anchors": ["finmlkit/feature/core/ma.py:ewma", "finmlkit/feature/core/ma.py:sma", "finmlkit/feature/core/momentum.py:rsi_wilder", "finmlkit/feature/core/momentum.py:stoch_k", "finmlkit/feature/core/trend.py:adx_core", "finmlkit/feature/core/utils.py:comp_zscore", "finmlkit/feature/core/volatility.py:atr", "finmlkit/feature/core/volatility.py:bollinger_percent_b", "finmlkit/feature/core/volatility.py:rolling_variance_nb", "finmlkit/feature/core/volatility.py:true_range", "finmlkit/feature/transforms.py:CandleShape"]}
