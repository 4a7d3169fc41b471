# Formal model of finmlkit in Lean 4 — design

## What this is

`/verif/lean` is a Lean 4.33 + Mathlib development containing a functional model of the
computational core of `quantscious/finmlkit` (pinned in `/repo`) and kernel-checked proofs of the
properties listed in `properties.jsonl`.  `MANIFEST.json` maps each property to exact theorem names.

Layout (`lean/Verif/…`):

* `Model/*`  – the model: total functions that follow the Python code branch by branch; every
  definition cites file and lines.
* `Spec/*`   – small independent specifications (what the English property says), which do not
  refer to the model's helper functions.
* `Lemmas/*` – auxiliary lemmas.
* `Props/*`  – the property theorems, each followed by `example`s that instantiate the hypotheses
  with concrete data (non-vacuity), and, where the code violates the property, a theorem giving the
  negation with a concrete witness.
* `Conform/*` – the project's own tests replayed on the model, as evidence that the transcription is faithful.  These are
  `example`s, not claims; see "Validation of the transcription".

## Trusted base

* Lean's kernel.  No axioms are added; theorems depend only on `propext`, `Classical.choice`,
  `Quot.sound` (the standard axioms used by Mathlib) or fewer.  No `sorry`, `native_decide`,
  `bv_decide`.
* The reading of the Python source: the model was transcribed by hand, function by function, and is
  tied to the code only by the citations.  Nothing in `/repo` is executed.
* Library behaviour taken from documentation: NumPy (`searchsorted`, `argmax`, `argsort`, `median`,
  index-array addition), pandas (`sort_values`, `groupby`, `floor`, `HDFStore`), Numba (`prange`
  bodies divide without raising, negative indices wrap, no bounds checks).
* For C120: `antropy.app_entropy` computes Pincus' approximate entropy (self-matches counted, Chebyshev distance).
* For C86: Numba's float floor division (as CPython's `float_divmod`) and float `arange` (item `i` is `start + i*step`).
* Unstable sorts are parameters restricted to "some sorted permutation"; set iteration orders,
  thread schedules and process completion orders are universally quantified.

## Validation of the transcription

`lean/Verif/Conform` evaluates the model inside the kernel on the inputs of the tests in `/repo/tests` and compares with the
results those tests expect.  The tests were read as text; nothing of the project was run.

* `Conform/Basic`: rational approximations of log, sqrt and exp (error below 1e-12 on the values used) and tolerant comparison.
* `Conform/Label`: `tests/labels`, `tests/sampling`.
* `Conform/Bars`: the bar kernels, footprints and their statistics, trade sizes, tick size, sides, sorting and merging.
* `Conform/Features`: `tests/features` for the kernels and the feature algebra, `tests/structural_breaks`.
* `Conform/Objects`: trades container, store, inspector, resampling, builders, operation names, execution order, caching, logger.

Every replayed test agrees with the model.  Left out: tests on random data, of array types and Python classes, of performance,
and on series too long to evaluate in the kernel.

## Modelling decisions (all simplifications)

1. **Numbers.**  `float64`/`float32` values are modelled as elements of an arbitrary linearly ordered
   field `K` (instantiable at ℚ for executable examples and at ℝ).  Except in `Model/Float64` (C86 on), floating-point
   rounding, overflow to ±inf and signed zero are *not* modelled: the theorems are about the algorithm in exact
   arithmetic.  `Model/Float64` defines rounding to 53 and 24 bits (nearest, ties to even, unbounded exponent) and gives the
   float64 versions of the computations where rounding changes the result; `Model/Ieee` has the bounded exponent (gradual
   underflow, overflow), and C143 shows where it makes no difference.  float32 output arrays are likewise exact.  Python/NumPy integers are `Int`/`Nat`
   unless a property is about fixed-width wrap-around, where the wrap is modelled explicitly.
2. **NaN** is `none` in `Option K`; arithmetic with NaN is only modelled where the code handles NaN.
3. **Transcendental functions** (`log`, `sqrt`, `exp`, `log1p`) are parameters `K → K`; a theorem that
   needs a law of the function (e.g. monotonicity) has it as a hypothesis; `C105_assumptions` proves all of them for the real
   functions.
4. **Arrays** are `List`s; in-place updates are recursion/`foldl`; reading at index `i` is `getD i 0` where
   the code guarantees bounds, `[i]?`/Python wrap-around of negative indices where it does not.
5. **Exceptions** are `Except String`/`Option` results.
6. **Parallel loops** (`prange`) are sequential maps, except where the property is about schedules; there
   the writes of each iteration are modelled explicitly and a theorem quantifies over iteration orders.
7. **HDF5** is a finite map key → (rows, meta).  pandas `select` with a `where` clause is `List.filter`.
   File-system behaviour, compression, locking are not modelled.
8. **pandas** operations used by the model (stable sort, drop_duplicates, resample, searchsorted) are
   given their documented meaning as functions on lists.
9. **Idealisations worth knowing.**  Nanosecond timestamps pass through float64 in a few kernels
   (rounding of about 128 ns at present-day values) and tick counts through int32; both are exact in C01–C85, and C86, C87
   treat the timestamps as float64.  In particular the empty last bar of C01 exists only below 2^53 ns.
   `Timedelta.total_seconds` is exact.  Python's float text is a parameter with the law that it can
   be read back.  `binned_price_levels[:0]` style broadcasts that raise are modelled as errors.
10. **Not modelled**: logging, progress bars, CLI/argparse, network transport, zip decoding, CSV tokenising,
   plotting, type checks (`isinstance`), numba compilation, performance, memory.

## Property plan

Status and theorem names are in `MANIFEST.json`.  "ref" = refinement to a spec, "inv" = invariant by
induction, "neg" = a negation with witness is proved because the code violates the full property.

| id | model | method |
|----|-------|--------|
| C01 | `_time_bar_indexer` over integers | arithmetic of floor/ceil multiples, list indexing |
| C02 | same + `searchsorted` | ref: `searchsorted` = count of elements ≤ x on sorted lists; interval membership |
| C03 | `_tick_bar_indexer` | inv on (counter, emitted indices); closed form |
| C04 | `_volume_bar_indexer` | inv: emitted list is the first-crossing segmentation (relational spec) |
| C05 | `_dollar_bar_indexer` | inv: conservation equation at each prefix |
| C06 | `_cusum_bar_indexer` | ref to a relational state-machine spec; block-end invariant |
| C07 | bar slicing of `comp_bar_*` | inv over close-index list, telescoping |
| C08 | `comp_bar_ohlcv` | inv over the inner loop; weighted mean between min and max |
| C09 | indexers, `comp_bar_ohlcv` | prefix stability by induction on the appended list |
| C10 | `comp_bar_directional_features` | inv over the inner loop |
| C11 | same | inv; neg for magnitudes beyond the 1e9 sentinel |
| C12 | same, with Python negative index | neg with witness (first close index −1), partial for indices ≥ 0 |
| C13 | `comp_bar_footprints` | inv over aggregation; rounding is monotone so levels are in range |
| C14 | `comp_footprint_features` | ref of run scan to "longest run" spec; element-wise spec of flags |
| C15 | same | argmax spec, Cauchy–Schwarz bound; neg: skew ≡ 0 |
| C16 | `comp_trade_side(_vector)` | inv/ref to "last significant change" |
| C17 | `merge_split_trades` | inv over merge; block decomposition |
| C18 | `_sort_trades` | permutation + sortedness; neg for side column |
| C19 | `_infer…`, `_convert…`, `_apply…` | integer arithmetic |
| C20 | HDF5 store map | inv over save histories; neg for append mode |
| C21 | writer queue + store | commutation ⇒ permutation invariance |
| C22 | `month_range`, `parse_ym` | induction on month number |
| C23 | `_resample` | ref to group aggregates, associativity |
| C24–C26 | `triple_barrier` | ref to first-passage spec, locality, neg for ratio at vertical barrier |
| C27–C30 | `weights.py` | inv/algebra; neg for overflow, `last_weight` |
| C31 | `cusum_filter` | relational spec; suffix-sum characterisation |
| C32–C38 | `feature/core` | closed forms, window refinement, causality; neg where noted |
| C39–C41 | `volume.py` | conservation, loop invariant with well-founded recursion; neg for out-of-range writes |
| C42 | `cusum_test_rolling` | write-set disjointness, permutation of iterations |
| C43 | `time_cues` | integer arithmetic |
| C44 | Kahn | inv on in-degrees; acyclicity ⇔ completeness |
| C45 | `FeatureKit.build` + op transforms | semantic invariant on the cache; neg for name collisions |
| C46 | config encode/decode | structural induction on expressions; neg for lossy transforms |
| C47 | time-bar store | inv, ref to filter; neg at the end-day boundary |
| C48 | `_validate_data` | telescoping sums |
| C49 | spread part of `comp_bar_directional_features` | list of side switches; neg for one-trade bars |
| C50 | `median3`, `check_timestamps_order` | case analysis, induction |
| C51 | `save_h5` as a list of store operations | every prefix of the operations; neg: not atomic |
| C52 | `verify_zip_checksum` | iff; neg when the checksum file is missing |
| C53 | `TBMLabel` preprocessing | ref to filter; neg for truncated windows |
| C54 | `SampleWeights.compute_final_weights` | algebra of the weight pipeline |
| C55 | `ewmst`, `ewmst_mean0` | closed forms by induction over the history |
| C56 | volatility and window indicators | ref to formulas; neg for the two ATR deviations |
| C57 | `volume_pro` rolling profiles | window refinement, causality |
| C58 | `_comp_max_s_nt` | maximum over starts; neg for skipped starts |
| C59 | `comp_bar_trade_size_features` | ref to slices; algebra; neg for the divisor |
| C60 | `comp_price_tick_size` | gcd theory over the decimal grid; neg by witnesses |
| C61 | `H5Inspector` | ref to consecutive pairs; induction over save histories; neg |
| C62 | `TradesData.set_view_range`, `data` | ref to filter |
| C63 | `DailyGap` | ref to the grouping; neg for look-ahead |
| C64 | `ORBBreak` | ref to positions of the day; causality |
| C65 | `BarRate` | count formula; neg on grids |
| C66 | `CandleShape` | algebra |
| C67 | `CUSUMTest` outputs | run induction; neg for wrapping |
| C68 | `DirRunLen` | run induction; neg for wrapping |
| C69 | `Lag`, `Return`, `BarDuration`, `BarDurationEWMA` | index forms; neg for negative lags |
| C70 | `BiPowerVariation`, `KurtosisTransform`, `MeanReversionZScore` | window iff; inequalities; neg for the factor |
| C71 | `TrendSlope`, `HurstExponent` | least-squares theory; neg for short windows |
| C72 | `_pd` against `_nb` | refinement; neg per divergence |
| C73 | `BarBuilderBase`, `bar/kit.py` | state-machine invariant over call histories |
| C74 | `bar/kit.py`, `BarBuilderBase` | composition of C01, C03, C06, C08, C10, C13 |
| C75 | `FootprintData` | column-wise map equation; filter characterisation of date slices |
| C76 | `footprint_to_dataframe` | induction over bars; uniqueness of the sorted permutation |
| C77 | `load_csv_from_zip` | row-wise induction; refutations for header lines and gaps |
| C78 | file-name handling of `binance2h5.py` | string lemmas; exact effect of `os.replace` |
| C79 | download loop, `_read_checksum_file` | case analysis over attempts |
| C80 | `Feature` operators, `base.py:1257-1409` | structural induction over expressions |
| C81 | generated names in `kit.py`, `base.py` | parsing from the right end; strong induction on size; C45 for kits |
| C82 | `transforms.py` constructors | decoding the name; class lookup table |
| C83 | `VolumePro` | filter of a filter; C57, C75 |
| C84 | `ExternalFunction` | case analysis; caching as a state invariant |
| C85 | `comp_price_tick_size_old` | uniqueness of sorted lists; counting for the median; decades by `Int.log` |
| C86 | float64 `_time_bar_indexer` | round-to-nearest-even on rationals: monotone, exact on representable numbers, error per binade |
| C87 | float64 `searchsorted` targets | rounding commutes with adding multiples of 512; order kept on the microsecond grid |
| C88 | float64 `comp_bar_ohlcv` | relative error per operation, product of factors |
| C89 | float64 `_volume_bar_indexer`, `_dollar_bar_indexer` | induction with factor bounds; carried remainder telescopes |
| C90 | float64 running sums | affine error recursion; fixed points of the update for the violations |
| C91 | float64 RSI, ADX, %K | monotonicity of rounding and exactness at the bounds; invariants along the smoothing |
| C92 | float arithmetic of `comp_bar_footprints` | error of a rounded quotient below half a tick; invariant of the level loop |
| C93 | `FeatureKit.build` and operators | build commutes with any function on columns that its functions commute with |
| C94 | integer widths of `comp_bar_footprints` | two's complement store; explicit family of bars |
| C95 | float arithmetic of `comp_bar_directional_features` | loop invariant; rounding is monotone and odd |
| C96 | float arithmetic of `comp_trade_side_vector` and `merge_split_trades` | error bound on grid differences; loop invariant with blocks |
| C97 | `cusum_filter` on NaN inputs | induction over the loop; suffix-sum characterisation |
| C98 | float arithmetic of `label/weights.py` | summation trees; exactness of `1 - x` on [1/2, 2^53]; monotone rounding |
| C99 | `comp_price_tick_size` in float64 | relative error of the twelve-digit rounding, two admissible decades, uniqueness of the tick |
| C100 | `ewms`, `ewma`, `ewmst` in float64 | contraction of decaying sums; error propagation through the variance formula |
| C101 | `triple_barrier` in float64 | monotone rounding of return and barrier; simultaneous induction over the path |
| C102 | `merge_split_trades` then `TimeBarKit` | selecting by time selects whole blocks; OHLCV summaries of block lists compared |
| C103 | indicators under a change of units | scaling lemma for each accumulator |
| C104 | bars, footprints, events, labels under units and time shift | scaling and shift lemma for each loop |
| C105 | `np.log`, `np.exp`, `np.sqrt` read as real functions | suffix sums of log returns as log of price over running minimum; telescoping exponentials |
| C106 | `label/kit.py` `TBMLabel` as a state machine | case analysis of one call; independence of the call from the two mutable fields; composition with C24, C27, C28 |
| C107 | side exchange in `bar/*.py`, `sampling/filters.py`, `label/tbm.py` | simulation between the two runs: a swap map on loop states that commutes with every step |
| C108 | reflection of prices in `feature/core/*.py` | induction over loop states; algebra of means, extremes and variances |
| C109 | `bar/logic.py:186-189`, `bar/kit.py:158-183` | array state threaded through the calls; idempotence of forward fill |
| C110 | `bar/data_model.py:420-772`, `bar/io.py:170-308` | composition of C20 and C61; counting through a permutation |
| C111 | `feature/core/ma.py:46-62`, `feature/core/momentum.py:6-22` | relative error of two roundings against the distance to the next integer |
| C112 | `utils/log.py:7-72` | case analysis over the environment |
| C113 | `bar/data_model.py:162-183`, `421-520`, `596-700`; `bar/kit.py:18-28` | composition of C17–C20, C01, C07 |
| C114 | `feature/base.py:226-252`, `470-475`, `683-689`; `feature/kit.py:198-204`, `665-721`, `1014-1085` | logical relation over the evaluator; refinement of `Model/FeatureKit.lean` |
| C115 | `bar/logic.py:54-221` | coupling of two runs; invariant of the two CUSUM sums |
| C116 | `bar/data_model.py:121-191`, `326-344`, `768-772` | maximality of merging makes the second merge the identity |
| C117 | `bar/kit.py:13-183`, `bar/base.py:131-304`, `bar/logic.py:12-221` | prefix relation carried through closes, rows and kit |
| C118 | `sampling/filters.py:40-70`, `bar/logic.py:186-221` | error recurrence of clamped sums; sums are log price ratios |
| C119 | `bar/data_model.py:211-250, 420-574` | fold over the history; C20, C62 |
| C120 | `transforms.py:1400-1457` | window refinement; affine maps commute with matching; counting bounds |
| C121 | `TimeBarKit` then `TimeBarReader._resample` | fine windows telescope over the clock; group aggregates (C23) rewritten as trade aggregates |
| C122 | `realized_vol`, `rolling_variance_nb`, `variance_ratio_1_4_core`, `comp_zscore` in float64 | error propagation through the sequential sums; relative bounds for sums of squares; witness by evaluation |
| C123 | `TBMLabel.compute_labels`, `compute_weights` on growing data | prefix lemmas for the event filter, C25 for one event, monotone sums of inverse concurrency |
| C124 | float arithmetic of `comp_poc_hva_lva`, `calc_volume_percentage_above_poc` | loop invariant with factors for the running volume; Bernoulli; an explicit long profile summed phase by phase |
| C125 | float arithmetic of `comp_footprint_features` | monotone idempotent rounding for the flags; factor bounds through total, proportions, squares and sum; parity of the tied sum |
| C126 | `build_ohlcv`, `FeatureKit.build` and `TBMLabel` in sequence | composition of C117, C93, C123 and C106; events kept row by row once every column has a value |
| C127 | indicators of `feature/core` on columns with NaN | arithmetic and comparisons with a missing operand; induction over the running sums and states |
| C128 | `prange` loops, in particular `comp_bar_directional_features` | interleaving semantics; invariant that each iteration sees its registers and cells as if alone |
| C129 | `time_decay`, `class_balance_weights`, `compute_final_weights` on a growing sample | closed form of the decay; cross-multiplied comparison; factor extraction |
| C130 | `true_range`, `atr`, `comp_flow_acceleration`, `comp_burst_ratio` under rounding | rounding commutes with max and abs; counting relative errors; Bernoulli for the running total |
| C131 | `comp_bar_trade_size_features` under rounding | loop invariant: rounded sum of squares at most the rounded square of the rounded share seen, by cases on the ratio of summands; absorption lemma; counting relative errors |
| C132 | `_comp_max_s_nt`, `cusum_test_*` under rounding | counting relative errors on squares; first-maximum fold; no index is skipped above the variance floor |
| C133 | simple returns, `pct_change`, `sma` under rounding | distinct float64 numbers are more than 2^-53 apart relatively; counting relative errors; sums on a binary grid are exact |
| C134 | `rsi_wilder`, `adx_core` under rounding | counting relative errors through Wilder's recursions; Sterbenz; a quotient of sums with errors relative to the denominator |
| C135 | `class_balance_weights`, `return_attribution`, `compute_final_weights` under rounding | entrywise relative error counts through sums, quotients and products |
| C136 | `rolling_price_volume_correlation` under rounding | Cauchy-Schwarz on the absolute products, deviations from a wrong mean, error of a quotient; real square root |
| C137 | `bollinger_percent_b` under rounding | drift of running sums, error of a difference of squares, quotient of perturbed bands |
| C138 | `ewmst_mean0` under rounding | Sterbenz for the weights, relative error counts through the sums, contraction of the weight errors |
| C139 | `parkinson_range` under rounding | gap between float64 numbers, real logarithm, error of a square over a perturbed constant |
| C140 | `ewmst` under rounding | error step for a decayed sum, contraction of the weight errors, perturbation of the corrected variance |
| C141 | `comp_lagged_returns` under rounding | composition of the float64 search with the rounding of a ratio and of its logarithm |
| C142 | levels and buckets of the volume profile under float32 | replay of the exact closed forms with a rounded sum; factor bounds composed over bars and levels of a bucket |
| C143 | IEEE exponent range against the unbounded model | both roundings agree on multiples of the smallest number; induction over the loops with a growth bound on the accumulator |
| C144 | candle shapes, gaps, rates, durations, bi-power variation under rounding | monotone rounding; relative error composed by counting roundings |
| C145 | triple barrier labels from float64 logarithms against real log returns | loop relation with an error bound; barriers cleared by the bound |
| C146 | return attribution and VWAP distance against real logarithms | error bounds through sums and logarithms in the reals |
| C147 | `orchestrate_symbol` and `main` of the ingestion script | composition of the download, naming, ingestion and time-bar models; month-by-month description of the file |
| C148 | volatility target of the tutorials (`ReturnT`, `EWMST`, `merge_asof`) | zero weight of simultaneous trades; causality of the two stages; position of the close in the search |
| C149 | volatility features of the quick start (`jump_prop`, `rv_ratio_3v12`) | Cauchy-Schwarz on a window; closed form for returns of constant size |
| C150 | labelling tutorial: bars, features, `merge_asof` target, `TBMLabel` | C126 applied to the columns of the longer data; rows after the last trade give no sample |
| C151 | `data_model`: `_convert_timestamps_to_ns` on a column of a given element type | `TimestampWidth`: the products are stored modulo the width of the column; a float column raises |
| C152 | `FootprintData.cast_to_numpy`, `cast_to_numba_list` | `FootprintCast`: a column is a Numba list, an array of arrays or a stacked object array |
| C153 | date bounds in `load_trades_h5`, `set_view_range`, `TimeBarReader.read`, `FootprintData.__getitem__` | `DateBounds`: bounds of C20, C47, C62 and C75 compared on one date |
| C154 | docstring of `_get_timestamps` ("int64 nanoseconds since epoch") and its four readers | scaling of both sides of every search and of the decay exponent |
| C155 | `comp_bar_ohlcv`, `comp_bar_directional_features`, `comp_bar_footprints`, `_volume_bar_indexer`, `_dollar_bar_indexer`, `_cusum_bar_indexer` | loops in the option monad with checked reads and writes, equal to the model by loop invariants |
| C156 | `cusum_filter`, `comp_lagged_returns`, `triple_barrier`, `return_attribution`, `time_decay`, `class_balance_weights`, `TBMLabel.compute_labels` | loops in the option monad with checked reads and writes, equal to the model by loop invariants; uninitialised memory as a universally quantified integer |
| C157 | `feature/core` kernels: array accesses, `np.empty` outputs | loops in the option monad with checked accesses and tracked slots, equal to the model by one invariant for loops that fill from the left |
| C158 | `bar/utils`, `structural_break/cusum`, `feature/core/volume`: array accesses | loops in the option monad with checked accesses, equal to the model; the arrays of the merge as written prefix and unwritten rest |
| C159 | `bar/base`, `bar/data_model`: order of simultaneous trades | permutations of a sorted table agree on windows; each kernel as a function of the multiset of the window's trades; witnesses for the columns that are not |
| C160 | `bar/logic`, `sampling/filters`: two thresholds on the same data | simulation of the two loops with a head start, separately for the two sides of the CUSUM; integer number of thresholds due for the dollar bars |
| C161 | `label/tbm`: two parameter sets on the same path | first passage of C24 for both settings; uniqueness of the first touch and of the vertical bar |
| C162 | `feature/core`: response to the latest value | standardised last value of a window rises with it; Wilder averages and window extremes are monotone |
| C163 | `feature/core/volatility`: larger moves | pointwise order of options carried through windows, smoothing and state recursions |
| C164 | selections by a threshold: footprint flags, value area, usable events, meta labels | flags and greedy extension of C14 and C40 compared for two parameters; filters |
| C165 | rows of a bar made of two consecutive bars | loops split at the middle close; running extremes of shifted paths; C08 and C13 on the three bars |
| C166 | indicators, events and labels on unchanged prices | windows are replicates; Wilder averages shrink by one factor; C24 and C33 for labels and ranges |
| C167 | dependence of indicator values on past observations | window forms of C33 compared for two pasts; linear recurrences subtracted |
| C168 | returns, true ranges and time-decayed deviations: dependence on past observations | agreement of derived columns on shifted windows; linear recurrences subtracted, product of decays telescoped |
| C169 | labels and sample weights: order of the events | commuting counter updates folded over a permutation; sums and sorted distinct labels of a permutation; per-event maps |
| C170 | `feature/core/volume`: profile with the price axis reversed | simulation of the value-area loop by the loop on the reversed arrays; sums split at the level |
| C171 | `feature/core`: returns over adjoining periods | both quotients at the positions the lookups pick; the middle price cancels |
| C172 | `feature/core`: averages and variances of combined series | linearity of the window sums and of the discounted sums; squared deviations pairwise |
| C173 | `feature/core`: prices raised by a constant | a shift is two reflections (C108); window and discounted sums |

## What is modelled, by source file

| source | model | not modelled |
|--------|-------|--------------|
| constructor of `TradesData` | `Model/TradesInit` | type checks |
| `bar/logic.py` | `Model/Indexers` | empty-input reads |
| `bar/base.py` kernels | `Model/Bars`, `Model/Footprint`, `Model/TradeSize` | |
| `bar/base.py` builders, `bar/kit.py` | `Model/BarKit` | logging, `__str__` |
| `bar/data_model.py` `FootprintData`, `bar/utils.py` `footprint_to_dataframe` | `Model/FootprintData` | `__repr__`, `memory_usage` |
| `scripts/binance2h5.py` archive reading, names, download | `Model/Archive` | transport, CSV tokenising, argument parsing of `main` |
| `scripts/binance2h5.py` `orchestrate_symbol`, loop of `main` | `Model/Orchestrate` | state of the disk after an uncaught exception within one symbol |
| `bar/utils.py` | `Model/Trades`, `Model/TickSize`, `Model/TickSizeOld` | |
| float64 arithmetic of `bar/logic.py`, `label/tbm.py`, `feature/core/utils.py` | `Model/Float64`, `Model/Float64Cusum` | overflow, subnormals |
| float64 arithmetic of `bar/base.py` `comp_bar_ohlcv`, volume and dollar bars | `Model/Float64Bars` | overflow, subnormals |
| float arithmetic of `comp_bar_footprints` levels | `Model/Float64Footprint` | |
| integer widths of `comp_bar_footprints` | `Model/FixedWidth` | tick counts are taken as wrapped at the end, not at each trade |
| float arithmetic of `comp_bar_directional_features` | `Model/Float64Directional` | |
| float arithmetic of `comp_trade_side_vector`, `merge_split_trades` | `Model/Float64Trades` | NaN and infinite prices, subnormal amounts |
| float64 arithmetic of VWAP distance, Bollinger, VPIN, RSI, ADX, %K, z-score | `Model/Float64Features` | overflow, subnormals, missing inputs |
| `bar/data_model.py` | `Model/Trades`, `Model/Store`, `Model/StoreFile` | CSV parsing, column detection |
| `bar/io.py` | `Model/TimeBarStore`, `Model/Inspector` | console output of the inspector |
| `feature/transforms.py` | `Model/FeatureKit`, `Model/DayFeatures`, `Model/RunFeatures`, `Model/PandasFeatures`, `Model/Backends`, `Model/Entropy` | inside of `antropy` (documented meaning) |
| `feature/kit.py` operators, `feature/base.py` operator transforms | `Model/FeatureAlgebra` | |
| `feature/core/volume.py` `VolumePro` | `Model/VolumePro` | |
| `feature/core/volume.py` `comp_poc_hva_lva`, `calc_volume_percentage_above_poc` in float | `Model/Float64Profile` | the dtype of each variable is taken from Numba's typing of the SSA form: a sum of two float32 entries is float32, a variable that also holds a Python float is float64 |
| `bar/base.py` `comp_footprint_features` in float | `Model/Float64FootprintStats` | the order of summation of `np.dot` (BLAS) is not specified and taken in order; `powf(x, 2)` is taken as the rounded square; an integer factor, which Numba would multiply in float32 |
| `feature/core`: `sma`, `comp_zscore`, `pct_change`, `roc`, `rsi_wilder`, `stoch_k`, `adx_core`, `vwap_distance`, `bollinger_percent_b`, `parkinson_range`, `comp_flow_acceleration`, `_comp_max_s_nt` with NaN in the columns | `Model/NanIndicators` | exact arithmetic with NaN as `none`; comparisons and `max`/`min` as in the compiled code; `comp_burst_ratio` left out (`np.median` with NaN) |
| `bar/base.py` `comp_bar_trade_size_features` in float64 and float32 | `Model/Float64TradeSize` | every operation rounded, sums from left to right, unbounded exponent; `log1p` and `np.percentile` are parameters |
| `structural_break/cusum.py` in float64 | `Model/Float64Break` | input is the series of log prices; every operation rounded, unbounded exponent; `log` and `sqrt` are parameters |
| `feature/core`: simple returns, `pct_change`, `comp_lagged_returns`, `sma` in float64 | `Model/Float64Returns` | the two ways a return is computed, and the average as a rounded reciprocal times a sequential sum |
| `label/weights` attribution and class balance, `label/kit` final weights in float64 | `Model/Float64Balance` | every addition, product and quotient rounded to 53 bits; means and pandas sums in an arbitrary order |
| `feature/core/correlation` in float64 | `Model/Float64Correlation` | the square root is any function with the accuracy of a correctly rounded one (`SqrtRounded`) |
| `bollinger_percent_b` in float64 | `Model/Float64Bollinger` | window of at least two bars; every operation rounded, running sums as in the loop, the two groupings of the mean square kept apart; the square root is a parameter |
| `ewmst_mean0`, `parkinson_range` in float64 | `Model/Float64Mean0` | every operation rounded, unbounded exponent; the exponential, the logarithm and the square root are parameters |
| `aggregate_footprint`, `bucket_price_levels`, `volume_profile_rolling` in float32 | `Model/Float64Buckets` | every `+=` on a float32 entry rounded to 24 bits; the conversion of prices to ticks is a monotone parameter; of the developing profile only the level totals |
| `comp_bar_ohlcv` volume, VWAP; volume and dollar bars with IEEE's exponent range | `Model/Ieee` | overflow to infinity ends the computation (`none`); signed zero is not distinguished |
| `CandleShape`, `DailyGap`, `BarRate`, `BarDuration`, `BiPowerVariation` in float64 | `Model/Float64Candle` | every operation rounded, unbounded exponent; window seconds and the constant of bi-power variation are inputs, the order of `np.sum` a parameter |
| `feature/core/reversion.py` `vwap_distance` in float64 | `Model/Float64Vwap` | `np.log` is a parameter with a bound on its error |
| volatility target of the tutorials (`docs/source/tutorials/building_labels.rst`): `Compose(ReturnT, EWMST)` on the trades, `merge_asof` to the bars | `Model/VolTarget` | `merge_asof` by its documentation; infinite returns (zero prices) count as missing |
| volatility features of `examples/QuickStartGuide.ipynb` (`jump_prop`, `rv_ratio_3v12`, `rv_ratio_6v24`) | `Model/QuickStart` | rows over the field extended by infinities and NaN; `np.sqrt` and the factor `(pi/2)**0.5` parameters |
| labelling tutorial (`docs/source/tutorials/building_labels.rst`): bars, features, joined volatility target, labels | `Model/TutorialSet` | the target is joined before the kit and retained instead of joined to the finished features |
| `feature/base`: `_get_timestamps`, `_check_datetime_index` and their readers, by unit of the index | `Model/IndexUnit` | the index is given by its integers and its unit; time zones do not change the integers |
| compiled bar loops with checked array accesses | `Model/Checked` | an access outside `0 <= i < len` ends the run (`none`), including the negative indices that wrap around |
| compiled event, label and weight loops with checked array accesses | `Model/CheckedLabel` | as `Model/Checked`; slices are clipped, uninitialised memory is an arbitrary integer |
| `feature/core` kernels with checked accesses and tracked `np.empty` slots | `Model/CheckedFeatures` | `prange` loops in order; loops of `adx_core` that fill several arrays are split per array; a raising `np.min` of an empty slice counts as outside |
| `bar/utils`, `structural_break/cusum`, `feature/core/volume`: array accesses | `Model/CheckedPrep` | Each access checked; slots of `np.empty` tracked; `np.searchsorted`, `np.digitize`, `np.argmax` by their documented results; `a[idx] += v` reads all entries before it writes |
| `feature/core`: `true_range`, `atr`, `comp_flow_acceleration`, `comp_burst_ratio` in float64 | `Model/Float64Range` | every operation rounded to 53 bits, unbounded exponent; `log` a parameter |
| the `prange` loops; `comp_bar_directional_features` access by access | `Model/Parallel` | accesses atomic and in program order; scalars private to the iteration; exact numbers |
| the call sequence `build_ohlcv`, `FeatureKit.build`, `TBMLabel(…).compute_labels` | `Model/TrainingSet` | the sequence is the user's code (as in the documentation); the side column is taken as a function of the row; `event_idx` absent in the theorems |
| `feature/transforms.py` `ExternalFunction` | `Model/External` | functions that change their arguments |
| `feature/transforms.py` output names | `Model/TransformNames` | `ExternalFunction` names (in `Model/External`) |
| `scripts/binance2h5.py` | `Model/Months`, `Model/Store` | HTTP, zip extraction |
| `sampling/filters.py` | `Model/CusumFilter`, `Model/CusumFilterNan` (missing values), `Model/Float64Cusum` (rounding) | log of non-positive prices |
| float arithmetic of `comp_price_tick_size` | `Model/Float64TickSize` | last bit of `log10` (a parameter); overflow |
| float arithmetic of `ewma`, `ewms`, `ewmst` | `Model/Float64Ewm` | square root, `exp` (a parameter), overflow |
| float arithmetic of `realized_vol`, `rolling_variance_nb`, `variance_ratio_1_4_core`, `comp_zscore` | `Model/Float64Dispersion` | square root (left out or a parameter), log returns, overflow |
| float arithmetic of `label/tbm.py` | `Model/Float64Label` | error of `np.log` (log prices are given) |
| float arithmetic of `label/weights.py` | `Model/Float64Weights` | overflow, subnormal numbers, float error of `np.log` |
| `label/tbm.py`, `label/weights.py`, `label/kit.py` | `Model/Label` | data-frame assembly |
| `label/kit.py` `TBMLabel` object: constructor, repeated calls, weights | `Model/TbmObject` | frames are lists of rows; an uninitialised touch index is `none` |
| `feature/core/*` | `Model/Indicators`, `Model/VolumeProfile`, `Model/CusumTest` | – |
| `utils/log.py` | `Model/Logging` | rotation, custom levels |
| `sma`, `roc` on typed columns (`feature/core/ma.py:46-62`, `momentum.py:6-22`) | `Model/ColumnTypes` | int64 overflow |
| `feature/kit.py`, `feature/base.py`, `feature/utils.py` | `Model/Graph`, `Model/FeatureKit`, `Model/Config`, `Model/Routing` (backend argument, timing report) | plotting |

## Findings

Where the code does not do what its documentation or the property says, the model keeps the code's behaviour and a
theorem states the deviation with a concrete input (theorem names start with the property id).

* **Trades.**  `is_buyer_maker` is not permuted when trades are sorted (C18).  The timestamp-only chained length
  check of the CUSUM bars accepts mismatched arrays (C06).  A first trade exactly on a bar boundary is in no time
  bar (C02).  Dollar bars carry the excess, so a bar may trade less than the threshold (C05).
* **Bar features.**  A bar starting at trade 0 reads index −1, the last trade of the data set (C12).  The
  `±1e9` start values leak into the cumulative extremes (C11).  One-trade bars miss their spread (C49).
  `vp_skew` is identically 0 (C15).  The imbalance counters wrap at 65536 (C14).
* **Storage.**  Append mode leaves stale metadata, so range loads miss rows; unsorted frames hide rows (C20).
  Saves are not atomic (C51).  One failed save stops the writer thread and loses the queue; two archives of one
  month race (C21).  `yymm` text is not accepted by the parser (C22).  A missing checksum file passes (C52).
* **Time-bar store.**  Resampled bars may open with a stale price, are shifted by one fine bar, and medians do not
  compose (C23).  Month files share their boundary bar, a daily query drops its last day, and plain month keys
  overwrite the bars with metadata (C47).
* **Labels.**  A skipped event has an uninitialised touch index; a window shorter than the minimum returns 0; the
  documented `-inf` bottom barrier is touched at once (C24).  A touch on the vertical bar may have ratio below 1
  (C26).  The concurrency counter wraps at 32768 (C27).  The oldest decay weight is not `last_weight`, and
  `last_weight = -1` divides by zero (C29).  A class of weight zero loses its share (C30).  Windows between trades
  are truncated, a large vertical barrier drops every event, the NaN-target check never fires (C53).
* **Indicators.**  First VWAP distance ignores `is_log` (C33).  RSI without losses is NaN; `StochK` passes its
  arguments in the wrong order and exceeds 100 (C34).  The variance ratio looks ahead on short series (C35) and is
  1, not 0.25, for a random walk, and trends lower it where the documentation says they raise it (C38).  The correlation is hard-coded to ±1 at positions 4–9 (C37).  `ewmst`
  counts NaN as 0 (C55).  Exponential ATR never recovers from one NaN; simple ATR special-cases index 2 (C56).
* **Volume profile and structural breaks.**  Up to twice the requested buckets, a representative above the highest
  price, duplicate levels lose volume (C39).  The developing profile writes out of bounds when the query starts
  after the first bar (C41).  The structural-break test skips two start indices, divides by `t−1`, and looks
  ahead on short series (C58).
* **Features.**  Duplicate names drop features, cycles give an incomplete order without an error (C44).  A shared
  output name returns another feature's values; `Compose` prefers an existing column to its previous step; a
  transform whose output is named like an input column never runs; a renamed feature is not found by its
  dependents; the graph has no edges from multi-output features (C45).
* **Saved configurations.**  `ReturnT` reloads with the default window; `PctChange`, `EWMST`, `BarRate` reload
  without their parameter; `ema(adjust=False)` reloads as `adjust=True`; a user function named like a library one
  is replaced silently; tuples become lists; output names set by `apply` are lost (C46).

* **Sizes, ticks, inspection.**  Relative trade sizes are divided by the block threshold instead of the typical
  size; a missing typical size gives block share 0 (C59).  The tick estimate is wrong for quarter ticks and zero for
  half-unit prices (C60).  Gaps across month ends are not reported; appending clears an integrity flag (C61).
* **Bar features by day and run.**  `DailyGap` looks ahead within the day (C63).  `BarRate` counts one bar too many
  on a grid and its output names collide (C65).  Break ages wrap after 255 bars (C67); run lengths wrap at 128 and
  include the current bar (C68).

* **pandas features.**  Negative lags are accepted and look ahead; `Return` names do not depend on `is_log` (C69).
  Bi-power variation uses the square root of its correction factor (C70).  `HurstExponent` never works for windows
  up to eight (C71).  The pandas and compiled versions of RSI, EWMA, PctChange, VPIN and the price-volume correlation
  differ in corner cases, and the pandas correlation is hard-coded for monotone series and looks ahead (C72).
* **Footprint container.**  `fp[i]` is not a container, one-sided date slices raise, `is_valid` ignores the optional and
  per-level columns, and `from_numba` cannot read the tuple it is documented for (C75).  Bars with equal close times
  are interleaved in the table (C76).
* **Archives.**  A header line makes a month unreadable although a fallback exists; the failure is only printed (C77).
  A maker column of numbers with one empty cell loses all maker flags (C77).  A shorter file overwrites an existing
  full-range file (C78).  Re-downloaded archives are not verified and partial files count as available (C79).
* **Feature names.**  `ema` with `adjust` true and false share a name, every lambda is `<lambda>`, and a kit then gives
  the second feature the values of the first (C81).  Names of transforms omit `is_log`, `ddof`, `is_sample`, `num_std`,
  `ret_type`, `m`, `tolerance`; all whole-minute bar rates are `bars_per_hour`; multi-input names omit the inputs;
  `BarDurationEWMA` of `x` and `EWMA` of `x_dur` coincide (C82).  The six columns of a `CUSUMTest` carry neither the
  input column nor the warm-up period nor the maximal age (C82).
* The step of a date slice of a footprint container is ignored, and a date slice of a reversed container (`fp[::-1]`)
  is empty (C75).
* **Ranges and external functions.**  `compute_range` leaves a warm-up after `start` unless a bar closes exactly one
  window earlier, returns bars before `start`, and fails on equal close times (C83).  `ExternalFunction` takes a list
  of values for several outputs, drops declared outputs silently, accepts uncallable bare names, and lambdas do not
  survive a configuration (C84).
- The legacy tick-size estimate is the median gap, which need not divide price differences, and loses the third
  significant digit (C85).
- Nanosecond timestamps are rounded to multiples of 256 in float64: trades within 128 ns of the first or 384 ns of the last
  tick can fall out of all time bars (C86); sub-second vertical barriers can miss a bar exactly at the barrier, and lag windows
  up to 100 ns find nothing (C87).
- In float64 a bar's VWAP can be one unit in the last place above its high; the stored float32 volume can be below a single
  trade's volume (C88).  Ten trades of 0.1 do not close a volume bar of threshold 1 (C89).
- Footprint level volumes are accumulated in float32: after 2^24 units at a level, trades of one unit are lost, so level volumes
  can fall short of the bar volume without bound (C92).
- A run of 32768 or more buy-imbalanced levels is stored as a run of sells; 65536 flagged levels are stored as none; price levels
  from 2^31 ticks on are stored as negative numbers (C94).
- A bar buying 0.1 and 0.2 and selling 0.3 has a positive smallest balance (C95).
- Saving an empty view (`set_view_range` outside the data) under an explicit `month_key` deletes the stored month: the old rows and
  metadata are removed before the empty frame raises (`C51_empty_frame_deletes`).
- The CUSUM filter reports nothing while its thresholds are missing, yet keeps summing: the first bar with a threshold is compared with the
  largest move of the whole warm-up, so an event there is likely and reflects older returns (`C97_missing_thresholds`).
- In float64 the bias correction of an exponentially weighted deviation does not cancel for a single observation: `ewms`
  of one value followed by gaps, and the first value of `ewmst`, can exceed the observation itself instead of being missing or
  the floor (C100).
- A rounded horizontal barrier can be touched by a path that stays below the exact one; if the path then falls to the other
  barrier the label has the opposite sign (`C101_label_flips`).
- VPIN compares the window total with the absolute constant 1e-9, so the unit of volume matters: the same flow in units a hundred
  million times larger has no VPIN (`C103_vpin_unit`).
- The normalised ATR of a bar with missing high is not divided by the midpoint, so it keeps the price unit
  (`C103_atr_missing_high`).
- The `half_life` of `ewmst` and `ewmst_mean0` is a mean lifetime: weights fall to 1/e, not to one half, after one `half_life`
  (`C105_half_life`).  `ewmst` corrects its bias by counting samples, so repeating a value between two samples changes the result
  (`C105_ewmst_resampling`).
- `TBMLabel.compute_labels` assigns the new features before it computes labels.  If the computation then raises, `features` and
  `labels` belong to different calls (`C106_features_labels_differ`).  The `side` column is cast to `int8`: 255 becomes short and
  256 becomes no position (`C106_side_wraps`).  An `event_idx` column is used without checking it against the trades
  (`C106_stale_event_idx`).  A take-profit below `min_ret` is meta-labelled 0 (`C106_take_profit_labelled_zero`).
- The documentation gives barriers `p(1 + x)` and `p(1 - x)`; the code uses `p·exp(±x)`, which is higher on both sides
  (`C105_documented_levels`).
- Rises and falls are not always treated alike: when a CUSUM threshold drops (or a block of equal timestamps ends) both sums can be
  beyond it and only one of them is reset (`C107_cusum_prefers_falls`, `C107_cusum_bars_prefer_rises`); a footprint level with both
  flags counts as a buy (`C107_run_prefers_buyers`); only gains give an RSI of NaN, only losses give 0 (`C108_rsi`).
- `_cusum_bar_indexer` writes the forward fill of NaN volatilities into the array of the caller (`bar/logic.py:186-189`). The bars of
  a window that starts inside a gap therefore depend on whether bars over the whole array were built before (C109).
  `CUSUMBarKit.get_sigma` returns the filled volatility, not the threshold `max(mult*sigma, floor)` of the bar.
- Loading a month and saving it back erases its integrity record: the loaded object has `data_ok = None` and no discontinuities, and
  `get_integrity_summary` reports only `is False` (C110). Loading several months and saving without a key stores all rows in the
  first month and leaves the others, so the next range load returns their rows twice (C110).
- `SMA` and `ROC` allocate their result with `np.empty_like`. On an integer column (`trades`) the result is truncated: the average
  over 49 bars of one trade each is 0, growth from 100 to 129 trades is reported as 28 percent, changes below one percent as
  0, and the warm-up holds -2^63 instead of NaN (C111).
- `ORBBreak` marks rows by timestamp: when several bars close at the same instant, an earlier one (even an opening bar) gets the
  signal of a later one, and both signals can be set together (C64).
- With `FMK_LOG_FILE_PATH=run.log` (no directory) the first import fails in `os.makedirs("")`; a second import succeeds without
  file logging and without quieting the libraries (C112).
- Rolling operations with an offset or fractional window (`rolling_mean("1h")`, `ema(2.5)`) are saved but cannot be loaded (C46).
- `FeatureKit.build(backend=...)` does not check the name of the backend: a misspelt one raises only if something has to be
  computed, and goes unnoticed when the columns are already in the frame (C114_misspelt_accepted).
- Building bars month by month is not building them from the whole data: every stretch starts a fresh count that includes its first
  trade. Tick, volume and ordinary dollar bars stay within one bar of each other (C115), tick bars restarted at a close are one
  trade early for ever, and dollar bars with a trade above the threshold can differ by any number (`C115_dollar_carry_unbounded`).
- A CUSUM close resets one side only (`bar/logic.py:213-218`). With a constant threshold the other side is always zero then
  (`C115_cusum_restart`), but not when the threshold changes or trades share a timestamp (`C115_cusum_restart_differs`).
- `TradesData(..., timestamp_unit="s")` without `preprocess=True` records the unit but does not apply it: the index is in 1970
  (`C116_raw_unit_ignored`). A `side` array passed together with `preprocess=True` is dropped by `_merge_trades` and replaced by the
  tick rule (`C116_side_lost`).
- The last CUSUM bar of a stretch of data can vanish when more trades arrive: it closes at the last trade because nothing
  follows, and does not close if the next trade has the same timestamp (`C117_cusum_vanishes`).
- With an inferred tick size, one later trade off the earlier price grid changes the levels of every earlier footprint
  (`C117_inferred_tick_repaints`).
- `save_h5` reads the property `data`, which honours the view range (`bar/data_model.py:466`): saving a month again after
  `set_view_range` deletes the trades outside the view from the file, while the integrity report stored with it is still that of
  the whole object (C119).  With `mode="w"` and a month key an empty view empties the whole file before the save fails, because the
  frame is only checked when the metadata is computed (`:540`); months saved one by one with `mode="w"` leave only the last.
- The running sums of the CUSUM filter and the CUSUM bars drift by rounding, so an event whose price ratio is exactly at the
  threshold can be missed (C118, witness with eight returns of 0.1 against 0.8); away from the threshold the float64 events are exact.
- `rolling_variance_nb` subtracts the squared mean from the mean square: a constant series of three times 0.3 has a positive variance
  (C122).  The variance ratio divides two such rests: prices growing by 1 % per bar, whose returns do not vary, give 0.25, the value
  documented for a random walk.
- `_drop_trailing_events` compares the time of the event plus the vertical barrier with the last trade, but the barrier runs from the
  first trade at or after the event: an event between two trades (every event on time bars) can be labelled before its barrier, and
  later trades change that label (C123).  The first value of a column that was empty so far removes all earlier events.
- The total of a volume profile is accumulated in float32, the volume of the value area in float64.  With a level of 2^24 units the
  total ignores levels of one unit, so an area asked to hold everything is the point of control alone; a total rounded up makes the
  loop print "BUG! Stuck in loop" on valid input; and on a profile of 10252 levels the share above the point of control is greater
  than 1 (C124).  Up to 4095 levels it is not.
- `vp_skew` is the mean of deviations from the mean, 0 for every bar (C15).  The compiled code computes the mean level in float32
  (Numba casts the int32 levels to the float32 of the volumes), so what is stored is the rounding error of that mean: above 2^23
  ticks a bar of two equal levels gets plus or minus half a tick, by the parity of the price (C125).  Without the compiler NumPy
  promotes the same product to float64, so the tests that switch it off see another value.
- With time bars, the label of the last samples of a data set can change when trades are appended (C126): a bar stamp is normally not the time of a trade, the window starts at the next trade, but `_drop_trailing_events` keeps every event whose stamp plus the window lies in the data.
- One missing value is enough to lose an indicator for the rest of the column (C127). Flow acceleration and Bollinger %B stay NaN after
  it, because the NaN never leaves the running sum; a NaN in the first row (the output of any other feature) makes RSI and flow
  acceleration NaN throughout. Two indicators hide the loss: `adx_core` returns numbers that decay to 0 although the trend goes on
  (the NaN true range fails the test `> 0`), and `vwap_distance` repeats its last value for ever after a NaN volume. The structural
  break test reports -1e-6 with critical value 0, "no break", for every window with a missing price.
- Appending events changes the weights of events already labelled (C129). With a negative `last_weight` old events lose weight relative to younger ones and finally get 0; with a positive one the decay flattens. Weights of two runs on samples of different length are therefore not comparable unless `last_weight` is 1 and no classes are balanced, in which case they differ by one factor.
- The flow acceleration takes the volumes of its two stretches as differences of a running total over all bars, in float64: a single
  very large volume anywhere earlier destroys later values (C130; with whole numbers and a total up to 2^53 nothing is lost).
- Rounding never pushes the trade-size concentration or the block share out of [0, 1] (C131), but the ends lose their meaning: a
  concentration of 0 can come from several trades, a block share of 1 from a bar with small trades.
- The critical value of the structural-break test depends on which start index has the largest departure. When two departures are equal
  after rounding the earlier index wins, so the value returned can differ from the exact one by a whole step (C132).
- `comp_lagged_returns` computes `a / b - 1`: for neighbouring prices the result can be half as large again as the return, though its sign is
  always right; `pct_change` computes `(a - b) / b`, which is right to 16 digits (C133).
- `sma` multiplies by a rounded `1 / N`: the average of 49 ones is `1 - 2^-53`, so the average of a constant series is not that constant and
  lies outside the range of its window (C133).
- `adx_core` compares rounded moves: a rise of the high by 1 against a fall of the low by `1 - 2^-60` is a tie, both directional movements vanish
  and the ADX is 0 instead of 100. It needs a low that more than halves within a bar (C134).
- Returns that cancel within a label give a return attribution of 0, which `compute_final_weights` or `normalize` rejects; in float64 ten shares of a tenth do not add up to one, the attribution is positive and is normalised to weight 1 (C135_attribution_noise).
- Prices growing at a constant rate have constant returns and no correlation with volume; in float64 the last-place errors of the returns are correlated instead, and the feature reports values up to -0.998 (C136_noise).
- Bollinger %B in float64 gives a value for the constant price 100.1 (the bands have no width), none for the prices 10^8, 10^8 + 1, 10^8 + 2 (sample variance 1), and none for ever after one price of 2^27 followed by 100, 101, 100, … (C137_constant_value, C137_rising_missing, C137_outlier_missing).
- `ewmst_mean0` computes `1 - (1 - exp(-dt / half_life))`, which is 0 for a gap of more than about 38 time constants: if the observation after the gap is missing, the deviation is missing until the next observation instead of unchanged (C138_gap_forgotten).
- `ewmst` after a long gap: when the exponential of the gap is at most 2^-54 (about 38 time constants) the variance at the next sample is exactly 0, so that the deviation is the floor of 1e-12 whatever the history, while in exact arithmetic the bias correction keeps it (C140_gap_collapse, C140_gap_noise). For slightly shorter gaps the correction factor magnifies rounding noise: a series constantly 1.1 gets variance 1.
- `comp_lagged_returns` with a window of half a second on millisecond timestamps of 2023: a bar exactly one window after the first has no return, because timestamp and target round differently (C141_half_second).
- Volume profiles are accumulated in float32: single units added to a level that holds 2^24 units are lost, so that a level with less volume can become the point of
  control (C142).
- A trade of side 0 counts as a change of side for the spreads but not as a trade of their mean, so `mean_spread` can exceed `max_spread` (`C49_mean_above_max`); with buys and sells only it cannot (`C49_mean_le_max`).
- `BarRate` over one hour is not always the number of bars in the hour: `57 / 3600 * 3600` is not 57 in float64 (C144).
- The ingestion script keeps the time bars of a month whose archive was replaced, unless the overwrite flag is set
  (`C147_stale_bars`); names its file after months whose archive is damaged (`C147_name_of_damaged_month`); stops with
  `FileNotFoundError`, skipping the remaining symbols, when all archives of a new symbol are damaged
  (`C147_damaged_symbol_ends_run`); and renames a shorter file over the full one, so that months whose archive no longer
  verifies are lost (`C147_shorter_file_wins`).
- The documentation of `TBMLabel` gives the barriers as `p (1 + r m)` and `p (1 - r m)`; the code compares log returns, so its
  barriers are `p exp(± r m)`: a close at the documented upper barrier is not a touch (`C105_documented_upper_missed`).
- The volatility target of the tutorials sees only the first trade of every timestamp (a sweep through the book in one
  millisecond is ignored, `C148_sweep_ignored`), is the floor instead of missing during the first return window, and counts the
  missing returns of that window as zeros: a price growing at a constant rate gets a positive volatility (`C148_steady_price`).
- `BiPowerVariation` is documented for finding jumps "when compared to realized volatility", and the quick start subtracts it from
  `RealizedVolatility`. The latter is a root mean square, the former a sum of products, so the difference mixes units: for 5-minute returns of
  0.1 % the "jump proportion" of a series without any jump is above 0.98, for returns of 10 % it is zero (`C149_jump_small_returns`,
  `C149_jump_constant_size`).
- `TrendSlope` is documented as the steepness of a trend in degrees. The slope is in log price per bar, so the angle is the slope times 57.3
  for every realistic trend: one per cent per bar gives less than 0.58 degrees, and 45 degrees need a growth by the factor e in every bar
  (`C71_angle_flat`).
- `TradesData` writes the nanosecond timestamps back into the array type it was given. Unix seconds in an `int32` column (valid
  until 2038, and documented as fine: "numeric") become garbage within 2.15 s of 1970-01-01, the trades are then re-sorted by that
  garbage, and nothing is reported (C151). A float column, also numeric, raises a numpy type error.
- `FootprintData.cast_to_numpy` stacks bars with equally many levels into a two-dimensional object array; `cast_to_numba_list`
  and with it the volume profile then fail. A container of one bar always does (C152).
- The same end date means midnight for `load_trades_h5` and `set_view_range` but the end of the day for `TimeBarReader.read` and
  footprint slices (C153). The documented example `end_time='2021-01-31'` loads nothing of that day after midnight.
  `TimeBarReader.read` treats an explicit midnight `Timestamp` like a date, so a range that ends at midnight exactly cannot be asked for.
- `_get_timestamps` promises nanoseconds and returns the integers of the index in the unit of the index.  With a microsecond index a one-minute
  `ReturnT` looks back 1000 minutes, the half-life of `EWMST` is 1000 times as long; with milliseconds or seconds `TimeCues` is a constant
  Thursday in the Asian session; `TBMLabel.compute_labels` labels every event from the first trade (`C154_return`, `C154_ewmst`,
  `C154_cues_constant`, `C154_labels_coarse`, `C154_labels_witness`).
- `comp_bar_directional_features` reads index -1 (the last trade of the data) in the first time bar unless the first trade is exactly on the clock
  (`C155_time_directional`).  `_cusum_bar_indexer` called with fewer volatilities or fewer times than prices passes its length check and leaves the
  arrays (`C155_cusum_short_sigma`, `C155_cusum_short_times`), and reads `sigma[-1]` if no volatility is a number (`C155_cusum_all_nan`);
  `_dollar_bar_indexer` does not compare its lengths at all (`C155_dollar_short`).
- The sample weights of a skipped event (no trade within its vertical barrier) are computed from an uninitialised touch index; the compiled
  loop then reads outside the arrays if that lies behind the last trade (C156_skipped_event). An `event_idx` column is used unchecked
  (C156_event_column). `time_decay` of no events and `comp_lagged_returns` of an empty series read an entry that does not exist.
- On an empty series `ewma` (`ma.py:32-34`), `true_range` (`volatility.py:238-241`) and `rolling_price_volume_correlation` (`correlation.py:27`)
  write index 0 of an array without entries; compiled code does not notice (C157).
- `vwap_distance` with zero periods fills its output from `out[-1]`, an `np.empty` slot that was never written (`C157_vwap_zero`).
- `ewmst*`, `vpin`, `parkinson_range`, `adx_core`, `vwap_distance` take the length from one column and read the others at the same
  positions without comparing lengths; a shorter second column is read behind its end (C157).
- `feature/kit.py:44` promises unary negation of a `Feature`; the class has no `__neg__`.
- `merge_split_trades` and `comp_trade_side_vector` read entry 0 of an empty array, and the merge does not compare the lengths of its
  arrays: a shorter price, amount or side array is read past its end (C158_merge_iff, C158_trade_sides_empty).
- `cusum_test_developing` with `warmup_period=0` reads entry `-1` of the cumulated differences, `cusum_test_last` on one price reads an empty
  array and on two prices divides by zero (C158_developing_no_warmup, C158_last).
- `aggregate_footprint` writes past the end of the aligned volumes when a bar holds a level above the rounded highest price of the window, for
  instance when the footprint was built with another tick size (C158_aggregate_above); `bucket_price_levels` writes past its buckets when the
  levels are not ascending (C158_buckets_unsorted).
- The order of trades with equal timestamps changes open, close, spreads, imbalance extremes, the prices of empty bars and all bars that count
  trades or volume, but no other column of a time bar (C159_open_close_differ, C159_flow_path_differs, C159_empty_bar_differs,
  C159_other_bars_differ). `_sort_trades` fixes that order when the trade ids are distinct; with equal ids the unstable sort decides which row is
  kept (C159_equal_ids_differ).
- Raising the threshold of CUSUM bars can give more bars when trades share timestamps: both sums may pass the threshold inside a block, and only
  one of them is then reset (C160_cusum_bars_blocks). Without such blocks, and for all other bar types, it cannot.
- The `StochK` feature falls when the latest close rises: with high, low and close passed in the wrong order the close is only the
  denominator (C162).
- A larger imbalance multiplier can lengthen the longest run of imbalances and turn its sign, because a level that carries both flags
  counts as a buy level only (C164).
- The spread columns of one-trade bars are not the spread columns of longer bars cut in pieces: a run of buys has
  spread 0 as one bar, and the full price moves as spreads when cut into single trades (`C165_spread_one_trade`).
- With a window of 1 the price-volume correlation is 1 at bars 4 to 9 even if the price never moves: the shortcut of
  `correlation.py:45-55` tests an empty range (`C166_correlation_window_one`).
- `time_decay` weighs by position in the array, not by time: events given in another order get other decay weights, although labels,
  uniqueness, attribution and class balance do not depend on the order (`C169_time_decay_not_symmetric`).
- The comment above the four-bar returns of `variance_ratio_1_4_core` (`volatility.py:522`) calls them non-overlapping; they are taken at every bar, so two neighbours share three one-bar returns. With `ret_type="simple"` the four-bar return is the sum of the one-bar returns and not the return over four bars (C171_four_bar_simple: 4 where the price rose by 15 times its value).
- A CUSUM bar indexer whose volatility column holds no number never closes a bar: `max(nan, sigma_floor)` keeps the NaN, so the
  floor that is meant to apply has no effect (`C06_all_nan`).
- `merge_split_trades` adds amounts in float32 and compares prices with the absolute tolerance `1e-8`: fills after `2^24` units are
  lost (`C96_fills_lost`), price levels of instruments with ticks below `1e-8` are merged (`C96_small_ticks`), and with ticks
  below `1e-12` no side is inferred (`C96_tiny_ticks`).
- A `side` array passed together with `preprocess=True` is dropped: `_merge_trades` rebuilds the frame with a side column only if
  `is_buyer_maker` is given, and the tick rule is used otherwise (the model's `preprocess` therefore has no such argument).
- The running sums of VWAP distance, Bollinger %B and VPIN never recover from one extreme value: the wrong window sum stays for
  ever, and VPIN can exceed 1 (C90).
- Float64 %K can be 100.00000000000001, and the z-score of a constant series is a number instead of missing when the mean rounds
  (C91).

## Wrong programs

`seeded/LOG.jsonl` records edits of model definitions made in a scratch copy, with the theorems that stopped
checking.  Edits that no theorem rejected led to new or stronger theorems, named in the record.
Where a record has a field `built`, only that module and what it imports was rebuilt after the edit, so `theorems_failed` is
limited to those; the other records list the failures of the whole library.
