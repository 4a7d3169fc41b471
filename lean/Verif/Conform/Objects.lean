/-
The tests of the containers, the store, the builders, the operation names, the execution order and the logger (`/repo/tests/bars`,
`/repo/tests/features`, `/repo/tests/utils`), replayed on the model.  Left out: tests of Python types, and the part of the
serialisation tests that compares built columns; the round trip itself is proved for all objects.  A month is the number
`100 * year + month`.
-/
import Verif.Conform.Basic
import Verif.Model.TradesInit
import Verif.Model.Store
import Verif.Model.Inspector
import Verif.Model.TimeBarStore
import Verif.Model.BarKit
import Verif.Model.FootprintData
import Verif.Model.TickSize
import Verif.Model.Logging
import Verif.Model.Config
import Verif.Model.FeatureKit
import Mathlib.Data.List.Sort

namespace FinML.Conform

/-- Sort rows by id. -/
def byId (l : List (TradeRow ℚ)) : List (TradeRow ℚ) := l.insertionSort (fun a b => a.id ≤ b.id)

/-- `2021-01-01` in microseconds. -/
def day0us : Int := 1609459200000000

/-- `2021-01-01` in nanoseconds. -/
def day0ns : Int := 1609459200000000000

/-! ## `tests/bars/test_data_model.py` -/

/-- The arguments of `test_preprocess_pipeline_and_rounding_and_side_inference`. -/
def pipelineArgs : TradesArgs ℚ :=
  ⟨[day0us, day0us, day0us + 500000, day0us + 120000000], [100, 100, 100, 101], [2/5, 3/5, 1/10, 2], some [1, 2, 2, 10], none, none,
    none, none, true, some "ms"⟩

-- unit, resolution, merge, sides
example : okAnd (tradesInit (1/100000000) (1/1000000000) byId pipelineArgs) (fun o =>
      o.unit == "us" && o.ts.all (fun t => t % 1000000 == 0) && o.ts == [day0ns, day0ns + 120000000000] &&
      o.price == [100, 101] && o.amount == [1, 2] && o.side == some [0, 1]) = true := by decide +kernel

/-- The rows of a trades object. -/
def rowsOf (o : TradesObj ℚ) : List (OutTrade ℚ) :=
  List.zipWith (fun (t : Int × ℚ) (p : ℚ × Int) => ⟨t.1, t.2, p.1, p.2⟩) (o.ts.zip o.price) (o.amount.zip (o.side.getD []))

-- set_view_range
example : okAnd (tradesInit (1/100000000) (1/1000000000) byId pipelineArgs) (fun o =>
      okAnd (setViewRange day0ns (day0ns + 60000000000)) (fun v => (viewData v (rowsOf o)).length == 1)) = true ∧
    fails (setViewRange (day0ns + 60000000000) day0ns) = true := by decide +kernel

-- save_h5 and load_trades_h5 by key; the helper on a missing month
example : okAnd (tradesInit (1/100000000) (1/1000000000) byId pipelineArgs) (fun o =>
      (fun st : Store Nat ℚ =>
        okAnd (loadTrades (fun l => l.insertionSort (fun a b => a.ts ≤ b.ts)) st (some 202101) none none none) (fun r => r == rowsOf o) &&
        okAnd (loadGroup st none none 202101) (fun r => r.length == 2) && fails (loadGroup st none none 209901))
      (saveH5 (fun _ => 202101) none true Store.empty ⟨rowsOf o, some false, 0, []⟩).1) = true := by decide +kernel

/-! ## `tests/bars/test_data_model_io_kit.py` -/

/-- The arguments of `_sample_trades`. -/
def sampleArgs : TradesArgs ℚ :=
  ⟨[1000, 1000, 2000, 3000], [10, 10, 11, 12], [1, 2, 3/2, 1], some [2, 1, 3, 4], none, none, none, some "ms", true, none⟩

/-- The file after saving the sample trades. -/
def sampleStore (o : TradesObj ℚ) : Store Nat ℚ :=
  (saveH5 (fun _ => 197001) none true Store.empty ⟨rowsOf o, some true, 0, []⟩).1

-- test_tradesdata_save_load_and_view
example : okAnd (tradesInit (1/100000000) (1/1000000000) byId sampleArgs) (fun o =>
      o.unit == "ms" && o.ts.length == 3 &&
      okAnd (setViewRange 1000000000 3000000000) (fun v => viewData v (rowsOf o) != []) &&
      okAnd (loadTrades id (sampleStore o) none (some 1000000000) (some 3000000000) none) (fun r => r == rowsOf o) &&
      listKeys (sampleStore o) == [197001] &&
      okAnd (getMetadata (sampleStore o) 197001) (fun m => m.recordCount == 3) &&
      okAnd (getIntegrityInfo (sampleStore o) 197001) (fun i => i == none) &&
      okAnd (getStatistics (sampleStore o) 197001) (fun s => s.recordCount == 3) &&
      (inspectGaps 60000000000 (sampleStore o)).map Prod.fst == [197001] &&
      integritySummary (sampleStore o) == none) = true := by decide +kernel

/-- What the builders read. -/
def kitOf (o : TradesObj ℚ) : KitTrades ℚ := ⟨o.ts, o.price, o.amount, o.side.getD []⟩

-- test_bar_kits_run
example : okAnd (tradesInit (1/100000000) (1/1000000000) byId sampleArgs) (fun o =>
      [KitKind.time 1000000000, .tick 1, .volume 1, .dollar 10, .cusum [some 1, some 1, some 1] (1/2000) 2].all (fun k =>
        okAnd (compBarClose qlog (kitOf o) k) (fun c => c.1.length == c.2.length))) = true := by decide +kernel

/-! ## `tests/bars/test_io.py` -/

-- test_h5inspector_methods: the gap fixture
example : okAnd (tradesInit (1/100000000) (1/1000000000) byId
      ⟨[day0us, day0us, day0us + 120000000], [100, 100, 101], [2/5, 3/5, 2], some [1, 2, 10], none, none, none, none, true, none⟩) (fun o =>
      (fun st : Store Nat ℚ =>
        listKeys st == [202101] &&
        okAnd (getStatistics st 202101) (fun s => decide (s.priceRange.1 ≤ s.priceRange.2) && decide (s.amountRange.1 ≤ s.amountRange.2)) &&
        (match integritySummary st with | none => false | some l => l.map Prod.fst == [202101]))
      (saveH5 (fun _ => 202101) none true Store.empty ⟨rowsOf o, some false, 0, []⟩).1) = true ∧
    dataOk byId [⟨day0ns, 100, 2/5, 1⟩, ⟨day0ns, 100, 3/5, 2⟩, ⟨day0ns + 120000000000, 101, 2, 10⟩] = false := by decide +kernel

/-- The bars of `test_timebarreader_list_and_range_and_resample`. -/
def sixBars : List (TBar ℚ) :=
  List.zipWith (fun (i : Nat) (n : Int) => ⟨day0ns + (i : Int) * 1000000000, 10 + i, 11 + i, 9 + i, 21/2 + i, 1 + i, n, some (21/2 + i), 1 + i⟩)
    (List.range 6) [1, 2, 1, 2, 3, 1]

-- list_keys, the time range and the three-second bars
example : listTimeRange (⟨[(202101, sixBars)], [(202101, kmetaOf sixBars)], []⟩ : KStore Nat ℚ) =
      some (day0ns, day0ns + 5000000000) ∧
    resample (fun l => l.insertionSort (fun a b => a.1 ≤ b.1)) 3000000000 sixBars =
      [⟨day0ns, 10, 13, 9, 25/2, 6, 4, some ((21/2*1 + 23/2*2 + 25/2*3)/6), 2⟩,
       ⟨day0ns + 3000000000, 13, 16, 12, 31/2, 15, 6, some ((27/2*4 + 29/2*5 + 31/2*6)/15), 5⟩] := by decide +kernel

/-! ## `tests/bars/test_hdf5_index_and_filtering.py` -/

/-- `_make_sample_trades`: hourly trades from a start time. -/
def hourly (n : Nat) (start : Int) : List (OutTrade ℚ) :=
  (List.range n).map (fun i => ⟨start + (i : Int) * 3600000000000, 100 + (i : ℚ) / ((n : ℚ) - 1), 1 + (i : ℚ) / ((n : ℚ) - 1), 0⟩)

/-- `2021-01-10` in nanoseconds. -/
def day9ns : Int := day0ns + 9 * 86400000000000

-- load_trades_h5 without filters, and with both bounds (inclusive)
example : okAnd (loadTrades id (saveH5 (fun _ => 0) (some 202101) true Store.empty ⟨hourly 6 day9ns, none, 0, []⟩).1 (some 202101)
      none none none) (fun r => r == hourly 6 day9ns && rowsMonotone r) = true ∧
    okAnd (loadTrades id (saveH5 (fun _ => 0) (some 202101) true Store.empty ⟨hourly 24 day9ns, none, 0, []⟩).1 none
      (some (day9ns + 5 * 3600000000000)) (some (day9ns + 10 * 3600000000000)) none) (fun r =>
        r.length == 6 && r.head?.map (·.ts) == some (day9ns + 5 * 3600000000000) &&
        r.getLast?.map (·.ts) == some (day9ns + 10 * 3600000000000)) = true := by decide +kernel

/-! ## `tests/bars/test_bar_builder_footprints.py` -/

/-- The trades of `create_test_trades`. -/
def builderTrades : KitTrades ℚ :=
  ⟨[1000000000, 1500000000, 1900000000, 2100000000, 2500000000, 2900000000, 3100000000], [100, 101, 102, 103, 102, 101, 100],
    [1, 2, 3, 2, 1, 2, 1], [1, -1, 1, -1, 1, -1, 1]⟩

/-- The state of the mock builder, whose closes are preset. -/
def mockState : BuilderState ℚ := ⟨some [1000000000, 2000000000, 3000000000], some [0, 3, 6], none, none⟩

-- one entry per bar timestamp in every column, and in a slice of length one
example : okAnd (buildFootprints qlog (fun t p => rint (p / t)) (fun _ => .error "") builderTrades (.tick 1) (some (1/2)) 3 mockState).2 (fun r =>
      r.1 == [2000000000, 3000000000] && r.2.1 == 1/2 && r.2.2.length == 2 &&
      (pySlice (some 0) (some 1) r.2.2).length == 1 && (pySlice (some 0) (some 1) r.1).length == 1) = true := by decide +kernel

/-! ## `tests/features/test_feature_serialization_unary_rolling.py` -/

/-- The text of the two bounds used by the tests. -/
def boundTexts : FloatText :=
  ⟨fun q => if q = 100 then "100.0".toList else if q = -100 then "-100.0".toList else if q = 1/10 then "0.1".toList else "-0.1".toList,
   fun s => if s = "100.0".toList then some 100 else if s = "-100.0".toList then some (-100) else if s = "0.1".toList then some (1/10)
     else if s = "-0.1".toList then some (-(1/10)) else none⟩

-- every operation used by the test is rebuilt from its name; the alias of the rolling sum
example : ([UFn.abs, .square, .exp, .log1p, .log, .sqrt, .rmean 5, .rstd 7, .rsum 9, .ema 6 true, .lag 2, .clip (some (-100)) (some 100),
      .clip (some (-(1/10))) (some (1/10))].all (fun f => unaryFromName boundTexts (f.opName boundTexts) == some f)) = true ∧
    unaryFromName boundTexts "tsum4".toList = some (.rsum 4) := by decide +kernel

/-! ## `tests/features/test_computation_graph.py`, `test_external_function_and_graph.py` -/

/-- A leaf with one input column that adds a number. -/
def addLeaf (inp prod : String) (k : ℚ) : Leaf (List ℚ) := ⟨true, [inp], prod, fun l => .ok ((l.headD []).map (· + k))⟩

def smaT : Tr (List ℚ) := .leaf (addLeaf "close" "sma5" 1)
def ewmaT : Tr (List ℚ) := .leaf (addLeaf "close" "ewma10" 2)

/-- The ratio, its name and the kit of `test_graph_edges_and_topo`, in the order of the test. -/
def ratioT : Tr (List ℚ) := .bin "div" (List.zipWith (· / ·)) smaT ewmaT

def graphKit : List (Feat (List ℚ)) := [.single ratioT.output ratioT, .single smaT.output smaT, .single ewmaT.output ewmaT]

def closeOnly : ColFrame (List ℚ) := fun n => if n = "close" then some [0, 1, 2] else none

-- edges; dependencies come first whatever order the set has; the build has all columns
example : (buildFeatureGraph graphKit).succ "input:close" = [ratioT.output, smaT.output, ewmaT.output] ∧
    (buildFeatureGraph graphKit).succ smaT.output = [ratioT.output] ∧
    (buildFeatureGraph graphKit).succ ewmaT.output = [ratioT.output] ∧
    topologicalOrder (graphKit.map Feat.name) (graphKit.map Feat.name) (buildFeatureGraph graphKit).succ =
      [smaT.output, ewmaT.output, ratioT.output] ∧
    topologicalOrder (graphKit.map Feat.name) (graphKit.map Feat.name).reverse (buildFeatureGraph graphKit).succ =
      [ewmaT.output, smaT.output, ratioT.output] ∧
    okAnd (buildTopo closeOnly ["close"] graphKit (graphKit.map Feat.name)) (fun o =>
      o "close" == some [0, 1, 2] && o smaT.output == some [1, 2, 3] && o ewmaT.output == some [2, 3, 4] &&
      o ratioT.output == some [1/2, 2/3, 3/4]) = true := by decide +kernel

/-! ## `tests/features/test_caching_and_optimization.py`, `test_compose_pipeline.py` -/

/-- A leaf that must not be called. -/
def boom (inp prod : String) : Leaf (List ℚ) := ⟨true, [inp], prod, fun _ => .error "should not be called"⟩

-- binaryop_uses_cached_operands: operands present in the frame are not computed
example : okAnd ((Tr.bin "add" (List.zipWith (· + ·)) (.leaf (boom "close" "sma3")) (.leaf (boom "close" "ewma5"))).eval
      (fun n => if n = "close_sma3" then some [(1 : ℚ), 2] else if n = "close_ewma5" then some [10, 20] else none))
      (fun r => r == [11, 22]) = true := by decide +kernel

-- compose_skips_cached_steps, compose_short_circuit_final, compose_chain_execute
example : okAnd ((Tr.comp (boom "close" "sma3") [boom "close_sma3" "ewma5"]).eval
      (fun n => if n = "close" then some [(0 : ℚ), 1] else if n = "close_sma3" then some [1, 2] else if n = "close_sma3_ewma5" then some [3, 4]
        else none)) (fun r => r == [3, 4]) = true ∧
    okAnd ((Tr.comp (boom "close" "sma3") [boom "close_sma3" "ewma5"]).eval
      (fun n => if n = "close" then some [(0 : ℚ), 1]
        else if n = (Tr.comp (boom "close" "sma3") [boom "close_sma3" "ewma5"]).output then some [3, 4] else none))
      (fun r => r == [3, 4]) = true ∧
    okAnd ((Tr.comp (addLeaf "close" "sma3" 1) [addLeaf "close_sma3" "ewma5" 10]).eval closeOnly) (fun r => r == [11, 12, 13]) = true := by decide +kernel

/-! ## `tests/utils/test_logger.py` -/

/-- The state after the fixture `reset_logging`. -/
def resetLog : LogState := ⟨[], 0, false, true⟩

-- console_only_logger_defaults
example : setupLogging (fun _ => true) ⟨none, some "INFO".toList, none⟩ resetLog = (⟨[.console 20], 10, true, false⟩, .ok ()) ∧
    receivers (setupLogging (fun _ => true) ⟨none, some "INFO".toList, none⟩ resetLog).1 20 = [.console 20] := by
  refine ⟨by rfl, by decide +kernel⟩

-- file_logging_enabled: a debug record goes to the file only
example : (setupLogging (fun _ => true) ⟨some "DEBUG".toList, some "WARNING".toList, some "/tmp/logs_subdir/app.log".toList⟩ resetLog).1.handlers =
      [.console 30, .file "/tmp/logs_subdir/app.log".toList 10] ∧
    receivers (setupLogging (fun _ => true) ⟨some "DEBUG".toList, some "WARNING".toList, some "/tmp/logs_subdir/app.log".toList⟩ resetLog).1 10 =
      [.file "/tmp/logs_subdir/app.log".toList 10] := by decide +kernel

-- idempotent_setup_no_duplicate_handlers, third_party_loggers_suppressed
example : (setupLogging (fun _ => true) ⟨none, none, some "/tmp/logs/app.log".toList⟩
      (setupLogging (fun _ => true) ⟨none, none, some "/tmp/logs/app.log".toList⟩ resetLog).1).1 =
      (setupLogging (fun _ => true) ⟨none, none, some "/tmp/logs/app.log".toList⟩ resetLog).1 ∧
    (setupLogging (fun _ => true) ⟨none, none, none⟩ resetLog).1.quiet = true ∧
    (setupLogging (fun _ => true) ⟨none, none, none⟩ resetLog).1.propagate = false := by decide +kernel

end FinML.Conform
