/-
The tests of the bar kernels in `/repo/tests/bars`, replayed on the model.  Left out: tests on random data and tests of array types.
-/
import Verif.Conform.Basic
import Verif.Model.Indexers
import Verif.Model.Bars
import Verif.Model.Footprint
import Verif.Model.FootprintData
import Verif.Model.TradeSize
import Verif.Model.Trades
import Verif.Model.TickSizeOld
import Verif.Model.Float64TickSize

namespace FinML.Conform

/-! ## `tests/bars/test_time_bar_indexer.py` -/

-- basic, precise_calculation, empty_bars, single_trade, different_intervals, fractional_intervals, edge_boundary
example : (timeBarIndexer [999999999, 1000000000, 2000000000, 3000000000, 4000000000, 5000000000, 5999999999, 6100000000, 7000000000] 2000000000).1 =
      [0, 2000000000, 4000000000, 6000000000, 8000000000, 10000000000] ∧
    (timeBarIndexer [1000000000, 1500000000, 2000000000, 2500000000, 3000000000, 4000000000] 2000000000).1 = [0, 2000000000, 4000000000, 6000000000] ∧
    (timeBarIndexer [1000000000, 2000000000, 5000000000, 6000000000] 2000000000).1 = [0, 2000000000, 4000000000, 6000000000, 8000000000] ∧
    (timeBarIndexer [5000000000] 2000000000).1 = [4000000000, 6000000000, 8000000000] ∧
    (timeBarIndexer [1000000000, 1500000000, 3000000000, 4500000000, 6000000000] 1000000000).1 =
      [1000000000, 2000000000, 3000000000, 4000000000, 5000000000, 6000000000, 7000000000] ∧
    (timeBarIndexer [1000000000, 1500000000, 3000000000, 4500000000, 6000000000] 5000000000).1 = [0, 5000000000, 10000000000, 15000000000] ∧
    (timeBarIndexer [1000000000, 1250000000, 1500000000, 1750000000, 2000000000] 500000000).1 = [1000000000, 1500000000, 2000000000, 2500000000] ∧
    (timeBarIndexer [0, 2000000000, 4000000000, 6000000000] 2000000000).1 = [0, 2000000000, 4000000000, 6000000000, 8000000000] := by decide +kernel

-- consistency, identical_timestamps: an index points at a trade not after the clock time
example : ((fun r : List Int × List Int => (List.zipWith (fun t i => decide (i < 0 ∨ ([1100000000, 1900000000, 2100000000, 2800000000, 3200000000] :
      List Int).getD i.toNat 0 ≤ t)) r.1 r.2).all id) (timeBarIndexer [1100000000, 1900000000, 2100000000, 2800000000, 3200000000] 1000000000)) = true ∧
    ((fun r : List Int × List Int => r.1.length == r.2.length && r.2.all (· < 4))
      (timeBarIndexer [1000000000, 1000000000, 1000000000, 2000000000] 1500000000)) = true := by decide +kernel

/-! ## `tests/bars/test_comp_ohlcv.py` -/

-- test_comp_ohlcv, test_single_trade_per_bar, test_zero_volume, test_empty_bars
example : compBarOhlcv [(10 : ℚ), 11, 12, 13, 14, 15] [100, 200, 150, 100, 50, 25] [0, 3, 5] = .ok
      [⟨11, 13, 11, 13, 450, (11*200 + 12*150 + 13*100)/450, 3, 150⟩, ⟨14, 15, 14, 15, 75, (14*50 + 15*25)/75, 2, 75/2⟩] ∧
    compBarOhlcv [(10 : ℚ), 12, 14] [100, 200, 300] [0, 1, 2] = .ok [⟨12, 12, 12, 12, 200, 12, 1, 200⟩, ⟨14, 14, 14, 14, 300, 14, 1, 300⟩] ∧
    compBarOhlcv [(10 : ℚ), 12] [100, 0] [0, 1] = .ok [⟨12, 12, 12, 12, 0, 0, 1, 0⟩] ∧
    compBarOhlcv [(10 : ℚ), 12, 14] [100, 200, 300] [0, 1, 1, 2] = .ok
      [⟨12, 12, 12, 12, 200, 12, 1, 200⟩, ⟨12, 12, 12, 12, 0, 0, 0, 0⟩, ⟨14, 14, 14, 14, 300, 14, 1, 300⟩] := by decide +kernel

-- input_validation, empty_data
example : failsWith (compBarOhlcv [(10 : ℚ), 11] [100] [0, 1]) "Prices and volumes arrays must have the same length." = true ∧
    failsWith (compBarOhlcv [(10 : ℚ)] [100] [0]) "Bar close indices must contain at least two elements." = true ∧
    fails (compBarOhlcv ([] : List ℚ) [] [0]) = true := by decide +kernel

-- ascending, descending, volatile, extreme_volumes, all_zero_volumes
example : okAnd (compBarOhlcv [(10 : ℚ), 11, 12, 13, 14, 15] [100, 100, 100, 100, 100, 100] [0, 2, 5])
      (fun r => r.map (fun b => (b.opn, b.high, b.low, b.close)) == [(11, 12, 11, 12), (13, 15, 13, 15)]) = true ∧
    okAnd (compBarOhlcv [(15 : ℚ), 14, 13, 12, 11, 10] [100, 100, 100, 100, 100, 100] [0, 2, 5])
      (fun r => (r.map (fun b => (b.opn, b.high, b.low, b.close))).take 1 == [(14, 14, 13, 13)]) = true ∧
    okAnd (compBarOhlcv [(100 : ℚ), 150, 50, 200, 25, 175] [100, 200, 300, 150, 250, 100] [0, 3, 5])
      (fun r => (r.map (fun b => (b.opn, b.high, b.low, b.close, b.vwap))).take 1 ==
        [(150, 200, 50, 200, (150*200 + 50*300 + 200*150)/(200 + 300 + 150))]) = true ∧
    okAnd (compBarOhlcv [(10 : ℚ), 11, 12, 13] [1/1000, 1000000, 0, 999999999/1000] [0, 1, 3])
      (fun r => r.map (fun b => (b.volume, b.vwap)) == [(1000000, 11), (999999999/1000, 13)]) = true ∧
    okAnd (compBarOhlcv [(10 : ℚ), 11, 12, 13] [100, 0, 0, 200] [0, 2, 3]) (fun r => (r.map (fun b => (b.volume, b.vwap))).take 1 == [(0, 0)]) = true := by
  decide +kernel

-- median_edge_cases, identical_trade_sizes, single_bar, consecutive_empty_bars, floating_point_precision
example : okAnd (compBarOhlcv [(10 : ℚ), 11, 12, 13, 14] [100, 50, 200, 150, 75] [0, 3]) (fun r => r.map (·.median) == [150]) = true ∧
    okAnd (compBarOhlcv [(10 : ℚ), 11] [100, 250] [0, 1]) (fun r => r.map (·.median) == [250]) = true ∧
    okAnd (compBarOhlcv [(10 : ℚ), 11, 12, 13] [100, 100, 100, 100] [0, 2]) (fun r => r.map (·.median) == [100]) = true ∧
    okAnd (compBarOhlcv [(10 : ℚ), 11, 12] [100, 200, 150] [0, 2]) (fun r => r.map (fun b => (b.opn, b.close, b.trades)) == [(11, 12, 2)]) = true ∧
    okAnd (compBarOhlcv [(10 : ℚ), 15] [100, 200] [0, 0, 0, 1]) (fun r => r.map (fun b => (b.volume, b.trades)) == [(0, 0), (0, 0), (200, 1)]) = true ∧
    okAnd (compBarOhlcv [(100 : ℚ), 1000000001/10000000, 999999999/10000000, 1000000002/10000000] [1000, 2000, 1500, 2500] [0, 3])
      (fun r => r.map (fun b => (b.high, b.low)) == [(1000000002/10000000, 999999999/10000000)]) = true := by decide +kernel

/-! ## `tests/bars/test_comp_bar_directional_features.py` -/

-- simple_case, mixed_trades, all_sells, constant_price
example : compBarDirectional [(100 : ℚ), 101, 102] [10, 15, 20] [0, 1, 1] [0, 2] =
      [⟨2, 0, 35, 0, 3555, 0, some (1/2), 1, 1, 2, 15, 35, 1515, 3555⟩] ∧
    compBarDirectional [(100 : ℚ), 99, 100, 101] [10, 20, 30, 40] [0, -1, 1, 1] [0, 3] =
      [⟨2, 1, 70, 20, 7040, 1980, some (2/3), 1, -1, 1, -20, 50, -1980, 5060⟩] ∧
    compBarDirectional [(100 : ℚ), 99, 98] [10, 20, 30] [0, -1, -1] [0, 2] =
      [⟨0, 2, 0, 50, 0, 4920, some (1/2), 1, -2, -1, -50, -20, -4920, -1980⟩] ∧
    compBarDirectional [(100 : ℚ), 100, 100] [10, 20, 30] [0, 1, 1] [0, 2] =
      [⟨2, 0, 50, 0, 5000, 0, some 0, 0, 1, 2, 20, 50, 2000, 5000⟩] := by decide +kernel

-- multiple_bars_with_varying_spreads, variable_spreads, alternating_trades_spread
example : compBarDirectional [(100 : ℚ), 101, 102, 203/2, 103, 102] [10, 15, 20, 25, 30, 35] [0, 1, 1, -1, 1, -1] [0, 2, 5] =
      [⟨2, 0, 35, 0, 3555, 0, some (1/2), 1, 1, 2, 15, 35, 1515, 3555⟩,
       ⟨1, 2, 30, 60, 3090, 12215/2, some 1, 3/2, -1, 0, -30, 5, -6035/2, 1105/2⟩] ∧
    compBarDirectional [(100 : ℚ), 101, 105, 103] [10, 20, 30, 40] [0, 1, 1, -1] [0, 3] =
      [⟨2, 1, 50, 40, 5170, 4120, some 1, 2, 1, 2, 10, 50, 1050, 5170⟩] ∧
    compBarDirectional [(100 : ℚ), 101, 100, 101] [10, 10, 10, 10] [0, 1, -1, 1] [0, 3] =
      [⟨2, 1, 20, 10, 2020, 1000, some 1, 1, 0, 1, 0, 10, 10, 1020⟩] := by decide +kernel

/-! ## `tests/bars/test_comp_bar_footprints.py` -/

/-- `comp_bar_footprints` bar by bar, with `int(round(price / tick))`. -/
def testBars (prices amounts : List ℚ) (closes : List Int) (sides : List Int) (tick : ℚ) (lows highs : List ℚ) (m : ℚ) :
    List (Except String (Footprint ℚ)) :=
  List.zipWith (fun (c : Int × Int) (lh : ℚ × ℚ) =>
    footprintBar (fun p => rint (p / tick)) m lh.1 lh.2 (footprintTrades prices amounts sides c.1 c.2)) (closePairs closes) (lows.zip highs)

/-- All bars were built, and `p` gives these values on them. -/
def fpAre {α : Type} [BEq α] (es : List (Except String (Footprint ℚ))) (p : Footprint ℚ → α) (want : List α) : Bool :=
  es.length == want.length && (List.zipWith (fun e w => okAnd e (fun f => p f == w)) es want).all id

-- basic
example : fpAre (testBars [100, 201/2, 101, 201/2, 100] [1, 2, 3/2, 1, 2] [0, 3, 4] [0, 1, 1, -1, -1] (1/2) [100, 100] [101, 100] (3/2))
      (fun f => (f.priceLevels, f.lv.buyVol, f.lv.sellVol)) [([200, 201, 202], [0, 2, 3/2], [0, 1, 0]), ([200], [0], [2])] = true ∧
    fpAre (testBars [100, 201/2, 101, 201/2, 100] [1, 2, 3/2, 1, 2] [0, 3, 4] [0, 1, 1, -1, -1] (1/2) [100, 100] [101, 100] (3/2))
      (fun f => (f.lv.buyTicks, f.lv.sellTicks)) [([0, 1, 1], [0, 1, 0]), ([0], [1])] = true ∧
    fpAre (testBars [100, 201/2, 101, 201/2, 100] [1, 2, 3/2, 1, 2] [0, 3, 4] [0, 1, 1, -1, -1] (1/2) [100, 100] [101, 100] (3/2))
      (fun f => (f.stats.cot, f.buyImbSum == f.stats.buyImb.count true, f.sellImbSum == f.stats.sellImb.count true))
      [(201, true, true), (200, true, true)] = true := by decide +kernel

-- single_price_level, multiple_bars, edge_cases, small_tick_size, empty_bar
example : fpAre (testBars [100, 100, 100, 100] [1, 2, 3/2, 3] [0, 3] [0, 1, -1, 1] (1/2) [100] [100] 2)
      (fun f => (f.priceLevels, f.lv.buyVol, f.lv.sellVol)) [([200], [5], [3/2])] = true ∧
    fpAre (testBars [100, 100, 100, 100] [1, 2, 3/2, 3] [0, 3] [0, 1, -1, 1] (1/2) [100] [100] 2) (fun f => (f.lv.buyTicks, f.lv.sellTicks)) [([2], [1])] = true ∧
    fpAre (testBars [100, 201/2, 101, 203/2, 199/2, 99] [1, 2, 3/2, 5/2, 1, 3] [0, 2, 5] [0, 1, 1, -1, -1, 1] (1/2) [100, 99] [101, 203/2] (3/2))
      (fun f => (f.priceLevels, f.lv.buyVol, f.lv.sellVol))
      [([200, 201, 202], [0, 2, 3/2], [0, 0, 0]), ([198, 199, 200, 201, 202, 203], [3, 0, 0, 0, 0, 0], [0, 1, 0, 0, 0, 5/2])] = true ∧
    fpAre (testBars [100, 201/2] [1, 2] [0, 1] [0, 0] (1/2) [100] [201/2] (3/2)) (fun f => (f.lv.buyVol, f.lv.sellVol)) [([0, 0], [0, 0])] = true ∧
    fpAre (testBars [100, 10001/100, 10002/100] [1, 2, 3/2] [0, 2] [0, 1, -1] (1/100) [100] [10002/100] (3/2))
      (fun f => (f.priceLevels, f.lv.buyVol, f.lv.sellVol)) [([10000, 10001, 10002], [0, 2, 0], [0, 0, 3/2])] = true ∧
    (testBars [] [] [0] [] (1/2) [] [] (3/2)).length = 0 := by decide +kernel

-- large_imbalance
example : (testBars [100, 201/2, 100, 201/2] [1, 10, 1, 1] [0, 3] [0, 1, -1, -1] (1/2) [100] [201/2] 2).map
    (fun e => e.toOption.map (fun f => (f.lv.buyVol, f.lv.sellVol, f.stats.buyImb, f.stats.sellImb))) =
    [some ([0, 10], [1, 1], [false, true], [false, false])] := by decide +kernel

/-! ## `tests/bars/test_footprint_features.py` -/

/-- `comp_footprint_features` on the price levels `100, 101, …`. -/
def ff (buy sell : List ℚ) (m : ℚ) : FootprintStats ℚ := footprintFeatures ((List.range buy.length).map (fun i : Nat => 100 + (i : Int))) buy sell m

-- single_price_level, two_price_levels, all_zero_volumes, imbalance_detection_edge_levels
example : ff [50] [30] (3/2) = ⟨[false], [false], 0, 100, 0, 0⟩ ∧
    (ff [10, 50] [30, 10] 2).buyImb = [false, false] ∧ (ff [10, 50] [30, 10] 2).sellImb = [false, false] ∧ (ff [10, 50] [30, 10] 2).maxRunSigned = 0 ∧
    ff [0, 0, 0] [0, 0, 0] (3/2) = ⟨[false, false, false], [false, false, false], 0, 100, 0, 0⟩ ∧
    (ff [1000, 1, 1, 1, 1000] [1, 1, 1, 1, 1] 1).buyImb = [false, false, false, false, true] ∧
    (ff [1000, 1, 1, 1, 1000] [1, 1, 1, 1, 1] 1).sellImb.getD 4 true = false ∧ (ff [1000, 1, 1, 1, 1000] [1, 1, 1, 1, 1] 1).sellImb.getD 0 true = false := by
  decide +kernel

-- buy_imbalance_threshold, sell_imbalance_threshold, max_run_edge_cases, max_run_alternating, max_run_long_sequences
example : (ff [10, 100, 5] [50, 20, 10] 2).buyImb = [false, false, false] ∧ (ff [10, 100, 5] [50, 20, 10] (3/2)).buyImb.getD 1 false = true ∧
    (ff [10, 5, 20] [100, 15, 30] 2).sellImb = [true, false, false] ∧ (ff [10, 10, 10, 10] [10, 10, 10, 10] 2).maxRunSigned = 0 ∧
    (ff [1, 100, 1] [10, 1, 10] (3/2)).maxRunSigned = 1 ∧ |(ff [1, 100, 1, 100, 1] [100, 1, 100, 1, 100] (3/2)).maxRunSigned| ≤ 1 ∧
    1 < (ff [1, 50, 50, 50, 50, 1] [10, 1, 1, 1, 1, 10] 2).maxRunSigned := by decide +kernel

-- cot_multiple_maxima, cot_clear_winner, cot_edge_levels, cot_price
example : (ff [20, 30, 20, 10] [30, 20, 30, 40] (3/2)).cot = 100 ∧ (ff [10, 20, 100, 15, 5] [15, 25, 50, 10, 10] (3/2)).cot = 102 ∧
    (ff [100, 10, 5] [50, 5, 10] (3/2)).cot = 100 ∧ (ff [10, 40, 70, 30, 15, 5] [5, 15, 20, 60, 40, 10] (3/2)).cot = 102 := by decide +kernel

-- gini_perfect_concentration, gini_perfect_distribution, gini_mathematical_consistency, gini_bounds, signed_max_run
example : (ff [0, 0, 100, 0, 0] [0, 0, 50, 0, 0] (3/2)).vpGini = 0 ∧ (ff [20, 20, 20, 20, 20] [10, 10, 10, 10, 10] (3/2)).vpGini = 8/10 ∧
    (ff [10, 30, 20, 40] [5, 15, 10, 20] (3/2)).vpGini = 1 - ((1/10)^2 + (3/10)^2 + (2/10)^2 + (4/10)^2) ∧
    (ff [20, 20, 20, 20, 20] [20, 20, 20, 20, 20] (3/2)).vpGini = 8/10 ∧ (ff [5, 60, 70, 80, 40, 5] [10, 15, 20, 25, 15, 10] (3/2)).maxRunSigned = 4 ∧
    (ff [10, 15, 10, 15, 20, 10] [5, 60, 70, 80, 40, 5] (3/2)).maxRunSigned = -3 ∧ (ff [10, 10, 10] [10, 10, 10] (3/2)).maxRunSigned = 0 := by
  decide +kernel

-- skew_single_level_is_zero
example : (ff [0, 0, 0, 0, 100] [0, 0, 0, 0, 50] (3/2)).vpSkew = 0 ∧ (ff [100, 0, 0, 0, 0] [50, 0, 0, 0, 0] (3/2)).vpSkew = 0 := by decide +kernel

/-! ## `tests/bars/test_bar_trade_size_features.py` -/

/-- `log1p`. -/
def qlog1p (x : ℚ) : ℚ := qlog (1 + x)

-- test_two_bars
example : okAnd (compBarTradeSize qlog1p [10, 20, 30, 40, 50, 60] [some 10, some 10] [0, 3, 5] 5) (fun r =>
    nearOptList (1 / 10 ^ 6) (r.map (·.meanRel)) [some (qlog1p (30/50)), some (qlog1p (55/50))] &&
    nearOptList (1 / 10 ^ 6) (r.map (·.size95Rel)) [some (qlog1p (39/50)), some (qlog1p (595/10/50))] &&
    nearOptList (1 / 10 ^ 6) (r.map (·.pctBlock)) [some 0, some (60/110)]) = true := by decide +kernel

-- test_block_volume (the slice ends behind the last trade), test_zero_theta_guard
example : okAnd (compBarTradeSize qlog1p [1, 1, 50, 60] [some 10] [0, 4] 5) (fun r => nearOptList (1 / 10 ^ 6) (r.map (·.pctBlock)) [some (60/111)]) = true ∧
    okAnd (compBarTradeSize qlog1p [1, 1] [some 0] [0, 2] 5) (fun r => r.map (·.meanRel) == [none] && r.map (·.size95Rel) == [none]) = true := by
  decide +kernel

/-! ## `tests/bars/test_utils.py` -/

-- test_comp_price_tick_size in exact arithmetic and in float64 (the decade of a float is that of its exact value)
example : compTickSize [1, 1, 1, 1, 1, 11/10, 12/10, 13/10, 14/10] = .ok (1/10) ∧
    compTickSize [1 / 10 ^ 5, 1 / 10 ^ 5 + 1 / 10 ^ 10, 1 / 10 ^ 5 + 2 / 10 ^ 10, 1 / 10 ^ 5 + 3 / 10 ^ 10] = .ok (1 / 10 ^ 10) ∧
    compTickSize [1 + 1 / 10 ^ 11, 1 + 2 / 10 ^ 11, 1 + 3 / 10 ^ 11] = .ok (1 / 10 ^ 11) ∧
    compTickSize [1000, 10001/10, 10002/10, 10003/10, 10004/10] = .ok (1/10) ∧ compTickSize [5/10, 6/10, 7/10] = .ok (1/10) ∧
    compTickSize [10, 10, 10] = .ok 0 ∧ compTickSize [1000, 100001/100, 100002/100, 100003/100] = .ok (1/100) ∧
    fails (compTickSize []) = true ∧ compTickSize [1] = .ok 0 ∧ compTickSize [5, 5, 5] = .ok 0 ∧
    compTickSize [100, 201/2, 101, 203/2, 102] = .ok (1/2) ∧ compTickSizeOld [100, 201/2, 101, 203/2, 102] = .ok (1/2) := by decide +kernel

/-- The tick size in float64, up to a relative error of `10⁻⁹`. -/
def tick64 (prices : List ℚ) (t : ℚ) : Bool := okAnd (compTickSize64 (Int.log 10) (prices.map f64)) (fun r => near (t / 10 ^ 9) r t)

example : tick64 [1, 1, 1, 1, 1, 11/10, 12/10, 13/10, 14/10] (1/10) = true ∧
    tick64 [1 / 10 ^ 5, 1 / 10 ^ 5 + 1 / 10 ^ 10, 1 / 10 ^ 5 + 2 / 10 ^ 10, 1 / 10 ^ 5 + 3 / 10 ^ 10] (1 / 10 ^ 10) = true ∧
    tick64 [1 + 1 / 10 ^ 11, 1 + 2 / 10 ^ 11, 1 + 3 / 10 ^ 11] (1 / 10 ^ 11) = true ∧
    tick64 [1000, 10001/10, 10002/10, 10003/10, 10004/10] (1/10) = true ∧ tick64 [5/10, 6/10, 7/10] (1/10) = true ∧
    tick64 [10, 10, 10] 0 = true ∧ tick64 [1000, 100001/100, 100002/100, 100003/100] (1/100) = true := by decide +kernel

-- test_comp_trade_side_vector_basic, test_fast_sort_trades_and_merge_split_trades
example : tradeSideVector (1 / 10 ^ 12) [(100 : ℚ), 100, 101, 101, 201/2] = [0, 0, 1, 1, -1] ∧
    fastSortTrades [1, 2, 3, 0] [3, 1, 1, 2] [(100 : ℚ), 100, 100, 101] [1, 4/10, 6/10, 2] (some [true, true, true, false]) =
      ([1, 1, 2, 3], [100, 100, 101, 100], [4/10, 6/10, 2, 1], some [true, true, false, true]) ∧
    mergeSplitTrades (1 / 10 ^ 8) true [⟨1, (100 : ℚ), 4/10, true⟩, ⟨1, 100, 6/10, true⟩, ⟨2, 101, 2, false⟩, ⟨3, 100, 1, true⟩] =
      [⟨1, 100, 1, -1⟩, ⟨2, 101, 2, 1⟩, ⟨3, 100, 1, -1⟩] ∧
    (mergeSplitTrades (1 / 10 ^ 8) false [⟨1, (100 : ℚ), 4/10, true⟩, ⟨1, 100, 6/10, true⟩, ⟨2, 101, 2, false⟩, ⟨3, 100, 1, true⟩]).map
      (fun t => (t.ts, t.price, t.amount)) = [(1, 100, 1), (2, 101, 2), (3, 100, 1)] := by decide +kernel

-- test_footprint_to_dataframe_structure_and_sorting
example : okAnd (footprintTable (K := ℚ) ⟨[0, 1000000000], 1/2, [[1, 2], [1, 3]], [[10, 20], [5, 1]], [[4, 6], [2, 3]], [[1, 2], [3, 1]], [[2, 1], [1, 1]],
    [[false, true], [true, false]], [[true, false], [false, true]], none, none, none, none, none, none⟩)
    (fun r => r.map (fun x => (x.bar, x.time, x.price)) == [(0, 0, 1), (0, 0, 1/2), (1, 1000000000, 3/2), (1, 1000000000, 1/2)]) = true := by decide +kernel

end FinML.Conform
