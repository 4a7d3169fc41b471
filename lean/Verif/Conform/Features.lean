/-
The tests of the feature kernels in `/repo/tests/features` and `/repo/tests/structural_breaks`, replayed on the model.  Left out:
tests on random data, tests of array types, and the two rolling structural-break tests on 500 and 2000 prices (shorter series
are used here).
-/
import Verif.Conform.Basic
import Verif.Model.Indicators
import Verif.Model.Backends
import Verif.Model.CusumTest
import Verif.Model.VolumePro
import Verif.Model.FeatureAlgebra
import Verif.Model.TransformNames
import Verif.Model.Float64

namespace FinML.Conform

/-- Values without NaN. -/
def vals (l : List ℚ) : List (Option ℚ) := l.map some

/-- `np.arange(n)`. -/
def arange (n : Nat) : List ℚ := (List.range n).map (fun i : Nat => (i : ℚ))

/-- The positions from `a` on pass a check. -/
def fromOn {α : Type} (a : Nat) (p : α → Bool) (l : List α) : Bool := (l.drop a).all p

/-- A number with `lo ≤ x ≤ hi`. -/
def within (lo hi : ℚ) : Option ℚ → Bool
  | some x => decide (lo ≤ x) && decide (x ≤ hi)
  | none => false

/-! ## `test_adx_core.py` (the trend without noise) -/

-- test_adx_extreme_values, test_adx_basic
example : (adxCore (linspace 100 300 60) ((linspace 100 300 60).map (· - 10)) ((linspace 100 300 60).map (· - 5)) 14).any (fun x => decide (45 < x)) = true ∧
    (fun r : List ℚ => (r.take 27).all (· == 0) && fromOn 28 (fun x => decide (0 < x ∧ x ≤ 100)) r && r.length == 60)
      (adxCore (linspace 100 300 60) ((linspace 100 300 60).map (· - 10)) ((linspace 100 300 60).map (· - 5)) 14) = true := by decide +kernel

/-! ## `test_atr.py` -/

-- test_true_range_basic
example : trueRange (vals [10, 11, 12, 13]) (vals [8, 9, 10, 11]) (vals [9, 10, 11, 12]) = .ok (vals [2, 2, 2, 2]) := by decide +kernel

-- test_atr_sma_basic, test_atr_ema_basic, test_atr_normalize
example : atr (vals [10, 11, 12, 13, 14, 15]) (vals [8, 9, 10, 11, 12, 13]) (vals [9, 10, 11, 12, 13, 14]) 3 false false =
      .ok [none, none, some 2, some 2, some 2, some 2] ∧
    atr (vals [10, 11, 12, 13, 14, 15]) (vals [8, 9, 10, 11, 12, 13]) (vals [9, 10, 11, 12, 13, 14]) 3 true false =
      .ok [none, none, some 2, some 2, some 2, some 2] ∧
    atr (vals [10, 11, 12, 13, 14, 15]) (vals [8, 9, 10, 11, 12, 13]) (vals [9, 10, 11, 12, 13, 14]) 3 false true =
      .ok [none, none, some (2/11), some (2/12), some (2/13), some (2/14)] := by decide +kernel

-- test_atr_nan_handling: the true range of bar 3 is NaN (its previous close is missing), one valid value is left
example : okAnd (atr [some (10 : ℚ), some 11, none, some 13, some 14, some 15] [some 8, some 9, none, some 11, some 12, some 13]
      [some 9, some 10, none, some 12, some 13, some 14] 3 false false) (fun r =>
      r.take 3 == [none, none, none] &&
      okAnd (trueRange [some (10 : ℚ), some 11, none, some 13, some 14, some 15] [some 8, some 9, none, some 11, some 12, some 13]
        [some 9, some 10, none, some 12, some 13, some 14]) (fun t => r.getD 3 none == validMean ((t.drop 1).take 3))) = true := by decide +kernel

-- test_atr_transform: names
example : (fun F : FloatText => [Tx.atr 3 false false, .atr 3 true false, .atr 3 false true, .atr 3 true true, .corr 4, .vpin 4].map
    (Tx.outName F ["high".toList, "low".toList, "close".toList])) ⟨fun _ => [], fun _ => none⟩ =
    ["atr3".toList, "atr3_ema".toList, "atr3_norm".toList, "atr3_ema_norm".toList, "corr_pv_4".toList, "vpin_4".toList] := by decide +kernel

/-! ## `test_core_utils.py`, `test_compute_returns.py` -/

-- lagged_returns_log_and_zero_price, lagged_returns_no_valid_lag, zero_return_window
example : okAnd (laggedReturns qlog [0, 1000000000, 2000000000] [0, 2, 4] 1000000000 false) (fun r => r.take 2 == [.nan, .pinf]) = true ∧
    okAnd (laggedReturns qlog [0, 1000000000, 2000000000] [1, 2, 4] 1000000000 true) (fun r => r == [.nan, .fin (qlog 2), .fin (qlog 2)]) = true ∧
    okAnd (laggedReturns qlog [0, 1000000000, -1000000000] [1, 2, 3] 1000000000 false) (fun r => r.getD 2 .pinf == .nan) = true ∧
    fails (laggedReturns qlog (seconds 10) (arange 10) 0 false) = true := by decide +kernel

-- zscore_basic, burst_ratio_and_zero_median, pct_change_basic_and_nonpositive_base
example : nearOptList (1 / 10 ^ 8) (zscore qsqrt [1, 2, 3, 4, 5] 3 0) [none, none, some (122474487 / 10 ^ 8), some (122474487 / 10 ^ 8), some (122474487 / 10 ^ 8)] = true ∧
    burstRatio [(1 : ℚ), 2, 3, 4, 5] 3 = [none, none, some (3/2), some (4/3), some (5/4)] ∧
    (burstRatio [(0 : ℚ), 1, 0, 1, 2] 3).getD 2 (some 0) = none ∧
    pctChange [(0 : ℚ), 1, 2, 4] 1 = [none, none, some 1, some 1] ∧ (pctChange [(-1 : ℚ), -1/2, 0] 1).drop 1 = [none, none] := by decide +kernel

/-! ## `test_ewma.py`, `test_ewms.py`: against pandas -/

/-- pandas' `ewm(span, adjust=True).std(bias=False)` written out: weights `(1 - α)^(t - i)` on the valid values. -/
def pandasEwmStd (y : List (Option ℚ)) (span : Nat) (t : Nat) : Option ℚ :=
  let q : ℚ := 1 - 2 / ((span : ℚ) + 1)
  let wx : List (ℚ × ℚ) := (List.range (t + 1)).filterMap (fun i => (y.getD i none).map (fun x => (q ^ (t - i), x)))
  let w := (wx.map (·.1)).sum
  let m := (wx.map (fun p => p.1 * p.2)).sum / w
  let v := (wx.map (fun p => p.1 * (p.2 - m) ^ 2)).sum / w
  let c := w ^ 2 - (wx.map (fun p => p.1 ^ 2)).sum
  if wx.length < 2 ∨ c = 0 then none else some (qsqrt (v * (w ^ 2 / c)))

-- ewma_with_known_values, ewma_window_size_one
example : okAnd (ewma [(1 : ℚ), 2, 3, 4, 5] 2) (fun r => okAnd (ewmaPd (vals [1, 2, 3, 4, 5]) 2) (fun p => vals r == p)) = true ∧
    okAnd (ewma [(3 : ℚ), 1, 4, 1, 5] 1) (fun r => r == [3, 1, 4, 1, 5]) = true := by decide +kernel

-- ewm_std_with_known_values, …_and_nans, empty_array, window_size_one
example : nearOptList (1 / 10 ^ 8) (ewms qsqrt (vals [1, 2, 3, 4, 5]) 2) ((List.range 5).map (pandasEwmStd (vals [1, 2, 3, 4, 5]) 2)) = true ∧
    nearOptList (1 / 10 ^ 8) (ewms qsqrt [some 1, some 2, some 3, none, none, some 4, some 5] 2)
      ((List.range 7).map (pandasEwmStd [some 1, some 2, some 3, none, none, some 4, some 5] 2)) = true ∧
    ewms qsqrt [] 10 = [] ∧ ewms qsqrt (vals [3, 1, 4, 1, 5]) 1 = [none, none, none, none, none] := by decide +kernel

/-! ## `test_realized_volatility.py` -/

/-- The returns of the tests. -/
def rvData : List (Option ℚ) :=
  [some (1/100), some (2/100), some (-1/100), some (3/100), none, some (1/100), some (-2/100), some (2/100), some (-3/100), some (1/100),
   some (2/100), some (1/100), some (-1/100), some (2/100), none, some (1/100), some (-1/100), some (3/100), some (-2/100), some (1/100)]

-- implementations_match, sample_vs_population, window_size, handles_nan
example : nearOptList (1 / 10 ^ 15) (realizedVolPd qsqrt rvData 5 true) (realizedVol qsqrt rvData 5 true) = true ∧
    (List.zipWith (fun a b : Option ℚ => match a, b with | some x, some y => decide (x < y) | _, _ => true) (realizedVolPd qsqrt rvData 5 false)
      (realizedVolPd qsqrt rvData 5 true)).all id = true ∧
    (realizedVolPd qsqrt rvData 5 true).take 4 = [none, none, none, none] ∧ ((realizedVolPd qsqrt rvData 5 true).getD 4 none).isSome = true ∧
    ((realizedVolPd qsqrt rvData 10 true).take 9).all (· == none) = true ∧
    (realizedVolPd qsqrt (rvData.take 5 ++ List.replicate 5 none ++ rvData.drop 10) 5 true).getD 9 (some 0) = none := by decide +kernel

/-! ## `test_time_cues.py` -/

/-- Nanoseconds of `2020-01-06 00:00` UTC, a Monday. -/
def monday : Int := 1578268800000000000

/-- Hour `h` and minute `m` of that day. -/
def atTime (h m : Nat) : Int := monday + ((h : Int) * 60 + (m : Int)) * 60000000000

-- day_of_week, specific_days, unix_epoch_day, time_of_day, session_flags
example : (List.range 7).map (fun d : Nat => (timeCue (monday + (d : Int) * 86400000000000)).dayWeek) = [0, 1, 2, 3, 4, 5, 6] ∧
    (timeCue 0).dayWeek = 3 ∧ (List.range 24).map (fun h => (timeCue (atTime h 0)).secInDay) = (List.range 24).map (fun h : Nat => 3600 * (h : Int)) ∧
    (List.range 24).map (fun h => (timeCue (atTime h 0)).asia) = (List.range 24).map (fun h => decide (h < 8)) ∧
    (List.range 24).map (fun h => (timeCue (atTime h 0)).eu) = (List.range 24).map (fun h => decide (7 ≤ h ∧ h < 15)) ∧
    (List.range 24).map (fun h => (timeCue (atTime h 0)).us) = (List.range 24).map (fun h => decide (13 ≤ h ∧ h < 21)) := by decide +kernel

-- transition_flags
example : (List.range 24).map (fun h => (timeCue (atTime h 0)).trans) = (List.range 24).map (fun h => decide (h = 0 ∨ h = 7 ∨ h = 13)) ∧
    (List.range 24).all (fun h => (timeCue (atTime h 0)).topHour) = true ∧
    [0, 7, 13].map (fun h => ((timeCue (atTime h 1)).trans, (timeCue (atTime h 1)).topHour)) = [(false, false), (false, false), (false, false)] := by
  decide +kernel

/-! ## `test_price_volume_correlation.py` -/

/-- `rolling_price_volume_correlation`. -/
def pvc (p v : List (Option ℚ)) (w : Nat) : List (Option ℚ) := priceVolumeCorrelation qsqrt p v w

-- basic, perfect, inverse, nan_handling, small_window, zero_price
example : (fun r : List (Option ℚ) => r.take 2 == [none, none] && fromOn 3 (within (-1) 1) r)
      (pvc (vals [10, 11, 12, 23/2, 11, 21/2, 11, 12, 13, 25/2]) (vals [100, 110, 120, 115, 105, 95, 105, 110, 120, 115]) 3) = true ∧
    fromOn 4 (nearOpt (1/1000) (some 1)) (pvc (vals [10, 11, 12, 13, 14, 15, 16, 17, 18, 19]) (vals [100, 110, 120, 130, 140, 150, 160, 170, 180, 190]) 4) = true ∧
    fromOn 4 (nearOpt (1/1000) (some (-1))) (pvc (vals [10, 11, 12, 13, 14, 15, 16, 17, 18, 19]) (vals [190, 180, 170, 160, 150, 140, 130, 120, 110, 100]) 4) = true ∧
    (fun r : List (Option ℚ) => (r.take 4).all (· == none) && [4, 7, 9].all (fun i => r.getD i (some 0) == none))
      (pvc [some 10, some 11, none, some 13, some 14, some 15, some 16, none, some 18, some 19]
        [some 100, some 110, some 120, some 130, none, some 150, some 160, some 170, some 180, none] 4) = true ∧
    (fun r : List (Option ℚ) => r.getD 0 (some 0) == none && (r.getD 2 none).isSome) (pvc (vals [10, 11, 12, 13, 14]) (vals [100, 110, 120, 130, 140]) 2) = true ∧
    (pvc (vals [10, 0, 12, 13, 14, 15, 16, 0, 18, 19]) (vals [100, 110, 120, 130, 140, 150, 160, 170, 180, 190]) 4).getD 2 (some 0) = none := by
  decide +kernel

-- test_transform_pandas_impl
example : nearOptList (1 / 10 ^ 6) (corrPd qsqrt [10, 11, 12, 13, 14, 15, 16, 17, 18, 19] [100, 110, 120, 130, 140, 150, 160, 170, 180, 190] 4)
    (pvc (vals [10, 11, 12, 13, 14, 15, 16, 17, 18, 19]) (vals [100, 110, 120, 130, 140, 150, 160, 170, 180, 190]) 4) = true := by decide +kernel

/-! ## `test_variance_ratio.py` -/

-- test_rolling_variance_nb
example : rollingVariance (vals [1, 2, 3, 4, 5, 6, 7, 8, 9, 10]) 3 1 1 = [none, none] ++ List.replicate 8 (some 1) ∧
    (fun r : List (Option ℚ) => r.take 2 == [none, none] && (r.getD 6 none).isSome)
      (rollingVariance [some 1, none, some 3, some 4, none, some 6, some 7, some 8, none, some 10] 3 1 1) = true ∧
    (rollingVariance (vals [1, 2, 3, 4, 5, 6, 7, 8, 9, 10]) 3 0 1).drop 2 = List.replicate 8 (some (2/3)) ∧
    (fun r : List (Option ℚ) => (r.getD 5 none).isSome && (r.getD 8 none).isSome)
      (rollingVariance [some 1, none, some 3, some 4, none, some 6, some 7, some 8, none, some 10] 3 1 2) = true := by decide +kernel

/-! ## `test_vpin.py` -/

/-- `vpin` with its threshold. -/
def vp (b s : List (Option ℚ)) (w : Nat) : List (Option ℚ) := vpin (1 / 10 ^ 9) b s w

-- basic, perfect_balance, perfect_imbalance, nan_handling, zero_volume, small_window
example : (fun r : List (Option ℚ) => r.take 3 == [none, none, none] && fromOn 4 (within 0 1) r)
      (vp (vals [100, 150, 200, 250, 300, 350, 400, 450, 500, 550]) (vals [200, 150, 100, 50, 0, 550, 500, 450, 400, 350]) 4) = true ∧
    fromOn 4 (· == some 0) (vp (List.replicate 10 (some 100)) (List.replicate 10 (some 100)) 4) = true ∧
    fromOn 4 (· == some 1) (vp (List.replicate 10 (some 100)) (List.replicate 10 (some 0)) 4) = true ∧
    ((vp [some 100, none, some 100, some 100, some 100, some 100, some 100, none, some 100, some 100]
      [some 100, some 100, none, some 100, some 100, some 100, none, some 100, some 100, some 100] 4).take 4).all (· == none) = true ∧
    ((vp (vals [100, 0, 100, 100, 100, 0, 0, 100, 100, 100]) (vals [100, 0, 100, 100, 100, 0, 0, 100, 100, 100]) 4).getD 4 none).isSome = true ∧
    (fun r : List (Option ℚ) => r.getD 0 (some 0) == none && (r.getD 2 none).isSome) (vp (vals [100, 150, 200, 250, 300]) (vals [200, 150, 100, 50, 0]) 2) = true := by
  decide +kernel

-- test_transform_pandas_impl, test_vpin_window32
example : vpinPd (vals [100, 150, 200, 250, 300, 350, 400, 450, 500, 550]) (vals [200, 150, 100, 50, 0, 550, 500, 450, 400, 350]) 4 =
      vp (vals [100, 150, 200, 250, 300, 350, 400, 450, 500, 550]) (vals [200, 150, 100, 50, 0, 550, 500, 450, 400, 350]) 4 ∧
    (fun r : List (Option ℚ) => (r.take 31).all (· == none) && fromOn 32 (within 0 1) r)
      (vp ((arange 40).map (fun i => some (100 + 10 * i))) ((arange 40).map (fun i => some (200 + 5 * i))) 32) = true := by decide +kernel

-- test_real_world_scenario
example : (fun r : List (Option ℚ) => within (1/2) 1 (r.getD 52 none) && within (1/2) 1 (r.getD 80 none))
    (vp (vals (List.replicate 20 100 ++ List.replicate 20 200 ++ List.replicate 20 50 ++ (List.range 20).map (fun i => if i % 2 = 0 then 300 else 50) ++
        (List.range 20).map (fun i : Nat => 100 + (i : ℚ) / 20 * 200)))
      (vals (List.replicate 20 100 ++ List.replicate 20 50 ++ List.replicate 20 200 ++ (List.range 20).map (fun i => if i % 2 = 0 then 50 else 300) ++
        List.replicate 20 100)) 32) = true := by decide +kernel

/-! ## `test_volume_profile_rolling.py` -/

-- TestVolumePercentageAbovePOC
example : pctAbovePoc [100, 101, 102, 103, 104] [(10 : ℚ), 5, 20, 5, 10] 102 = 3/10 ∧ pctAbovePoc [100, 101, 102, 103, 104] [(10 : ℚ), 5, 0, 0, 0] 101 = 0 ∧
    pctAbovePoc [100, 101, 102, 103, 104] [(0 : ℚ), 0, 5, 10, 15] 100 = 1 ∧ pctAbovePoc [100, 101, 102] [(0 : ℚ), 0, 0] 101 = 0 := by decide +kernel

/-- The ten bars of `TestVolumeProfileRolling`, a minute apart. -/
def profileBars : List (FpBar ℚ) := (List.range 10).map (fun i : Nat =>
  ⟨1735689600000000000 + (i : Int) * 60000000000, 105 + (i : ℚ), 100 + (i : ℚ),
   [100 + (i : Int), 101 + (i : Int), 102 + (i : Int), 104 + (i : Int), 105 + (i : Int)], [1, 2, 5, 2, 1], [2, 1, 3, 4, 2]⟩)

-- returns_vp_pct_abv_poc, values
example : (fun r : List (Except String (VpOut ℚ)) => r.length == 10 && okAnd (r.getD 0 (.error "")) (fun o => o.above == 0) &&
      r.all (fun e => okAnd e (fun o => decide (0 ≤ o.above ∧ o.above ≤ 1)))) (volumeProfileRolling rint profileBars 300000000000 none (6834/100)) = true ∧
    (fun r : List (Except String (VpOut ℚ)) => okAnd (r.getD 0 (.error "")) (fun o => o.above == 0) &&
      fromOn 1 (fun e => okAnd e (fun o => decide (0 < o.above ∧ o.above < 1))) r) (volumeProfileRolling rint profileBars 60000000000 none (6834/100)) = true := by
  decide +kernel

/-- The footprints and bars of `TestVolumePro`. -/
def proData : FpData ℚ :=
  ⟨(List.range 10).map (fun i : Nat => 1735689600000000000 + (i : Int) * 60000000000), 1,
   (List.range 10).map (fun i : Nat => (List.range 5).map (fun j : Nat => 100 + (i : Int) + (j : Int))), List.replicate 10 [1, 2, 5, 2, 1],
   List.replicate 10 [2, 1, 3, 4, 2], List.replicate 10 [1, 2, 5, 2, 1], List.replicate 10 [2, 1, 3, 4, 2], List.replicate 10 (List.replicate 5 true),
   List.replicate 10 (List.replicate 5 true), none, none, none, none, none, none⟩

def proBars : List (Int × ℚ × ℚ) := (List.range 10).map (fun i : Nat => (1735689600000000000 + (i : Int) * 60000000000, 105 + (i : ℚ), 100 + (i : ℚ)))

-- volumepro_compute, volumepro_compute_range
example : okAnd (vpCompute (fun t p => rint (p / t)) ⟨300000000000, 27, 6834/100⟩ proBars proData) (fun r => r.length == 10 &&
      r.all (fun e => okAnd e (fun o => decide (0 ≤ o.above ∧ o.above ≤ 1)))) = true ∧
    okAnd (vpComputeRange (fun t p => rint (p / t)) ⟨120000000000, 27, 6834/100⟩ proBars proData (.stamp (1735689600000000000 + 120000000000))
      (.stamp (1735689600000000000 + 300000000000))) (fun r => decide (0 < r.1.length) && r.1.length == r.2.length &&
      r.2.all (fun e => okAnd e (fun o => decide (0 ≤ o.above ∧ o.above ≤ 1)))) = true := by decide +kernel

/-! ## `test_feature_apply.py`, `test_min_max_ops.py`, `test_base_and_kit.py` -/

/-- The functions used by features; the custom functions are those of the tests. -/
def testFns : Fns ℚ :=
  ⟨qlog, fun x => qlog (1 + x), qexp, qsqrt, fun i c => match i with
    | 0 => c.map (fun v => v.scale 2)
    | 1 => c.map (fun v => v.scale 3)
    | 2 => c.map (fun v => v.scale 4)
    | _ => c.map (fun v => v.scale (1/10))⟩

/-- Printed constants of the tests. -/
def testText : FloatText := ⟨fun q => intText q.num, fun _ => none⟩

/-- `Feature(Identity(name))` (`transforms.py:18-42`: the output name is the input name). -/
def idf (n : String) : FX ℚ := .atom ⟨false, [n], n, fun l => .ok (l.headD [])⟩

def closeCol : List ℚ := [100, 110, 105, 120, 115, 125, 130, 120, 110, 115]
def volumeCol : List ℚ := [1000, 1200, 900, 1500, 1100, 1300, 1400, 1000, 800, 1200]

/-- `simple_df`. -/
def simpleDf : ColFrame (SCol ℚ) := fun n =>
  if n = "close" then some (closeCol.map Ext.fin) else if n = "volume" then some (volumeCol.map Ext.fin) else none

/-- The value of a feature on a frame. -/
def runF (d : ColFrame (SCol ℚ)) (f : FX ℚ) : Except String (SCol ℚ) := (f.toTr testText testFns).eval d

def fins (l : List ℚ) : SCol ℚ := l.map Ext.fin

def nearCol (tol : ℚ) (a b : SCol ℚ) : Bool := nearOptList tol (a.map Ext.toOption) (b.map Ext.toOption)

-- apply_basic, apply_with_args, apply_with_kwargs, custom_suffix
example : okAnd (runF simpleDf (.app (.custom "double".toList 0) (idf "close"))) (fun r => r == fins (closeCol.map (2 * ·))) = true ∧
    (FX.app (.custom "double".toList 0) (idf "close")).name testText = "close_double".toList ∧
    okAnd (runF simpleDf (.app (.custom "lambda".toList 1) (idf "close"))) (fun r => r == fins (closeCol.map (3 * ·))) = true ∧
    okAnd (runF simpleDf (.app (.custom "lambda".toList 2) (idf "close"))) (fun r => r == fins (closeCol.map (4 * ·))) = true ∧
    (FX.app (.custom "doubled".toList 0) (idf "close")).name testText = "close_doubled".toList := by decide +kernel

-- clip, abs, log, square, sqrt
example : okAnd (runF simpleDf (.app (.clip (some 110) none) (idf "close"))) (fun r => r == fins [110, 110, 110, 120, 115, 125, 130, 120, 110, 115]) = true ∧
    okAnd (runF simpleDf (.app (.clip none (some 115)) (idf "close"))) (fun r => r == fins [100, 110, 105, 115, 115, 115, 115, 115, 110, 115]) = true ∧
    okAnd (runF simpleDf (.app (.clip (some 105) (some 120)) (idf "close"))) (fun r => r == fins [105, 110, 105, 120, 115, 120, 120, 120, 110, 115]) = true ∧
    okAnd (runF (fun n => if n = "close" then some (fins (closeCol.map (· - 115))) else none) (.absf (idf "close")))
      (fun r => r == fins [15, 5, 10, 5, 0, 10, 15, 5, 5, 0]) = true ∧
    okAnd (runF simpleDf (.app .log (idf "close"))) (fun r => r == fins (closeCol.map qlog)) = true ∧
    okAnd (runF simpleDf (.app .square (idf "close"))) (fun r => r == fins (closeCol.map (· ^ 2))) = true ∧
    okAnd (runF simpleDf (.app .sqrt (idf "close"))) (fun r => r == fins (closeCol.map qsqrt)) = true := by decide +kernel

-- rolling_mean, rolling_std, chained_operations, complex_example
example : okAnd (runF simpleDf (.app (.rmean 3) (idf "close"))) (fun r => r.drop 2 == fins [105, 335/3, 340/3, 120, 370/3, 125, 120, 115]) = true ∧
    okAnd (runF simpleDf (.app (.rstd 3) (idf "close"))) (fun r => nearCol (1 / 10 ^ 6) (r.drop 2)
      (fins [5, 7637626 / 10 ^ 6, 7637626 / 10 ^ 6, 5, 7637626 / 10 ^ 6, 5, 10, 5])) = true ∧
    okAnd (runF simpleDf (.app (.rmean 2) (.app (.clip (some 5) none) (.absf (.cst .sub 100 (idf "close")))))) (fun r =>
      r.drop 1 == fins [15/2, 15/2, 25/2, 35/2, 20, 55/2, 25, 15, 25/2]) = true ∧
    okAnd (runF simpleDf (.app (.clip (some 0) none) (.bin .sub (idf "close") (.app (.custom "lambda".toList 3) (idf "volume"))))) (fun r =>
      r == fins [0, 0, 15, 0, 5, 0, 0, 20, 30, 0]) = true := by decide +kernel

/-- `sample_df` with the added column `a_plus1`: `arange(5)` and `arange(5) + 1`. -/
def plusOne : FX ℚ := .atom ⟨true, ["a"], "plus1", fun l => .ok ((l.headD []).map (Ext.add (.fin 1)))⟩

def sampleDf : ColFrame (SCol ℚ) := fun n => if n = "a" then some (fins (arange 5)) else none

-- feature_math_and_cache: operators
example : okAnd (runF sampleDf plusOne) (fun r => r == fins [1, 2, 3, 4, 5]) = true ∧
    ((pyAdd (.feat plusOne) (.num 1)).map (fun f => okAnd (runF sampleDf f) (fun r => r == fins [2, 3, 4, 5, 6]))) = some true ∧
    ((pyAdd (.num 2) (.feat plusOne)).map (fun f => okAnd (runF sampleDf f) (fun r => r == fins [3, 4, 5, 6, 7]))) = some true ∧
    ((pyMul (.feat plusOne) (.num 2)).map (fun f => okAnd (runF sampleDf f) (fun r => r == fins [2, 4, 6, 8, 10]))) = some true ∧
    ((pyDiv (.num 2) (.feat plusOne)).map (fun f => okAnd (runF sampleDf f) (fun r => r == fins [2, 1, 2/3, 1/2, 2/5]))) = some true ∧
    ((featMin (.feat plusOne) (.feat (.cst .mul 2 plusOne))).map (fun f => okAnd (runF sampleDf f) (fun r => r == fins [1, 2, 3, 4, 5]))) = some true ∧
    ((featMax (.feat plusOne) (.feat (.cst .mul 2 plusOne))).map (fun f => okAnd (runF sampleDf f) (fun r => r == fins [2, 4, 6, 8, 10]))) = some true ∧
    okAnd (runF sampleDf (.app (.lag 1) plusOne)) (fun r => r == .nan :: fins [1, 2, 3, 4]) = true ∧
    okAnd (runF sampleDf (.app (.clip (some 1) (some 3)) plusOne)) (fun r => r == fins [1, 2, 3, 3, 3]) = true := by decide +kernel

-- compose_and_featurekit: the name of the pipeline and its value
example : (Tr.comp (C := SCol ℚ) ⟨true, ["a"], "plus1", fun l => .ok ((l.headD []).map (Ext.add (.fin 1)))⟩
      [⟨true, ["a_plus1"], "plus1", fun l => .ok ((l.headD []).map (Ext.add (.fin 1)))⟩]).output = "a_plus1_plus1" ∧
    okAnd ((Tr.comp (C := SCol ℚ) ⟨true, ["a"], "plus1", fun l => .ok ((l.headD []).map (Ext.add (.fin 1)))⟩
      [⟨true, ["a_plus1"], "plus1", fun l => .ok ((l.headD []).map (Ext.add (.fin 1)))⟩]).eval sampleDf) (fun r => r == fins [2, 3, 4, 5, 6]) = true := by
  decide +kernel

/-- `generate_test_df` with rational values in place of the sine waves. -/
def ohlcDf : ColFrame (SCol ℚ) := fun n =>
  if n = "open" then some (fins [5, 6, 4, 5]) else if n = "high" then some (fins [6, 7, 5, 6])
  else if n = "low" then some (fins [4, 5, 3, 4]) else if n = "close" then some (fins [51/10, 58/10, 45/10, 41/10]) else none

-- the seven min/max tests
example : ((featMin (.feat (idf "open")) (.feat (idf "close"))).map (fun f => okAnd (runF ohlcDf f) (fun r => r == fins [5, 58/10, 4, 41/10]))) = some true ∧
    ((featMax (.feat (idf "open")) (.feat (idf "close"))).map (fun f => okAnd (runF ohlcDf f) (fun r => r == fins [51/10, 6, 45/10, 5]))) = some true ∧
    ((featMin (.feat (idf "high")) (.num 5)).map (fun f => okAnd (runF ohlcDf f) (fun r => r == fins [5, 5, 5, 5]))) = some true ∧
    ((featMax (.feat (idf "low")) (.num 5)).map (fun f => okAnd (runF ohlcDf f) (fun r => r == fins [5, 5, 5, 5]))) = some true ∧
    ((featMin (.num 5) (.feat (idf "high"))).map (fun f => okAnd (runF ohlcDf f) (fun r => r == fins [5, 5, 5, 5]))) = some true ∧
    okAnd (runF ohlcDf (.bin .div (.bin .sub (idf "high") (.bin .max (idf "open") (idf "close")))
      (.cst .add (1 / 10 ^ 12) (.bin .sub (idf "high") (idf "low"))))) (fun r => nearCol (1 / 10 ^ 6) r (fins [45/100, 1/2, 1/4, 1/2])) = true ∧
    okAnd (runF ohlcDf (.bin .min (.bin .max (idf "open") (idf "close")) (idf "high"))) (fun r => r == fins [51/10, 6, 45/10, 5]) = true := by decide +kernel

/-! ## `tests/structural_breaks/test_cusum.py` -/

/-- `100 * exp(c * arange(n))`. -/
def growth (c : ℚ) (n : Nat) : List ℚ := (arange n).map (fun i => 100 * qexp (c * i))

-- developing_basic, last, rolling (window 12, warm-up 5), rolling_large_window
example : okAnd (cusumDeveloping qlog qsqrt (growth (1/1000) 20) 10) (fun r => r.length == 20 && (r.take 10).all (fun o => o.isNone) &&
      fromOn 10 (fun o => o.isSome) r) = true ∧
    okAnd (cusumRolling qlog qsqrt (growth (1/2000) 20) 12 5) (fun r => r.length == 20 && (r.take 5).all (fun o => o.isNone) &&
      fromOn 5 (fun o => o.isSome) r) = true ∧
    okAnd (cusumRolling qlog qsqrt (growth (1/1000) 15) 100 5) (fun r => r.length == 15 && r.any (fun o => o.isSome)) = true := by decide +kernel

end FinML.Conform
