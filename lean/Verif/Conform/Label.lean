/-
The tests in `/repo/tests/labels` and `/repo/tests/sampling`, replayed on the model.  Left out: tests on random data and tests of array
types.
-/
import Verif.Conform.Basic
import Verif.Model.Label
import Verif.Model.CusumFilter
import Verif.Model.TbmObject

namespace FinML.Conform

/-! ## `tests/labels/test_triple_barrier.py` -/

/-- `triple_barrier(ts, close, events, targets, (b, t), vertical, min_close, side, min_ret)` with durations in seconds. -/
def tb (ts : List Int) (close : List ℚ) (events : List Nat) (targets : List ℚ) (b t : ℚ) (vertical minClose : ℚ)
    (side : Option (List Int)) (minRet : ℚ) : Except String (List (TbmOut ℚ)) :=
  tripleBarrier qlog ⟨.fin b, .fin t, some (Rat.floor (vertical * 1000000000)), Rat.floor (minClose * 1000000000), minRet⟩ ts close events
    targets side

-- test_triple_barrier_input_validation
example : failsWith (tb (seconds 10) (linspace 100 110 10) [1, 3, 5] [1/100, 2/100, 3/100] 1 1 0 0 none 0)
      "The vertical barrier must be greater than zero." = true ∧
    failsWith (tb (seconds 10) (linspace 100 110 10) [1, 3, 5] [1/100, 2/100, 3/100] 1 1 (-1) 0 none 0)
      "The vertical barrier must be greater than zero." = true ∧
    failsWith (tb (seconds 10) (linspace 100 110 10) [1, 3, 5] [1/100, 2/100, 3/100] 1 1 1 0 none (-1/10))
      "The minimum return must be non-negative." = true ∧
    failsWith (tb (seconds 9) (linspace 100 110 10) [1, 3, 5] [1/100, 2/100, 3/100] 1 1 1 0 none 0)
      "The lengths of timestamps and close must match." = true ∧
    failsWith (tb (seconds 10) (linspace 100 110 10) [1, 3, 5] [1/100, 2/100] 1 1 1 0 none 0)
      "The lengths of event_idxs and targets must match." = true ∧
    failsWith (tb (seconds 10) (linspace 100 110 10) [] [] 1 1 1 0 none 0) "The event_idxs array must not be empty." = true ∧
    failsWith (tb (seconds 10) (linspace 100 110 10) [1, 3, 5] [1/100, 2/100, 3/100] 1 1 1 0 (some [1, -1]) 0)
      "The length of event_idxs must match the length of side." = true := by decide +kernel

-- test_triple_barrier_boundary_indices
example : okAnd (tb (seconds 5) [100, 101, 102, 103, 104] [0] [2/100] 1 1 5 0 none 0)
      (fun r => r.length == 1 && r.all (fun x => decide (0 ≤ x.touch.getD 0))) = true ∧
    okAnd (tb (seconds 5) [100, 101, 102, 103, 104] [3] [2/100] 1 1 5 0 none 0)
      (fun r => r.length == 1 && r.all (fun x => decide (3 ≤ x.touch.getD 0))) = true := by decide +kernel

-- test_triple_barrier_basic_functionality
example : okAnd (tb (seconds 10) [100, 105, 110, 115, 120, 125, 130, 125, 120, 115] [0, 2, 4] [5/100, 3/100, 2/100] 1 1 5 0 none 0)
    (fun r => r.length == 3 && r.all (fun x => x.label == 1 || x.label == -1) &&
      (List.zipWith (fun (x : TbmOut ℚ) (e : Nat) => decide (e ≤ x.touch.getD 0 ∧ x.touch.getD 0 < 10)) r [0, 2, 4]).all id) = true := by
  decide +kernel

-- test_triple_barrier_meta_labeling
example : okAnd (tb (seconds 10) [100, 102, 101, 103, 99, 105, 98, 106, 97, 107] [0, 2, 4] [2/100, 3/100, 1/100] 1 1 5 0 (some [1, -1, 1]) (15/1000))
    (fun r => r.all (fun x => (x.label == 0 || x.label == 1) &&
      (match x.ret with | none => true | some y => x.label == (if y ≥ 15/1000 then 1 else 0)))) = true := by decide +kernel

-- test_triple_barrier_symmetric_barriers
example : okAnd (tb (seconds 20) (linspace 100 120 20) [0, 5, 10] [1/10, 1/10, 1/10] 1 1 15 0 none 0)
    (fun r => decide ((r.filter (fun x => x.label == -1)).length ≤ (r.filter (fun x => x.label == 1)).length)) = true := by decide +kernel

-- test_triple_barrier_asymmetric_barriers
example : okAnd (tb (seconds 10) [100, 102, 104, 106, 108, 110, 112, 114, 116, 118] [0, 3] [5/100, 3/100] (1/2) 2 8 0 none 0)
    (fun r => r.length == 2 && r.all (fun x => decide (-1 ≤ x.label ∧ x.label ≤ 1))) = true := by decide +kernel

-- test_triple_barrier_upper_barrier_hit, test_triple_barrier_lower_barrier_hit
example : okAnd (tb (seconds 5) [100, 110, 120, 130, 140] [0] [5/100] 1 1 10 0 none 0)
      (fun r => r.all (fun x => x.label == 1 && x.ratio == some 1 && decide (x.touch.getD 9 < 4))) = true ∧
    okAnd (tb (seconds 5) [100, 90, 80, 70, 60] [0] [5/100] 1 1 10 0 none 0)
      (fun r => r.all (fun x => x.label == -1 && x.ratio == some 1 && decide (x.touch.getD 9 < 4))) = true := by decide +kernel

-- test_triple_barrier_vertical_barrier_timeout
example : okAnd (tb (seconds 10) [100, 1005/10, 101, 1005/10, 100, 1002/10, 998/10, 1001/10, 999/10, 1003/10] [0] [1/10] 1 1 5 0 none 0)
    (fun r => r.all (fun x => x.touch == some 5 && (match x.ratio with | none => true | some y => decide (y < 1)))) = true := by decide +kernel

-- test_triple_barrier_infinite_barriers
example : okAnd (tripleBarrier qlog ⟨.pinf, .pinf, some 5000000000, 0, 0⟩ (seconds 10) [100, 150, 200, 250, 300, 350, 400, 450, 500, 550] [0]
    [1/10] none) (fun r => r.all (fun x => x.touch == some 5 && x.ratio.isNone)) = true := by decide +kernel

-- test_triple_barrier_zero_targets
example : okAnd (tb (seconds 5) [100, 105, 110, 115, 120] [0] [0] 1 1 3 0 none 0)
    (fun r => r.all (fun x => x.label == 1 && x.touch == some 1 && x.ratio == some 1)) = true := by decide +kernel

-- test_triple_barrier_min_close_time
example : okAnd (tb [0, 500000000, 1000000000, 2000000000, 3000000000] [100, 150, 200, 250, 300] [0] [1/100] 1 1 5 (3/2) none 0)
      (fun r => r.all (fun x => decide (1500000000 ≤ ([0, 500000000, 1000000000, 2000000000, 3000000000] : List Int).getD (x.touch.getD 0) 0))) = true ∧
    okAnd (tb [0, 500000000, 1000000000, 2000000000, 3000000000] [100, 150, 200, 250, 300] [0] [1/100] 1 1 5 (3/2) none 0) (fun r =>
      okAnd (tb [0, 500000000, 1000000000, 2000000000, 3000000000] [100, 150, 200, 250, 300] [0] [1/100] 1 1 5 0 none 0) (fun s =>
        (List.zipWith (fun (x y : TbmOut ℚ) => decide (y.touch.getD 9 ≤ x.touch.getD 0)) r s).all id)) = true := by decide +kernel

-- test_triple_barrier_min_close_time_longer_than_vertical
example : okAnd (tb (seconds 5) [100, 110, 120, 130, 140] [0] [5/100] 1 1 2 5 none 0) (fun r => r.all (fun x => x.touch == some 2)) = true := by
  decide +kernel

-- test_triple_barrier_side_effects
example : okAnd (tb (seconds 10) [100, 105, 110, 115, 120, 125, 130, 135, 140, 145] [0, 2] [5/100, 5/100] 1 1 5 0 (some [1, 1]) (2/100))
      (fun r => r.all (fun x => decide (0 ≤ x.ret.getD (-1)) && (x.label == 0 || x.label == 1))) = true ∧
    okAnd (tb (seconds 10) [100, 105, 110, 115, 120, 125, 130, 135, 140, 145] [0, 2] [5/100, 5/100] 1 1 5 0 (some [-1, -1]) (2/100))
      (fun r => r.all (fun x => decide (x.ret.getD 1 ≤ 0) && (x.label == 0 || x.label == 1))) = true := by decide +kernel

-- test_triple_barrier_return_calculation
example : okAnd (tb (seconds 3) [100, 110, 120] [0] [2/10] 1 1 3 0 none 0)
    (fun r => r.all (fun x => near (1 / 10 ^ 10) (x.ret.getD 9) (qlog (([100, 110, 120] : List ℚ).getD (x.touch.getD 9) 0) - qlog 100))) = true := by
  decide +kernel

-- test_triple_barrier_max_rb_ratio_calculation
example : okAnd (tb (seconds 5) [100, 102, 104, 101, 103] [0] [1/10] 1 1 6 0 none 0)
    (fun r => r.all (fun x => decide (0 ≤ x.ratio.getD (-1) ∧ x.ratio.getD (-1) ≤ 1))) = true := by decide +kernel

-- test_triple_barrier_log_return_consistency
example : okAnd (tb (seconds 6) [100, 105, 110, 115, 120, 125] [0, 1] [3/10, 3/10] 1 1 4 0 (some [1, -1]) 0) (fun r =>
    (List.zipWith (fun (x : TbmOut ℚ) (e : ℚ × ℚ) =>
      near (1 / 10 ^ 10) (x.ret.getD 9) ((qlog (([100, 105, 110, 115, 120, 125] : List ℚ).getD (x.touch.getD 9) 0) - qlog e.1) * e.2))
      r [(100, 1), (105, -1)]).all id && r.length == 2) = true := by decide +kernel

-- test_triple_barrier_single_event, test_triple_barrier_event_at_end
example : okAnd (tb (seconds 5) (linspace 100 105 5) [1] [2/100] 1 1 3 0 none 0) (fun r => r.length == 1) = true ∧
    okAnd (tb (seconds 5) [100, 101, 102, 103, 104] [3] [5/100] 1 1 5 0 none 0)
      (fun r => r.length == 1 && r.all (fun x => decide (3 ≤ x.touch.getD 0 ∧ x.touch.getD 9 < 5))) = true := by decide +kernel

-- test_triple_barrier_very_small_targets
example : okAnd (tb (seconds 10) [100, 100001/1000, 100002/1000, 100001/1000, 100003/1000, 100002/1000, 100001/1000, 100004/1000, 100001/1000,
    100002/1000] [0, 2] [1/100000, 1/100000] 1 1 8 0 none 0) (fun r => r.length == 2 && r.all (fun x => x.ratio == some 1)) = true := by
  decide +kernel

-- test_triple_barrier_large_targets
example : okAnd (tb (seconds 10) (linspace 100 150 10) [0, 3] [1, 1] 1 1 8 0 none 0) (fun r => r.map (·.touch) == [some 8, some 9]) = true := by
  decide +kernel

/-! ## `tests/labels/test_label_concurrency.py` and `test_average_uniqueness.py` -/

/-- `average_uniqueness` on `n` bars gives these weights (up to `tol`) and this concurrency. -/
def au (n : Nat) (spans : List (Nat × Nat)) (tol : ℚ) (w : List ℚ) (c : List Int) : Bool :=
  nearOptList tol (averageUniqueness n spans).1 (w.map some) && (averageUniqueness (K := ℚ) n spans).2 == c

-- basic, no_overlap, full_overlap, single_event, edge_boundary, partial_overlap
example : au 10 [(2, 5), (4, 7)] 0 [3/4, 3/4] [0, 0, 1, 1, 2, 2, 1, 1, 0, 0] = true ∧
    au 10 [(1, 3), (6, 8)] 0 [1, 1] [0, 1, 1, 1, 0, 0, 1, 1, 1, 0] = true ∧
    au 8 [(2, 5), (2, 5)] 0 [1/2, 1/2] [0, 0, 2, 2, 2, 2, 0, 0] = true ∧ au 6 [(1, 4)] 0 [1] [0, 1, 1, 1, 1, 0] = true ∧
    au 6 [(0, 2)] 0 [1] [1, 1, 1, 0, 0, 0] = true ∧ au 6 [(3, 5)] 0 [1] [0, 0, 0, 1, 1, 1] = true ∧
    au 12 [(1, 5), (3, 9), (7, 10)] (1 / 10 ^ 5) [7/10, 5714285714285714 / 10 ^ 16, 625/1000] [0, 1, 1, 2, 2, 2, 1, 2, 2, 2, 1, 0] = true := by
  decide +kernel

-- edge_overlap, adjacent_events, single_timestamp_events, complex_overlap_pattern, empty_inputs
example : au 15 [(2, 5), (5, 8)] 0 [875/1000, 875/1000] [0, 0, 1, 1, 1, 2, 1, 1, 1, 0, 0, 0, 0, 0, 0] = true ∧
    au 8 [(1, 3), (4, 6)] 0 [1, 1] [0, 1, 1, 1, 1, 1, 1, 0] = true ∧ au 5 [(1, 1), (3, 3)] 0 [1, 1] [0, 1, 0, 1, 0] = true ∧
    au 10 [(0, 3), (2, 5), (4, 7), (6, 9)] 0 [3/4, 1/2, 1/2, 3/4] [1, 1, 2, 2, 2, 2, 2, 2, 1, 1] = true ∧
    au 5 [] 0 [] [0, 0, 0, 0, 0] = true := by decide +kernel

-- mathematical_properties
example : (averageUniqueness (K := ℚ) 20 [(2, 8), (3, 9), (4, 10), (12, 15)]).1.getD 3 none = some 1 ∧
    ((averageUniqueness (K := ℚ) 20 [(2, 8), (3, 9), (4, 10), (12, 15)]).1.take 3).all (fun w => decide (0 < w.getD 0 ∧ w.getD 1 < 1)) = true := by
  decide +kernel

-- test_average_uniqueness.py: no_overlap, complete_overlap, partial_overlap, complex_overlap, parametrized_cases
example : au 10 [(0, 2), (4, 6), (8, 9)] 0 [1, 1, 1] [1, 1, 1, 0, 1, 1, 1, 0, 1, 1] = true ∧
    au 5 [(0, 4), (0, 4), (0, 4)] 0 [1/3, 1/3, 1/3] [3, 3, 3, 3, 3] = true ∧
    au 8 [(0, 3), (2, 5), (4, 7)] 0 [3/4, 1/2, 3/4] [1, 1, 2, 2, 2, 2, 1, 1] = true ∧
    au 10 [(0, 4), (1, 5), (3, 8), (6, 9)] (15 / 10 ^ 4) [533/1000, 433/1000, 444/1000, 625/1000] [1, 2, 2, 3, 3, 2, 2, 2, 2, 1] = true ∧
    au 5 [(1, 3)] 0 [1] [0, 1, 1, 1, 0] = true ∧ au 6 [(0, 2), (3, 5)] 0 [1, 1] [1, 1, 1, 1, 1, 1] = true ∧
    au 6 [(0, 5), (2, 3)] (15 / 10 ^ 7) [83333333 / 10 ^ 8, 1/2] [1, 1, 2, 2, 1, 1] = true := by decide +kernel

/-! ## `tests/labels/test_return_attribution.py` -/

/-- `return_attribution` gives these weights up to `tol`. -/
def ra (spans : List (Nat × Nat)) (close : List ℚ) (conc : List Int) (normalize : Bool) (tol : ℚ) (w : List ℚ) : Bool :=
  okAnd (returnAttribution qlog spans close conc normalize) (fun r => nearList tol r w)

-- empty_inputs, normalization_zero_weights
example : ra [] [100, 101, 102] [1, 1, 1] false 0 [] = true ∧
    failsWith (returnAttribution qlog [(0, 1), (2, 3)] [100, 100, 100, 100] [1, 1, 1, 1] true)
      "Sum of weights is zero or negative, cannot normalize." = true := by decide +kernel

-- mathematical_correctness, with_concurrency, zero_concurrency, identical_prices, single_price_event
example : ra [(0, 3)] [100, 102, 104, 106] [1, 1, 1, 1] false (1 / 10 ^ 6) [|qlog (102/100) + qlog (104/102) + qlog (106/104)|] = true ∧
    ra [(0, 3), (1, 4)] [100, 105, 110, 115, 120] [1, 2, 2, 2, 1] false (1 / 10 ^ 6)
      [|qlog (105/100) / 2 + qlog (110/105) / 2 + qlog (115/110) / 2|,
       |qlog (105/100) / 2 + qlog (110/105) / 2 + qlog (115/110) / 2 + qlog (120/115) / 1|] = true ∧
    ra [(0, 3)] [100, 105, 110, 115] [1, 0, 1, 1] false (1 / 10 ^ 6) [|qlog (110/105) + qlog (115/110)|] = true ∧
    ra [(0, 2), (1, 3)] [100, 100, 100, 100] [1, 1, 1, 1] false (1 / 10 ^ 10) [0, 0] = true ∧
    ra [(1, 1)] [100, 105, 110, 115] [1, 1, 1, 1] false (1 / 10 ^ 6) [|qlog (105/100)|] = true := by decide +kernel

-- basic_functionality, single_event, multiple_events, absolute_value_property, high_volatility, extreme_values
example : okAnd (returnAttribution qlog [(0, 2), (2, 4)] [100, 105, 110, 115, 120] [1, 1, 1, 1, 1] false) (fun r => r.length == 2 && r.all (0 ≤ ·)) = true ∧
    okAnd (returnAttribution qlog [(0, 2)] [100, 105, 110] [1, 1, 1] false) (fun r => r.length == 1 && r.all (0 < ·)) = true ∧
    okAnd (returnAttribution qlog [(0, 2), (3, 5)] [100, 102, 104, 106, 108, 110] [1, 1, 1, 1, 1, 1] false)
      (fun r => r.length == 2 && r.all (0 < ·)) = true ∧
    okAnd (returnAttribution qlog [(0, 3)] [100, 95, 90, 85] [1, 1, 1, 1] false) (fun r => r.length == 1 && r.all (0 < ·)) = true ∧
    okAnd (returnAttribution qlog [(0, 2), (2, 5)] [100, 200, 50, 300, 25, 400] [1, 1, 1, 1, 1, 1] false)
      (fun r => r.length == 2 && r.all (0 ≤ ·)) = true ∧
    okAnd (returnAttribution qlog [(0, 2)] [1000000, 1100000, 1200000] [1, 1, 1] false) (fun r => r.length == 1 && r.all (0 < ·)) = true := by
  decide +kernel

-- normalization_basic, normalization_single_event, normalization_proportions
example : okAnd (returnAttribution qlog [(0, 2), (2, 4)] [100, 105, 110, 115, 120] [1, 1, 1, 1, 1] false) (fun u =>
      okAnd (returnAttribution qlog [(0, 2), (2, 4)] [100, 105, 110, 115, 120] [1, 1, 1, 1, 1] true) (fun r =>
        near (1 / 10 ^ 10) r.sum 2 && nearList (1 / 10 ^ 10) r (u.map (· * (2 / u.sum))))) = true ∧
    okAnd (returnAttribution qlog [(0, 2)] [100, 110, 120] [1, 1, 1] true) (fun r => r == [1]) = true ∧
    okAnd (returnAttribution qlog [(0, 1), (2, 3), (4, 5)] [100, 105, 110, 115, 120, 125] [1, 1, 1, 1, 1, 1] false) (fun u =>
      okAnd (returnAttribution qlog [(0, 1), (2, 3), (4, 5)] [100, 105, 110, 115, 120, 125] [1, 1, 1, 1, 1, 1] true) (fun r =>
        nearList (1 / 10 ^ 10) (r.map (· / r.sum)) (u.map (· / u.sum)))) = true := by decide +kernel

-- log_return_accumulation, concurrency_scaling
example : ra [(0, 3)] [100, 110, 121, 1331/10] [1, 1, 1, 1] false (1 / 10 ^ 4) [|qlog (110/100) + qlog (121/110) + qlog (1331/10/121)|] = true ∧
    ra [(0, 2)] [100, 110, 121] [1, 2, 2] false (1 / 10 ^ 6) [|qlog (110/100) / 2 + qlog (121/110) / 2|] = true ∧
    okAnd (returnAttribution qlog [(0, 2)] [100, 110, 121] [1, 1, 1] false) (fun a =>
      okAnd (returnAttribution qlog [(0, 2)] [100, 110, 121] [1, 2, 2] false) (fun b => decide (b.getD 0 0 < a.getD 0 0))) = true := by
  decide +kernel

/-! ## `tests/labels/test_time_decay.py` -/

-- zero_sum_uniqueness, no_decay, linear_positive, linear_decay_mathematical_verification, zero_last_weight
example : failsWith (timeDecay [(0 : ℚ), 0, 0] (1/2)) "The sum of all average uniqueness weights must be grater than 0." = true ∧
    timeDecay [(3/10 : ℚ), 4/10, 5/10, 6/10] 1 = .ok [1, 1, 1, 1] ∧
    timeDecay [(1/2 : ℚ), 1/2, 1/2, 1/2] (4/10) = .ok [55/100, 7/10, 85/100, 1] ∧
    timeDecay [(2/10 : ℚ), 3/10, 5/10] (6/10) = .ok [1 - 4/10 + 4/10 * (2/10), 1 - 4/10 + 4/10 * (5/10), 1] ∧
    timeDecay [(1/4 : ℚ), 1/4, 1/4, 1/4] 0 = .ok [1/4, 1/2, 3/4, 1] := by decide +kernel

-- negative_last_weight_basic, negative_last_weight_near_boundary, single_element, slope_calculation_negative
example : okAnd (timeDecay [(1/2 : ℚ), 1/2, 1/2, 1/2] (-3/10)) (fun w => w.getLastD 0 == 1 && w.all (0 ≤ ·)) = true ∧
    okAnd (timeDecay [(2/10 : ℚ), 2/10, 2/10, 2/10, 2/10] (-99/100)) (fun w => w.length == 5 && w.getLastD 0 == 1 && w.all (0 ≤ ·)) = true ∧
    timeDecay [(8/10 : ℚ)] (1/2) = .ok [1] ∧
    timeDecay [(2/10 : ℚ), 3/10, 5/10] (-4/10) =
      .ok [max (1 - 1 / (6/10) + 1 / (6/10) * (2/10)) 0, max (1 - 1 / (6/10) + 1 / (6/10) * (5/10)) 0, 1] := by decide +kernel

-- uniform, increasing, decreasing, very_small, consistency_across_scales, boundary_values, extreme_values
example : okAnd (timeDecay [(1 : ℚ), 1, 1, 1, 1] (2/10)) (fun w => w.getLastD 0 == 1 && (List.zipWith (fun a b => decide (a ≤ b)) w w.tail).all id) = true ∧
    okAnd (timeDecay [(1/10 : ℚ), 3/10, 5/10, 7/10, 9/10] (4/10)) (fun w => w.getLastD 0 == 1 && w.all (0 < ·)) = true ∧
    okAnd (timeDecay [(9/10 : ℚ), 7/10, 5/10, 3/10, 1/10] (6/10)) (fun w => w.getLastD 0 == 1) = true ∧
    okAnd (timeDecay [(1 / 10 ^ 10 : ℚ), 1 / 10 ^ 9, 1 / 10 ^ 8, 1 / 10 ^ 7] (1/2)) (fun w => w.length == 4 && w.getLastD 0 == 1) = true ∧
    timeDecay [(1/10 : ℚ), 2/10, 3/10, 4/10] (3/10) = timeDecay [1, 2, 3, 4] (3/10) ∧
    okAnd (timeDecay [(1/2 : ℚ), 1/2, 1/2] (-999/1000)) (fun w => w.getLastD 0 == 1 && w.all (0 ≤ ·)) = true ∧
    okAnd (timeDecay [(1 / 10 ^ 15 : ℚ), 1 / 10 ^ 14, 1 / 10 ^ 13, 1] (1/10)) (fun w => w.getLastD 0 == 1 && w.all (fun x => decide (0 ≤ x ∧ x ≤ 1))) = true := by
  decide +kernel

/-! ## `tests/labels/test_class_balace_weights.py` -/

-- basic, with_custom_weights, zero_weights_no_error, single_class
example : classBalance [1, -1, 1, 0, -1, 1] [(1 : ℚ), 1, 1, 1, 1, 1] = ([-1, 0, 1], [1, 2, 2/3], [2, 1, 3], [2/3, 1, 2/3, 2, 1, 2/3]) ∧
    (classBalance [1, -1, 1, 0, -1, 1] [(1 : ℚ), 2, 1, 3, 2, 1]).1 = [-1, 0, 1] ∧
    (classBalance [1, -1, 1, 0, -1, 1] [(1 : ℚ), 2, 1, 3, 2, 1]).2.1 = [10/12, 10/9, 10/9] ∧
    (classBalance [1, -1, 1, 0, -1, 1] [(1 : ℚ), 2, 1, 3, 2, 1]).2.2.1 = [4, 3, 3] ∧
    classBalance [1, -1, 1, 0, -1, 1] [(0 : ℚ), 0, 0, 0, 0, 0] = ([-1, 0, 1], [0, 0, 0], [0, 0, 0], [0, 0, 0, 0, 0, 0]) ∧
    classBalance [1, 1, 1] [(1 : ℚ), 1, 1] = ([1], [1], [3], [1, 1, 1]) := by decide +kernel

-- partial_zero_class, single_sample, negative_labels, imbalanced_scenario
example : (classBalance [1, -1, 1, 0, -1, 1] [(1 : ℚ), 0, 1, 0, 0, 1]).2.1 = [0, 0, 1/3] ∧
    (classBalance [1, -1, 1, 0, -1, 1] [(1 : ℚ), 0, 1, 0, 0, 1]).2.2.1 = [0, 0, 3] ∧
    classBalance [5] [(5/2 : ℚ)] = ([5], [1], [5/2], [5/2]) ∧
    (classBalance [-5, -10, -5, -2, -10] [(1 : ℚ), 2, 1, 3, 2]).1 = [-10, -5, -2] ∧
    (classBalance [-5, -10, -5, -2, -10] [(1 : ℚ), 2, 1, 3, 2]).2.2.1 = [4, 2, 3] ∧
    (classBalance [0, 0, 0, 0, 0, 0, 1, 1, -1] [(1/2 : ℚ), 1/2, 1/2, 1/2, 1/2, 1/2, 2, 2, 5]).2.1 = [8/10, 4/3, 1] ∧
    (classBalance [0, 0, 0, 0, 0, 0, 1, 1, -1] [(1/2 : ℚ), 1/2, 1/2, 1/2, 1/2, 1/2, 2, 2, 5]).2.2.1 = [5, 3, 4] := by decide +kernel

-- mathematical_properties
example : (classBalance [1, 2, 1, 2, 1] [(1 : ℚ), 1, 1, 1, 1]).2.1 = [5/6, 5/4] ∧
    (classBalance [1, 2, 1, 2, 1] [(1 : ℚ), 1, 1, 1, 1]).2.2.2 = [5/6, 5/4, 5/6, 5/4, 5/6] := by decide +kernel

/-! ## `tests/sampling/test_cusum_filter.py` -/

example : cusumFilter qlog [100, 100, 100, 100, 100] [1/2] = .ok [] ∧ fails (cusumFilter qlog [100] [1/100]) = true ∧
    fails (cusumFilter qlog [] [1/100]) = true ∧ fails (cusumFilter qlog [100, 101, 102] [1/100, 2/100]) = true ∧
    cusumFilter qlog [100, 10001/100, 10002/100, 10003/100, 10004/100, 10005/100] [1/100000] = .ok [1, 2, 3, 4, 5] := by decide +kernel

/-! ## `tests/labels/test_label_kit.py` (the trades after the merge of the two trades at one millisecond) -/

/-- The label object of the test. -/
def kitArgs : TbmArgs ℚ where
  rows := [⟨1000000000, [some (1/100)], some (1/100), 0⟩, ⟨2000000000, [some (2/100)], some (2/100), 0⟩]
  nCols := 1
  hasTarget := true
  datetimeIndex := true
  barriers := some [.fin (-1), .fin 1]
  minRet := 0
  vertical := 1000000000
  minClose := 1000000000
  isMeta := false
  sideInteger := none
  idx := none

def kitTs : List Int := [1000000000, 2000000000, 3000000000]
def kitPx : List ℚ := [10, 11, 12]

-- tbm_label_and_weights
example : okAnd (tbmNew kitArgs) (fun o =>
    let r := tbmCompute qlog o kitTs kitPx
    decide (r.2 = none) && decide (r.1.feats.length = 2) &&
    okAnd (tbmLabels r.1) (fun l => decide (l = [1, 1])) &&
    okAnd (tbmWeights qlog r.1 kitTs kitPx true) (fun w =>
      decide (w.map (·.1) = [1000000000, 2000000000]) && w.all (fun x => x.2.1.isSome) &&
      okAnd (finalWeights (w.map (fun x => x.2.1.getD 0)) 1 (some (w.map (·.2.2))) none (some [1, 1]))
        (fun f => decide (f.length = 2) && f.all (fun x => decide (0 < x))))) = true := by decide +kernel

end FinML.Conform
