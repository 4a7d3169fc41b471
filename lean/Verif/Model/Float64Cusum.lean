/-
Model of the CUSUM event filter (`/repo/finmlkit/sampling/filters.py`) and the CUSUM bar indexer (`/repo/finmlkit/bar/logic.py`) in
float64: every operation is followed by rounding to 53 bits.  `log64` is `np.log` of a float64.
-/
import Verif.Model.Indexers
import Verif.Model.CusumFilter
import Verif.Model.Float64

namespace FinML

/-- `sampling/filters.py:53-68`: the event loop, sums rounded. -/
def cusumFilterLoop64 : Nat → ℚ → ℚ → List (ℚ × ℚ) → List Nat
  | _, _, _, [] => []
  | i, sPos, sNeg, (ret, thrs) :: rest =>
    let sPos := max 0 (f64 (sPos + ret))
    let sNeg := min 0 (f64 (sNeg + ret))
    if sNeg < -thrs then i :: cusumFilterLoop64 (i + 1) sPos 0 rest
    else if sPos > thrs then i :: cusumFilterLoop64 (i + 1) 0 sNeg rest
    else cusumFilterLoop64 (i + 1) sPos sNeg rest

/-- `sampling/filters.py:6-70` `cusum_filter`. -/
def cusumFilter64 (log64 : ℚ → ℚ) (series threshold : List ℚ) : Except String (List Nat) :=
  if series.length ≤ 1 then .error "Input time series must have at least 2 elements."
  else if threshold.length ≠ 1 ∧ threshold.length ≠ series.length then
    .error "Threshold array must either contain 1 const. element or len(raw_time_series) elements."
  else
    let n := series.length
    let thr := if threshold.length = 1 then List.replicate n (threshold.getD 0 0) else threshold
    let steps := (List.range' 1 (n - 1)).map
      (fun i => (log64 (f64 (series.getD i 0 / series.getD (i - 1) 0)), thr.getD i 0))
    .ok (cusumFilterLoop64 1 0 0 steps)

/-- `bar/logic.py:198-219`: the main loop of `_cusum_bar_indexer`, sums rounded. -/
def cusumBarLoop64 : Nat → ℚ → ℚ → List (CusumTick ℚ) → List Nat
  | _, _, _, [] => []
  | i, sPos, sNeg, t :: rest =>
    let sPos := max 0 (f64 (sPos + t.ret))
    let sNeg := min 0 (f64 (sNeg + t.ret))
    if t.inBlock then cusumBarLoop64 (i + 1) sPos sNeg rest
    else if sPos ≥ t.lam then i :: cusumBarLoop64 (i + 1) 0 sNeg rest
    else if sNeg ≤ -t.lam then i :: cusumBarLoop64 (i + 1) sPos 0 rest
    else cusumBarLoop64 (i + 1) sPos sNeg rest

/-- `bar/logic.py:199-211`: the inputs of iteration `i`. -/
def cusumTickAt64 (log64 : ℚ → ℚ) (ts : List Int) (prices : List ℚ) (filled : List (Option ℚ)) (sigmaFloor sigmaMult : ℚ) (i : Nat) :
    CusumTick ℚ where
  ret := log64 (f64 (prices.getD i 0 / prices.getD (i - 1) 0))
  inBlock := (decide (i + 1 < prices.length) && decide (ts.getD i 0 = ts.getD (i + 1) 0)) ||
    (filled.getD i none).isNone
  lam := match filled.getD i none with
    | some s => max (f64 (sigmaMult * s)) sigmaFloor
    | none => sigmaFloor

/-- `bar/logic.py:152-221` `_cusum_bar_indexer`. -/
def cusumBarIndexer64 (log64 : ℚ → ℚ) (ts : List Int) (prices : List ℚ) (sigma : List (Option ℚ)) (sigmaFloor sigmaMult : ℚ) :
    Except String (List Nat) :=
  if prices.length ≠ sigma.length ∧ sigma.length ≠ ts.length then
    .error "Prices, timestamps, and sigma arrays must have the same length."
  else
    let n := prices.length
    let f := firstNonNan sigma
    let filled := forwardFill none sigma
    let ticks := (List.range' (f + 1) (n - (f + 1))).map
      (cusumTickAt64 log64 ts prices filled sigmaFloor sigmaMult)
    .ok (f :: cusumBarLoop64 (f + 1) 0 0 ticks)

end FinML
