/-
Features with float64 arithmetic: running sums (`feature/core/reversion.py:30-46`, `feature/core/volatility.py:311-338`,
`feature/core/volume.py` `vpin`), Wilder's smoothing (`feature/core/momentum.py:26-65`, `feature/core/trend.py` `adx_core`), the
stochastic oscillator and the z-score.
-/
import Verif.Model.Float64Bars

namespace FinML

/-- One update of a running sum, `s += new - old` (`feature/core/reversion.py:46`, `feature/core/volatility.py:329`). -/
def runStep64 (s : ℚ) (x : ℚ × ℚ) : ℚ := f64 (s + f64 (x.1 - x.2))

/-- Successive values of `vsum` (`feature/core/reversion.py:34-46`), from index `n - 1` on. -/
def runSums64 (xs : List ℚ) (n : Nat) : List ℚ := ((xs.drop n).zip xs).scanl runStep64 (sum64 (xs.take n))

/-- `feature/core/reversion.py:44-46`: the products are rounded before they enter the running sum. -/
def vwapSums64 (close volume : List ℚ) (n : Nat) : List (ℚ × ℚ) :=
  (runSums64 (List.zipWith (fun c v => f64 (c * v)) close volume) n).zip (runSums64 volume n)

/-- `close[i] / (wsum / vsum) - 1.0` (`feature/core/reversion.py:40`, `:52`). -/
def vwapDistVal64 (c : ℚ) (s : ℚ × ℚ) : ℚ := f64 (f64 (c / f64 (s.1 / s.2)) - 1)

/-- `rolling_sum`, `rolling_sum_sq` of `bollinger_percent_b` (`feature/core/volatility.py:314-330`), from index `w - 1` on. -/
def bollSums64 (close : List ℚ) (w : Nat) : List (ℚ × ℚ) :=
  (runSums64 close w).zip (runSums64 (close.map (fun c => f64 (c * c))) w)

/-- `feature/core/volatility.py:331-332`: the variance from the running sums. -/
def bollVar64 (w : Nat) (s : ℚ × ℚ) : ℚ :=
  let mean := f64 (s.1 / w)
  f64 (f64 (s.2 - f64 ((w : ℚ) * f64 (mean * mean))) / ((w : ℚ) - 1))

/-- Cumulative sums `c[0] = 0, c[i+1] = c[i] + x[i]` (`feature/core/volume.py:621-631`). -/
def cumSums64 (xs : List ℚ) : List ℚ := xs.scanl (fun s x => f64 (s + x)) 0

/-- `vpin` (`feature/core/volume.py:611-641`) at index `i` for data without NaN and `i ≥ window - 1`. -/
def vpinAt64 (buy sell : List ℚ) (w i : Nat) : Option ℚ :=
  let cb := cumSums64 buy
  let cs := cumSums64 sell
  let ca := cumSums64 (List.zipWith (fun b s => |f64 (b - s)|) buy sell)
  let tot := f64 (f64 (cb.getD (i + 1) 0 - cb.getD (i + 1 - w) 0) + f64 (cs.getD (i + 1) 0 - cs.getD (i + 1 - w) 0))
  if f64 (1 / 1000000000) < tot then some (f32 (f64 (f64 (ca.getD (i + 1) 0 - ca.getD (i + 1 - w) 0) / tot))) else none

/-- `100.0 - 100.0 / (1.0 + avg_gain / avg_loss)` (`feature/core/momentum.py:52`, `:63`). -/
def rsiVal64 (g l : ℚ) : Option ℚ := if 0 < l then some (f64 (100 - f64 (100 / f64 (1 + f64 (g / l))))) else none

/-- `((window - 1) * avg + x) / window` (`feature/core/momentum.py:60-61`; the ADX is smoothed in the same way, `feature/core/trend.py:94`). -/
def wilder64 (w : Nat) (avg x : ℚ) : ℚ := f64 (f64 (f64 (((w : ℚ) - 1) * avg) + x) / w)

/-- `100 * (abs(plus_di - minus_di) / (plus_di + minus_di))` (`feature/core/trend.py:81-83`), 0 if the denominator is not positive. -/
def dx64 (p m : ℚ) : ℚ := if 0 < f64 (p + m) then f64 (100 * f64 (|f64 (p - m)| / f64 (p + m))) else 0

/-- ADX values from index `2*length - 1` on (`feature/core/trend.py:86-94`), from the DX values from index `length` on. -/
def adxOfDx64 (w : Nat) (dx : List ℚ) : List ℚ := (dx.drop w).scanl (wilder64 w) (f64 (sum64 (dx.take w) / w))

/-- Price differences `close[i] - close[i-1]` (`feature/core/momentum.py:44`, `:56`). -/
def diffs64 (close : List ℚ) : List ℚ := List.zipWith (fun b a => f64 (b - a)) close.tail close

/-- Average gains and losses of `rsi_wilder` (`feature/core/momentum.py:40-61`), from index `window` on. -/
def rsiAvgs64 (close : List ℚ) (w : Nat) : List (ℚ × ℚ) :=
  let d := diffs64 close
  (d.drop w).scanl
    (fun s x => (wilder64 w s.1 (if 0 < x then x else 0), wilder64 w s.2 (if x < 0 then -x else 0)))
    (f64 (sum64 (((d.take w).filter (fun x => decide (0 < x)))) / w),
     f64 (sum64 (((d.take w).filter (fun x => decide (x ≤ 0))).map (fun x => -x)) / w))

/-- `rsi_wilder` (`feature/core/momentum.py:26-65`) from index `window` on, for more than `window` prices. -/
def rsi64 (close : List ℚ) (w : Nat) : List (Option ℚ) := (rsiAvgs64 close w).map (fun s => rsiVal64 s.1 s.2)

/-- The smoothed sums of `adx_core` (`feature/core/trend.py:60-69`) from index `length` on; `xs` are the values from index 1 on. -/
def diSums64 (w : Nat) (xs : List ℚ) : List ℚ :=
  (xs.drop w).scanl (fun s x => f64 (f64 (s - f64 (s / w)) + x)) (sum64 (xs.take w))

/-- `100 * (smoothed_dm / smoothed_tr)` (`feature/core/trend.py:75-77`). -/
def di64 (tr dm : ℚ) : ℚ := if 0 < tr then f64 (100 * f64 (dm / tr)) else 0

/-- `feature/core/trend.py:39-52`: the larger of the two differences if it is positive. -/
def dm64 (x y : ℚ) : ℚ := if y < x ∧ 0 < x then x else 0

/-- DX from index `length` on (`feature/core/trend.py:30-83`). -/
def adxDx64 (high low close : List ℚ) (w : Nat) : List ℚ :=
  let up := List.zipWith (fun b a => f64 (b - a)) high.tail high
  let down := List.zipWith (fun a b => f64 (a - b)) low low.tail
  let tr := List.zipWith (fun (hl : ℚ × ℚ) c => max (max (f64 (hl.1 - hl.2)) |f64 (hl.1 - c)|) |f64 (hl.2 - c)|)
    (high.tail.zip low.tail) close
  let strs := diSums64 w tr
  let sp := diSums64 w (List.zipWith dm64 up down)
  let sm := diSums64 w (List.zipWith dm64 down up)
  List.zipWith dx64 (List.zipWith di64 strs sp) (List.zipWith di64 strs sm)

/-- `100.0 * (close - lo) / (hi - lo)` (`feature/core/momentum.py:94`, `:110`). -/
def stochVal64 (c lo hi : ℚ) : Option ℚ := if lo < hi then some (f64 (f64 (100 * f64 (c - lo)) / f64 (hi - lo))) else none

/-- The variance in `comp_zscore` (`feature/core/utils.py:85-87`). -/
def zVar64 (xs : List ℚ) (ddof : Nat) : ℚ :=
  let mean := f64 (sum64 xs / xs.length)
  f64 (sum64 (xs.map (fun x => f64 (f64 (x - mean) * f64 (x - mean)))) / ((xs.length : ℚ) - ddof))

/-- `adx_core` (`feature/core/trend.py:9-96`) from index `2*length - 1` on, for at least `2*length` bars. -/
def adx64 (high low close : List ℚ) (w : Nat) : List ℚ := adxOfDx64 w (adxDx64 high low close w)

end FinML
