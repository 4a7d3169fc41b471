/-
Binary floating point, and the places where nanosecond timestamps (beyond 2^53) pass through it:
`bar/logic.py:12-51`, `feature/core/utils.py:39-48`, `label/tbm.py:66-96`.

Rounding is to nearest, ties to even, on rational numbers.  Simplification: the exponent range is unbounded (no overflow,
no subnormal numbers), which is immaterial for the magnitudes involved.
-/
import Verif.Model.TickSize
import Verif.Model.Indexers

namespace FinML

/-- Rounding to `p` significant bits, the effect of storing a number in a binary float. -/
def rndBits (p : Nat) (x : ℚ) : ℚ :=
  if x = 0 then 0
  else
    let e := Int.log 2 |x| - ((p : Int) - 1)
    (rint (x / 2 ^ e) : ℚ) * 2 ^ e

/-- `np.float64`. -/
def f64 (x : ℚ) : ℚ := rndBits 53 x

/-- `np.float32`. -/
def f32 (x : ℚ) : ℚ := rndBits 24 x

/-- `a // b` for positive floats in Numba (`bar/logic.py:33`), which follows CPython's `float_divmod`: exact remainder, rounded
difference and quotient, floor, and a correction when the quotient was rounded up too far. -/
def floorDiv64 (a b : ℚ) : ℚ :=
  let md := a - b * ((a / b).floor : ℚ)
  let dv := f64 (f64 (a - md) / b)
  let fl := (dv.floor : ℚ)
  if 1 / 2 < dv - fl then fl + 1 else fl

/-- `np.ceil` of an exact number (`bar/logic.py:36`). -/
def ceilQ (x : ℚ) : Int := -((-x).floor)

/-- `np.arange(start, stop, step, dtype=np.int64)` for floats in Numba (`bar/logic.py:39`): the number of items is the
ceiling of the rounded quotient, item `i` is `start + i*step` rounded twice and truncated. -/
def arange64 (start stop step : ℚ) : List Int :=
  (List.range (ceilQ (f64 (f64 (stop - start) / step))).toNat).map
    (fun i : Nat => (f64 (start + f64 ((i : ℚ) * step))).floor)

/-- `bar/logic.py:30-39`, the bar clock as computed in float64.  `secs` is `interval_seconds`; timestamps are not negative, so
truncation is the floor. -/
def timeBarClock64 (ts : List Int) (secs : ℚ) : List Int :=
  let I := f64 (secs * 1000000000)
  let barStart := f64 (floorDiv64 (f64 (ts.headD 0)) I * I)
  let lastTs := f64 ((ceilQ (f64 (f64 (ts.getLastD 0) / I)) : ℚ) * I)
  arange64 barStart (f64 (f64 (lastTs + I) + 1)) I

/-- `bar/logic.py:12-51` `_time_bar_indexer` with its float64 arithmetic; the search itself is between integers. -/
def timeBarIndexer64 (ts : List Int) (secs : ℚ) : List Int × List Int :=
  let clock := timeBarClock64 ts secs
  (clock, clock.map (fun c => (searchRight ts c : Int) - 1))

/-- `np.searchsorted(timestamps, v, side='right')` for a float `v` (`feature/core/utils.py:46`, `label/tbm.py:96`): the integers
are converted to float64 before they are compared. -/
def searchRight64 (ts : List Int) (v : ℚ) : Nat := (ts.takeWhile (fun t : Int => decide (f64 (t : ℚ) ≤ v))).length

/-- `np.searchsorted(timestamps, v, side='left')` for a float `v` (`feature/core/utils.py:42`). -/
def searchLeft64 (ts : List Int) (v : ℚ) : Nat := (ts.takeWhile (fun t : Int => decide (f64 (t : ℚ) < v))).length

/-- `label/tbm.py:94-96`: the vertical barrier index, `-1` for none.  `vb` is `vertical_barrier` in seconds. -/
def verticalIdx64 (ts : List Int) (t0 : Int) (vb : ℚ) : Int :=
  (searchRight64 ts (f64 (f64 t0 + f64 (vb * 1000000000))) : Int) - 1

/-- `feature/core/utils.py:45-46`: the lagged index of `comp_lagged_returns` at a bar with timestamp `t`. -/
def lagIdx64 (ts : List Int) (t : Int) (w : ℚ) : Int :=
  (searchRight64 ts (f64 (f64 t - f64 (w * 1000000000))) : Int) - 1

/-- `feature/core/utils.py:42`: the first bar with a return. -/
def lagStart64 (ts : List Int) (w : ℚ) : Nat := searchLeft64 ts (f64 (f64 (ts.headD 0) + f64 (w * 1000000000)))

end FinML
