/-
Model of `/repo/finmlkit/bar/logic.py`: the functions that turn a stream of raw trades into the
list of close indices that delimit bars.
-/
import Verif.Prelude

namespace FinML

variable {K : Type} [Field K] [LinearOrder K]

/-- `np.searchsorted(a, v, side='right')` on an ascending array: the number of leading elements
`≤ v`.  (NumPy library function used at `bar/logic.py:42`, `label/tbm.py:96`, `feature/core/utils.py`;
its binary search is replaced by its documented result for sorted input.) -/
def searchRight (a : List Int) (v : Int) : Nat := (a.takeWhile (fun x => decide (x ≤ v))).length

/-- `np.searchsorted(a, v, side='left')` on an ascending array: the number of leading elements
`< v`.  (NumPy library function, see `searchRight`.) -/
def searchLeft (a : List Int) (v : Int) : Nat := (a.takeWhile (fun x => decide (x < v))).length

/-- `np.arange(a, b, s)` for integers and `s > 0`: `a, a+s, …` while `< b`.
(NumPy library function used at `bar/logic.py:39`.) -/
def arange (a b s : Int) : List Int :=
  (List.range ((b - a + s - 1) / s).toNat).map (fun k : Nat => a + (k : Int) * s)

/-- `ceil(x / i)` on integers.  Models `np.ceil(timestamps[-1] / bar_interval_ns)` at
`bar/logic.py:36`; simplification: exact integer arithmetic instead of float64. -/
def ceilDiv (x i : Int) : Int := -((-x) / i)

/-- `bar/logic.py:30-39`, the bar clock of `_time_bar_indexer`.
Simplification: the interval is an integer number of nanoseconds (`interval_seconds * 1e9`) and
floor/ceil are exact. -/
def timeBarClock (ts : List Int) (interval : Int) : List Int :=
  let barStart := ts.headD 0 / interval * interval
  let lastTs := ceilDiv (ts.getLastD 0) interval * interval
  arange barStart (lastTs + interval + 1) interval

/-- `bar/logic.py:12-51` `_time_bar_indexer`: bar close timestamps and close indices.  An index of
`-1` means "before the first trade". -/
def timeBarIndexer (ts : List Int) (interval : Int) : List Int × List Int :=
  let clock := timeBarClock ts interval
  (clock, clock.map (fun c => (searchRight ts c : Int) - 1))

/-- Loop body of `bar/logic.py:78-82`: `i` is the index of the next trade, `cum` is `cum_ticks`. -/
def tickLoop {α : Type} (threshold : Int) : Nat → Int → List α → List Nat
  | _, _, [] => []
  | i, cum, _ :: rest =>
    let cum := cum + 1
    if cum ≥ threshold then i :: tickLoop threshold (i + 1) 0 rest
    else tickLoop threshold (i + 1) cum rest

/-- `bar/logic.py:54-84` `_tick_bar_indexer`. -/
def tickBarIndexer {α : Type} (ts : List α) (threshold : Int) : List Nat :=
  0 :: tickLoop threshold 1 1 ts.tail

/-- Loop body of `bar/logic.py:109-113`: volume accumulation with reset to zero. -/
def volumeLoop (threshold : K) : Nat → K → List K → List Nat
  | _, _, [] => []
  | i, cum, v :: rest =>
    let cum := cum + v
    if cum ≥ threshold then i :: volumeLoop threshold (i + 1) 0 rest
    else volumeLoop threshold (i + 1) cum rest

/-- `bar/logic.py:87-115` `_volume_bar_indexer` (the empty input, an `IndexError`-like read of
`volumes[0]` in the code, is given `headD 0`). -/
def volumeBarIndexer (volumes : List K) (threshold : K) : List Nat :=
  0 :: volumeLoop threshold 1 (volumes.headD 0) volumes.tail

/-- Loop body of `bar/logic.py:143-147`: dollar accumulation, the excess over the threshold is
carried over. -/
def dollarLoop (threshold : K) : Nat → K → List (K × K) → List Nat
  | _, _, [] => []
  | i, cum, (p, v) :: rest =>
    let cum := cum + p * v
    if cum ≥ threshold then i :: dollarLoop threshold (i + 1) (cum - threshold) rest
    else dollarLoop threshold (i + 1) cum rest

/-- `bar/logic.py:118-149` `_dollar_bar_indexer`; the parallel arrays `prices`, `volumes` are a list
of pairs (they always come from the columns of one data frame). -/
def dollarBarIndexer (trades : List (K × K)) (threshold : K) : List Nat :=
  0 :: dollarLoop threshold 1 ((trades.headD (0, 0)).1 * (trades.headD (0, 0)).2) trades.tail

/-- `bar/logic.py:180-184`: index of the first non-NaN sigma, `0` when all are NaN. -/
def firstNonNan (sigma : List (Option K)) : Nat :=
  let i := sigma.findIdx (fun s => s.isSome)
  if i < sigma.length then i else 0

/-- `bar/logic.py:187-189`: forward fill of NaN sigmas; `prev` is the previous (filled) value. -/
def forwardFill : Option K → List (Option K) → List (Option K)
  | _, [] => []
  | _, some s :: rest => some s :: forwardFill (some s) rest
  | prev, none :: rest => prev :: forwardFill prev rest

/-- The per-trade inputs that one iteration of the CUSUM bar loop reads: the log return
`log(prices[i]/prices[i-1])` (`bar/logic.py:200`), whether the bar cannot close at this trade because the
next trade has the same timestamp (`:207`) or `lam` is NaN, and the threshold `lam` (`:211`). -/
structure CusumTick (K : Type) where
  ret : K
  inBlock : Bool
  lam : K

/-- `bar/logic.py:198-219`, the main loop of `_cusum_bar_indexer`; `i` is the trade index. -/
def cusumBarLoop : Nat → K → K → List (CusumTick K) → List Nat
  | _, _, _, [] => []
  | i, sPos, sNeg, t :: rest =>
    let sPos := max 0 (sPos + t.ret)
    let sNeg := min 0 (sNeg + t.ret)
    if t.inBlock then cusumBarLoop (i + 1) sPos sNeg rest
    else if sPos ≥ t.lam then i :: cusumBarLoop (i + 1) 0 sNeg rest
    else if sNeg ≤ -t.lam then i :: cusumBarLoop (i + 1) sPos 0 rest
    else cusumBarLoop (i + 1) sPos sNeg rest

/-- The inputs of iteration `i` of the loop at `bar/logic.py:199-219`, read from the arrays
(`log` is `np.log`).  A NaN sigma makes `lam = max(nan, sigma_floor)` NaN (the first argument is kept unless the second
is greater), so both comparisons at `:213-218` fail and the bar cannot close, as inside a timestamp block; this happens
only if no sigma up to `i` is a number. -/
def cusumTickAt (log : K → K) (ts : List Int) (prices : List K) (filled : List (Option K))
    (sigmaFloor sigmaMult : K) (i : Nat) : CusumTick K where
  ret := log (prices.getD i 0 / prices.getD (i - 1) 0)
  inBlock := (decide (i + 1 < prices.length) && decide (ts.getD i 0 = ts.getD (i + 1) 0)) ||
    (filled.getD i none).isNone
  lam := match filled.getD i none with
    | some s => max (sigmaMult * s) sigmaFloor
    | none => sigmaFloor

/-- `bar/logic.py:152-221` `_cusum_bar_indexer`.  The chained comparison at line 174
(`len(prices) != len(sigma) != len(timestamps)`) raises only when *both* inequalities hold, exactly as
in Python. -/
def cusumBarIndexer (log : K → K) (ts : List Int) (prices : List K) (sigma : List (Option K))
    (sigmaFloor sigmaMult : K) : Except String (List Nat) :=
  if prices.length ≠ sigma.length ∧ sigma.length ≠ ts.length then
    .error "Prices, timestamps, and sigma arrays must have the same length."
  else
    let n := prices.length
    let f := firstNonNan sigma
    let filled := forwardFill none sigma
    let ticks := (List.range' (f + 1) (n - (f + 1))).map
      (cusumTickAt log ts prices filled sigmaFloor sigmaMult)
    .ok (f :: cusumBarLoop (f + 1) 0 0 ticks)

end FinML
