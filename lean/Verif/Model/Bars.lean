/-
Model of the bar aggregation kernels in `/repo/finmlkit/bar/base.py:303-612`
(`comp_bar_ohlcv`, `comp_bar_directional_features`).
-/
import Verif.Prelude

namespace FinML

variable {K : Type} [Field K] [LinearOrder K]

/-- Array read `xs[i]` inside `@njit` code: a negative index wraps around once (Python semantics), an
out-of-range index (undefined behaviour in the compiled code, no bounds check) reads `d`. -/
def pyGet {α : Type} (xs : List α) (d : α) (i : Int) : α :=
  if i < 0 then xs.getD (xs.length + i).toNat d else xs.getD i.toNat d

/-- Python `range(a, b + 1)`. -/
def idxRange (a b : Int) : List Int := (List.range (b + 1 - a).toNat).map (fun k : Nat => a + (k : Int))

/-- The consecutive pairs `(bar_close_indices[i], bar_close_indices[i+1])` that drive every per-bar loop
(`bar/base.py:347-349`, `:467-469`, `:581-583`, `:683-685`). -/
def closePairs (c : List Int) : List (Int × Int) := c.zip c.tail

/-- `np.median` (library function used at `bar/base.py:403`): middle element of the sorted data, or mean of
the two middle elements. -/
def npMedian (l : List K) : K :=
  let s := l.insertionSort (· ≤ ·)
  let n := s.length
  if n % 2 = 1 then s.getD (n / 2) 0 else (s.getD (n / 2 - 1) 0 + s.getD (n / 2) 0) / 2

/-- One output row of `comp_bar_ohlcv`. -/
structure Ohlcv (K : Type) where
  opn : K
  high : K
  low : K
  close : K
  volume : K
  vwap : K
  trades : Int
  median : K
deriving DecidableEq

/-- Running state of the inner loop of `comp_bar_ohlcv` (`bar/base.py:366-390`). -/
structure OhlcvAcc (K : Type) where
  high : K
  low : K
  vol : K
  dollar : K

/-- Body of the inner loop, `bar/base.py:377-390` (the store into `trade_sizes` is the list of volumes of
the bar and is handled in `ohlcvBar`). -/
def ohlcvStep (s : OhlcvAcc K) (t : K × K) : OhlcvAcc K where
  high := if t.1 > s.high then t.1 else s.high
  low := if t.1 < s.low then t.1 else s.low
  vol := s.vol + t.2
  dollar := s.dollar + t.1 * t.2

/-- `bar/base.py:347-405`: one iteration of the `prange` loop. -/
def ohlcvBar (prices volumes : List K) (start stop : Int) : Ohlcv K :=
  if start = stop then
    let p := pyGet prices 0 stop
    { opn := p, high := p, low := p, close := p, volume := 0, vwap := 0, trades := 0, median := 0 }
  else
    let start := start + 1
    let js := idxRange start stop
    let p0 := pyGet prices 0 start
    let acc := (js.map (fun j => (pyGet prices 0 j, pyGet volumes 0 j))).foldl ohlcvStep
      { high := p0, low := p0, vol := 0, dollar := 0 }
    let count := stop - start + 1
    { opn := p0, high := acc.high, low := acc.low, close := pyGet prices 0 stop, volume := acc.vol,
      vwap := if acc.vol > 0 then acc.dollar / acc.vol else 0, trades := count,
      median := if count > 0 then npMedian (js.map (fun j => pyGet volumes 0 j)) else 0 }

/-- `bar/base.py:306-407` `comp_bar_ohlcv`. -/
def compBarOhlcv (prices volumes : List K) (closes : List Int) : Except String (List (Ohlcv K)) :=
  if prices.length ≠ volumes.length then
    .error "Prices and volumes arrays must have the same length."
  else if closes.length < 2 then
    .error "Bar close indices must contain at least two elements."
  else .ok ((closePairs closes).map (fun c => ohlcvBar prices volumes c.1 c.2))

/-- Running state of one bar of `comp_bar_directional_features` (`bar/base.py:471-488`) together with the
bar's entries of the `cum_*` output arrays (initialised at `:459-464` with the sentinels `±1e9`). -/
structure DirAcc (K : Type) where
  ticksBuy : Int
  ticksSell : Int
  volBuy : K
  volSell : K
  dolBuy : K
  dolSell : K
  cumTicks : Int
  cumVol : K
  cumDol : K
  maxSpread : K
  cumSpread : K
  prevSign : Int
  cumTicksMin : Int
  cumTicksMax : Int
  cumVolMin : K
  cumVolMax : K
  cumDolMin : K
  cumDolMax : K

/-- Initial state, `bar/base.py:459-464,471-488`. -/
def dirInit (prevSign : Int) : DirAcc K where
  ticksBuy := 0
  ticksSell := 0
  volBuy := 0
  volSell := 0
  dolBuy := 0
  dolSell := 0
  cumTicks := 0
  cumVol := 0
  cumDol := 0
  maxSpread := 0
  cumSpread := 0
  prevSign := prevSign
  cumTicksMin := 1000000000
  cumTicksMax := -1000000000
  cumVolMin := 1000000000
  cumVolMax := -1000000000
  cumDolMin := 1000000000
  cumDolMax := -1000000000

/-- What one iteration of the inner loop reads: side, price, previous price, volume of trade `j`. -/
structure DirTick (K : Type) where
  side : Int
  price : K
  prevPrice : K
  vol : K

/-- `bar/base.py:521-526`: update of the running extremes. -/
def dirExtremes (s : DirAcc K) : DirAcc K :=
  { s with
    cumTicksMax := max s.cumTicksMax s.cumTicks
    cumTicksMin := min s.cumTicksMin s.cumTicks
    cumVolMax := max s.cumVolMax s.cumVol
    cumVolMin := min s.cumVolMin s.cumVol
    cumDolMax := max s.cumDolMax s.cumDol
    cumDolMin := min s.cumDolMin s.cumDol }

/-- `bar/base.py:494-500`: spread update and previous sign. -/
def dirSpread (s : DirAcc K) (t : DirTick K) : DirAcc K :=
  if t.side ≠ s.prevSign then
    let spread := |t.price - t.prevPrice|
    { s with
      maxSpread := if spread > s.maxSpread then spread else s.maxSpread
      cumSpread := s.cumSpread + spread
      prevSign := t.side }
  else { s with prevSign := t.side }

/-- `bar/base.py:491-526`: body of the inner loop. -/
def dirStep (s : DirAcc K) (t : DirTick K) : DirAcc K :=
  let s := dirSpread s t
  if t.side = 1 then
    dirExtremes { s with
      ticksBuy := s.ticksBuy + 1
      volBuy := s.volBuy + t.vol
      dolBuy := s.dolBuy + t.price * t.vol
      cumTicks := s.cumTicks + 1
      cumVol := s.cumVol + t.vol
      cumDol := s.cumDol + t.price * t.vol }
  else if t.side = -1 then
    dirExtremes { s with
      ticksSell := s.ticksSell + 1
      volSell := s.volSell + t.vol
      dolSell := s.dolSell + t.price * t.vol
      cumTicks := s.cumTicks - 1
      cumVol := s.cumVol - t.vol
      cumDol := s.cumDol - t.price * t.vol }
  else s

/-- One output row of `comp_bar_directional_features`. -/
structure DirBar (K : Type) where
  ticksBuy : Int
  ticksSell : Int
  volBuy : K
  volSell : K
  dolBuy : K
  dolSell : K
  /-- `none`: the division `cum_spread / 0` of a bar without signed trades (NaN or inf, since the kernel is
  compiled with `parallel=True`, whose loop body uses NumPy's division). -/
  meanSpread : Option K
  maxSpread : K
  cumTicksMin : Int
  cumTicksMax : Int
  cumVolMin : K
  cumVolMax : K
  cumDolMin : K
  cumDolMax : K
deriving DecidableEq

/-- `bar/base.py:467-535`: one iteration of the `prange` loop.  Note that `trade_sides[start - 1]` and
`prices[j - 1]` may be read at index `-1`, which wraps to the last trade. -/
def dirBar (prices volumes : List K) (sides : List Int) (c₀ c₁ : Int) : DirBar K :=
  let start := c₀ + 1
  let stop := c₁
  let prev := if stop > start then pyGet sides 0 (start - 1) else 0
  let s := ((idxRange start stop).map (fun j =>
      { side := pyGet sides 0 j, price := pyGet prices 0 j, prevPrice := pyGet prices 0 (j - 1),
        vol := pyGet volumes 0 j : DirTick K })).foldl dirStep (dirInit prev)
  { ticksBuy := s.ticksBuy, ticksSell := s.ticksSell, volBuy := s.volBuy, volSell := s.volSell,
    dolBuy := s.dolBuy, dolSell := s.dolSell,
    meanSpread := if s.ticksBuy + s.ticksSell = 0 then none
      else some (s.cumSpread / ((s.ticksBuy + s.ticksSell : Int) : K)),
    maxSpread := s.maxSpread, cumTicksMin := s.cumTicksMin, cumTicksMax := s.cumTicksMax,
    cumVolMin := s.cumVolMin, cumVolMax := s.cumVolMax, cumDolMin := s.cumDolMin,
    cumDolMax := s.cumDolMax }

/-- `bar/base.py:409-546` `comp_bar_directional_features`. -/
def compBarDirectional (prices volumes : List K) (sides : List Int) (closes : List Int) :
    List (DirBar K) :=
  (closePairs closes).map (fun c => dirBar prices volumes sides c.1 c.2)

end FinML
