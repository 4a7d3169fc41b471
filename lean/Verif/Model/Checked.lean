/-
The compiled loops of the bar code with every array access checked.  `@njit` code runs without bounds checks: an index outside
the array reads or overwrites foreign memory, and a negative index wraps around.  Here an access outside `0 ≤ i < len` ends the
run with `none`; the loops keep the order of statements of the source, with the working arrays they write.
-/
import Verif.Model.Bars
import Verif.Model.Indexers
import Verif.Model.Footprint

namespace FinML

variable {K : Type} [Field K] [LinearOrder K]

/-- `xs[i]`, `none` outside the array. -/
def rd {α : Type} (xs : List α) (i : Int) : Option α := if i < 0 then none else xs[i.toNat]?

/-- `xs[i] = v`, `none` outside the array. -/
def wr {α : Type} (xs : List α) (i : Int) (v : α) : Option (List α) :=
  if 0 ≤ i ∧ i < (xs.length : Int) then some (xs.set i.toNat v) else none

/-- State of the inner loop of `comp_bar_ohlcv`: the running values, `trade_sizes` and `trade_idx` (`bar/base.py:366-374`). -/
structure OhlcvRun (K : Type) where
  acc : OhlcvAcc K
  sizes : List K
  idx : Int

/-- `bar/base.py:377-391`: one trade. -/
def ohlcvStepChk (prices volumes : List K) (s : OhlcvRun K) (j : Int) : Option (OhlcvRun K) := do
  let price ← rd prices j
  let volume ← rd volumes j
  let sizes ← wr s.sizes s.idx volume
  some ⟨ohlcvStep s.acc (price, volume), sizes, s.idx + 1⟩

/-- `bar/base.py:347-405`: one bar.  `np.zeros` of a negative size raises. -/
def ohlcvBarChk (prices volumes : List K) (start stop : Int) : Option (Ohlcv K) :=
  if start = stop then do
    let p ← rd prices stop
    some { opn := p, high := p, low := p, close := p, volume := 0, vwap := 0, trades := 0, median := 0 }
  else do
    let start := start + 1
    let p0 ← rd prices start
    let count := stop - start + 1
    if count < 0 then none
    else do
      let s ← (idxRange start stop).foldlM (ohlcvStepChk prices volumes)
        ⟨{ high := p0, low := p0, vol := 0, dollar := 0 }, List.replicate count.toNat 0, 0⟩
      let close ← rd prices stop
      some { opn := p0, high := s.acc.high, low := s.acc.low, close := close, volume := s.acc.vol,
             vwap := if s.acc.vol > 0 then s.acc.dollar / s.acc.vol else 0, trades := count,
             median := if count > 0 then npMedian s.sizes else 0 }

/-- The outer loop over the bars, `bar/base.py:347-349`, `:467-469`, `:683-685`: `for i in range(len(closes) - 1)` with
`closes[i]` and `closes[i + 1]`. -/
def barsChk {β : Type} (body : Int → Int → Option β) (closes : List Int) : Option (List β) :=
  (List.range (closes.length - 1)).mapM (fun i : Nat => do
    let a ← rd closes (i : Int)
    let b ← rd closes ((i : Int) + 1)
    body a b)

/-- `bar/base.py:306-407` `comp_bar_ohlcv`. -/
def compBarOhlcvChk (prices volumes : List K) (closes : List Int) : Option (Except String (List (Ohlcv K))) :=
  if prices.length ≠ volumes.length then some (.error "Prices and volumes arrays must have the same length.")
  else if closes.length < 2 then some (.error "Bar close indices must contain at least two elements.")
  else (barsChk (ohlcvBarChk prices volumes) closes).map .ok

/-- `bar/base.py:491-527`: one trade.  Prices and volumes are read only where the source reads them. -/
def dirStepChk (prices volumes : List K) (sides : List Int) (s : DirAcc K) (j : Int) : Option (DirAcc K) := do
  let side ← rd sides j
  let s ←
    if side ≠ s.prevSign then do
      let p ← rd prices j
      let q ← rd prices (j - 1)
      let spread := |p - q|
      some { s with
             maxSpread := if spread > s.maxSpread then spread else s.maxSpread
             cumSpread := s.cumSpread + spread
             prevSign := side }
    else some { s with prevSign := side }
  if side = 1 then do
    let v ← rd volumes j
    let p ← rd prices j
    some (dirExtremes { s with
      ticksBuy := s.ticksBuy + 1
      volBuy := s.volBuy + v
      dolBuy := s.dolBuy + p * v
      cumTicks := s.cumTicks + 1
      cumVol := s.cumVol + v
      cumDol := s.cumDol + p * v })
  else if side = -1 then do
    let v ← rd volumes j
    let p ← rd prices j
    some (dirExtremes { s with
      ticksSell := s.ticksSell + 1
      volSell := s.volSell + v
      dolSell := s.dolSell + p * v
      cumTicks := s.cumTicks - 1
      cumVol := s.cumVol - v
      cumDol := s.cumDol - p * v })
  else some s

/-- `bar/base.py:529-536`: the entries of the output arrays. -/
def dirOut (s : DirAcc K) : DirBar K :=
  { ticksBuy := s.ticksBuy, ticksSell := s.ticksSell, volBuy := s.volBuy, volSell := s.volSell,
    dolBuy := s.dolBuy, dolSell := s.dolSell,
    meanSpread := if s.ticksBuy + s.ticksSell = 0 then none else some (s.cumSpread / ((s.ticksBuy + s.ticksSell : Int) : K)),
    maxSpread := s.maxSpread, cumTicksMin := s.cumTicksMin, cumTicksMax := s.cumTicksMax,
    cumVolMin := s.cumVolMin, cumVolMax := s.cumVolMax, cumDolMin := s.cumDolMin, cumDolMax := s.cumDolMax }

/-- `bar/base.py:467-536`: one bar. -/
def dirBarChk (prices volumes : List K) (sides : List Int) (c₀ c₁ : Int) : Option (DirBar K) := do
  let start := c₀ + 1
  let prev ← if c₁ > start then rd sides (start - 1) else some 0
  let s ← (idxRange start c₁).foldlM (dirStepChk prices volumes sides) (dirInit prev)
  some (dirOut s)

/-- `bar/base.py:409-546` `comp_bar_directional_features`. -/
def compBarDirectionalChk (prices volumes : List K) (sides : List Int) (closes : List Int) : Option (List (DirBar K)) :=
  barsChk (dirBarChk prices volumes sides) closes

/-- `bar/base.py:700-719`: one trade of a footprint, with the level arrays written through checked accesses. -/
def levelStepChk (rnd : K → Int) (prices amounts : List K) (sides : List Int) (low : Int) (n : Nat) (st : Levels K) (j : Int) :
    Option (Except String (Levels K)) := do
  let price ← rd prices j
  let side ← rd sides j
  let amount ← rd amounts j
  let idx := rnd price - low
  if 0 ≤ idx ∧ idx < n then
    if side = 1 then do
      let v ← rd st.buyVol idx
      let bv ← wr st.buyVol idx (v + amount)
      let t ← rd st.buyTicks idx
      let bt ← wr st.buyTicks idx (t + 1)
      some (.ok { st with buyVol := bv, buyTicks := bt })
    else if side = -1 then do
      let v ← rd st.sellVol idx
      let sv ← wr st.sellVol idx (v + amount)
      let t ← rd st.sellTicks idx
      let s' ← wr st.sellTicks idx (t + 1)
      some (.ok { st with sellVol := sv, sellTicks := s' })
    else some (.ok st)
  else some (.error "Something went wrong! Invalid price level index!")

/-- `bar/base.py:700-719`: the loop over the trades of one bar; an exception ends it. -/
def levelLoopChk (rnd : K → Int) (prices amounts : List K) (sides : List Int) (low : Int) (n : Nat) :
    List Int → Levels K → Option (Except String (Levels K))
  | [], st => some (.ok st)
  | j :: js, st =>
    match levelStepChk rnd prices amounts sides low n st j with
    | none => none
    | some (.error e) => some (.error e)
    | some (.ok st) => levelLoopChk rnd prices amounts sides low n js st

/-- `bar/logic.py:87-115` `_volume_bar_indexer`: the loop over `i`, with `cum` and the list of indices. -/
def volumeLoopChk (volumes : List K) (threshold : K) : List Nat → K → List Nat → Option (List Nat)
  | [], _, out => some out
  | i :: is, cum, out =>
    match rd volumes (i : Int) with
    | none => none
    | some v =>
      if cum + v ≥ threshold then volumeLoopChk volumes threshold is 0 (out ++ [i])
      else volumeLoopChk volumes threshold is (cum + v) out

/-- `bar/logic.py:101-115`. -/
def volumeBarIndexerChk (volumes : List K) (threshold : K) : Option (List Nat) := do
  let v0 ← rd volumes 0
  volumeLoopChk volumes threshold (List.range' 1 (volumes.length - 1)) v0 [0]

/-- `bar/logic.py:143-147`. -/
def dollarLoopChk (prices volumes : List K) (threshold : K) : List Nat → K → List Nat → Option (List Nat)
  | [], _, out => some out
  | i :: is, cum, out =>
    match rd prices (i : Int), rd volumes (i : Int) with
    | some p, some v =>
      if cum + p * v ≥ threshold then dollarLoopChk prices volumes threshold is (cum + p * v - threshold) (out ++ [i])
      else dollarLoopChk prices volumes threshold is (cum + p * v) out
    | _, _ => none

/-- `bar/logic.py:135-149` `_dollar_bar_indexer`: `n` is the number of prices. -/
def dollarBarIndexerChk (prices volumes : List K) (threshold : K) : Option (List Nat) := do
  let p0 ← rd prices 0
  let v0 ← rd volumes 0
  dollarLoopChk prices volumes threshold (List.range' 1 (prices.length - 1)) (p0 * v0) [0]

/-- `bar/logic.py:180-184`: the search for the first number in `sigma`; `0` if there is none. -/
def firstNumberChk (sigma : List (Option K)) : List Nat → Option Nat
  | [] => some 0
  | i :: is =>
    match rd sigma (i : Int) with
    | none => none
    | some none => firstNumberChk sigma is
    | some (some _) => some i

/-- `bar/logic.py:187-189`: the fill in place, `sigma[i] = sigma[i-1]` where `sigma[i]` is NaN. -/
def fillChk : List Nat → List (Option K) → Option (List (Option K))
  | [], sigma => some sigma
  | i :: is, sigma =>
    match rd sigma (i : Int) with
    | none => none
    | some (some _) => fillChk is sigma
    | some none =>
      match rd sigma ((i : Int) - 1) with
      | none => none
      | some v =>
        match wr sigma (i : Int) v with
        | none => none
        | some sigma => fillChk is sigma

/-- `bar/logic.py:207`: `i + 1 < n and timestamps[i] == timestamps[i + 1]`. -/
def sameTimeChk (ts : List Int) (n i : Nat) : Option Bool :=
  if i + 1 < n then
    match rd ts (i : Int), rd ts ((i : Int) + 1) with
    | some a, some b => some (decide (a = b))
    | _, _ => none
  else some false

/-- `bar/logic.py:198-219`: the main loop over `i`. -/
def cusumBarLoopChk (log : K → K) (ts : List Int) (prices : List K) (sigma : List (Option K)) (sigmaFloor sigmaMult : K) :
    List Nat → K → K → List Nat → Option (List Nat)
  | [], _, _, out => some out
  | i :: is, sPos, sNeg, out =>
    match rd prices (i : Int), rd prices ((i : Int) - 1) with
    | some p, some q =>
      let ret := log (p / q)
      let sPos := max 0 (sPos + ret)
      let sNeg := min 0 (sNeg + ret)
      match sameTimeChk ts prices.length i with
      | none => none
      | some true => cusumBarLoopChk log ts prices sigma sigmaFloor sigmaMult is sPos sNeg out
      | some false =>
        match rd sigma (i : Int) with
        | none => none
        | some none => cusumBarLoopChk log ts prices sigma sigmaFloor sigmaMult is sPos sNeg out
        | some (some s) =>
          let lam := max (sigmaMult * s) sigmaFloor
          if sPos ≥ lam then cusumBarLoopChk log ts prices sigma sigmaFloor sigmaMult is 0 sNeg (out ++ [i])
          else if sNeg ≤ -lam then cusumBarLoopChk log ts prices sigma sigmaFloor sigmaMult is sPos 0 (out ++ [i])
          else cusumBarLoopChk log ts prices sigma sigmaFloor sigmaMult is sPos sNeg out
    | _, _ => none

/-- `bar/logic.py:152-221` `_cusum_bar_indexer`. -/
def cusumBarIndexerChk (log : K → K) (ts : List Int) (prices : List K) (sigma : List (Option K)) (sigmaFloor sigmaMult : K) :
    Option (Except String (List Nat)) :=
  if prices.length ≠ sigma.length ∧ sigma.length ≠ ts.length then
    some (.error "Prices, timestamps, and sigma arrays must have the same length.")
  else do
    let f ← firstNumberChk sigma (List.range sigma.length)
    let filled ← fillChk (List.range' f (prices.length - f)) sigma
    let out ← cusumBarLoopChk log ts prices filled sigmaFloor sigmaMult (List.range' (f + 1) (prices.length - (f + 1))) 0 0 [f]
    some (.ok out)

end FinML
