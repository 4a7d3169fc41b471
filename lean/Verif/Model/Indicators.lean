/-
Model of the numeric indicators in `finmlkit/feature/core/`: `ma.py`, `utils.py`, `momentum.py`, `volatility.py`,
`trend.py`, `reversion.py`, `correlation.py`, `time.py`, and the flow indicators of `volume.py`.

Simplifications: exact arithmetic; `none` is NaN; a loop that carries state from one position to the next is written as
the function giving its state after position `i`; `np.sqrt`, `np.log`, `np.exp`, `np.sin`, `np.cos` are parameters; windows
are at least 1.  Functions that do not test for NaN take finite inputs.
-/
import Verif.Model.Indexers
import Verif.Model.Bars
import Verif.Model.Label

namespace FinML

variable {K : Type} [Field K] [LinearOrder K]

/-! ## Helpers -/

/-- An output array of length `n` filled position by position. -/
def tabulate {β : Type} (n : Nat) (g : Nat → β) : List β := (List.range n).map g

/-- The slice `xs[i-w+1 : i+1]` (used for `i + 1 ≥ w`). -/
def window {α : Type} (xs : List α) (w i : Nat) : List α := (xs.drop (i + 1 - w)).take w

/-- The common shape `for i in range(window-1, n): out[i] = f(xs[i-window+1:i+1])`, NaN before. -/
def rolling {α β : Type} (xs : List α) (w : Nat) (f : List α → Option β) : List (Option β) :=
  tabulate xs.length (fun i => if i + 1 < w then none else f (window xs w i))

/-- `np.min` of a non-empty array. -/
def npMin (l : List K) : K := l.tail.foldl min (l.headD 0)

/-- `np.max` of a non-empty array. -/
def npMax (l : List K) : K := l.tail.foldl max (l.headD 0)

/-- Cumulative sum array: entry `i` is the sum of `f 0, …, f (i-1)`. -/
def cumAt {A : Type} [Zero A] [Add A] (f : Nat → A) : Nat → A
  | 0 => 0
  | i + 1 => cumAt f i + f i

/-! ## `ma.py` -/

/-- `ma.py:32-39`: numerator and denominator after position `t`; `q = 1 - alpha`. -/
def ewmaState (y : List K) (q : K) : Nat → K × K
  | 0 => (y.getD 0 0, 1)
  | t + 1 => (y.getD (t + 1) 0 + q * (ewmaState y q t).1, 1 + q * (ewmaState y q t).2)

/-- `ma.py:6-43` `ewma`. -/
def ewma (y : List K) (span : Nat) : Except String (List K) :=
  if span < 1 then .error "span size is less than or equal to 1. Please provide a span size greater than 1."
  else
    let alpha : K := 2 / ((span : K) + 1)
    .ok (tabulate y.length (fun t => (ewmaState y (1 - alpha) t).1 / (ewmaState y (1 - alpha) t).2))

/-- `ma.py:46-62` `sma`. -/
def sma (xs : List K) (w : Nat) : List (Option K) := rolling xs w (fun l => some (1 / (w : K) * l.sum))

/-! ## `utils.py` -/

/-- `utils.py:12-64` `comp_lagged_returns`; the window is in nanoseconds; `nan`/`pinf` are NaN and inf. -/
def laggedReturns (log : K → K) (ts : List Int) (close : List K) (w : Int) (isLog : Bool) : Except String (List (Ext K)) :=
  if w ≤ 0 then .error "The return window must be greater than zero."
  else
    let start := searchLeft ts (ts.getD 0 0 + w)
    .ok (tabulate close.length (fun i =>
      if i < start then .nan
      else
        let lag : Int := (searchRight ts (ts.getD i 0 - w) : Int) - 1
        if 0 ≤ lag ∧ lag < (i : Int) then
          let c := close.getD lag.toNat 0
          if c ≠ 0 then .fin (if isLog then log (close.getD i 0 / c) else close.getD i 0 / c - 1)
          else .pinf
        else .nan))

/-- `utils.py:82-88`: the z-score of the last element of a window, for `ddof < window`. -/
def zscoreWin (sqrt : K → K) (ddof : Nat) (l : List K) : Option K :=
  let mean := l.sum / (l.length : K)
  let var := (l.map (fun x => (x - mean) ^ 2)).sum / ((l.length : K) - (ddof : K))
  let std := sqrt var
  if std ≠ 0 then some ((l.getLastD 0 - mean) / std) else none

/-- `utils.py:67-90` `comp_zscore`. -/
def zscore (sqrt : K → K) (xs : List K) (w ddof : Nat) : List (Option K) := rolling xs w (zscoreWin sqrt ddof)

/-- `utils.py:92-108` `comp_burst_ratio`. -/
def burstRatio (xs : List K) (w : Nat) : List (Option K) :=
  rolling xs w (fun l => if npMedian l > 0 then some (l.getLastD 0 / npMedian l) else none)

/-- `utils.py:110-124` `pct_change`. -/
def pctChange (xs : List K) (p : Nat) : List (Option K) :=
  tabulate xs.length (fun t =>
    if t < p then none
    else
      let base := xs.getD (t - p) 0
      if base > 0 then some ((xs.getD t 0 - base) / base) else none)

/-! ## `momentum.py` -/

/-- `momentum.py:6-22` `roc` (prices are non-zero; a zero price raises in the compiled code). -/
def roc (xs : List K) (p : Nat) : List (Option K) :=
  tabulate xs.length (fun i => if i < p then none else some ((xs.getD i 0 - xs.getD (i - p) 0) / xs.getD (i - p) 0 * 100))

/-- `momentum.py:44-48,56-58`: gain at position `i`. -/
def gainAt (xs : List K) (i : Nat) : K := if xs.getD i 0 - xs.getD (i - 1) 0 > 0 then xs.getD i 0 - xs.getD (i - 1) 0 else 0

/-- `momentum.py:44-48,56-58`: loss at position `i`. -/
def lossAt (xs : List K) (i : Nat) : K := if xs.getD i 0 - xs.getD (i - 1) 0 < 0 then -(xs.getD i 0 - xs.getD (i - 1) 0) else 0

/-- `momentum.py:40-61`: average of `x` at position `w + m`: mean of the first `w` values, then Wilder smoothing. -/
def wilderAvg (x : Nat → K) (w : Nat) : Nat → K
  | 0 => ((List.range' 1 w).map x).sum / (w : K)
  | m + 1 => (((w : K) - 1) * wilderAvg x w m + x (w + (m + 1))) / (w : K)

/-- `momentum.py:52,63`: the RSI value. -/
def rsiVal (g l : K) : Option K := if l > 0 then some (100 - 100 / (1 + g / l)) else none

/-- `momentum.py:25-65` `rsi_wilder`. -/
def rsiWilder (xs : List K) (w : Nat) : List (Option K) :=
  tabulate xs.length (fun i => if i < w then none else rsiVal (wilderAvg (gainAt xs) w (i - w)) (wilderAvg (lossAt xs) w (i - w)))

/-- `momentum.py:91-108`: running minimum and maximum at position `length - 1 + m`. -/
def stochState (low high : List K) (len : Nat) : Nat → K × K
  | 0 => (npMin (window low len (len - 1)), npMax (window high len (len - 1)))
  | m + 1 =>
    let s := stochState low high len m
    let t := len + m
    if low.getD (t - len) 0 = s.1 ∨ high.getD (t - len) 0 = s.2 then (npMin (window low len t), npMax (window high len t))
    else (min s.1 (low.getD t 0), max s.2 (high.getD t 0))

/-- `momentum.py:94,110`: the %K value. -/
def stochVal (c : K) (s : K × K) : Option K := if s.2 > s.1 then some (100 * (c - s.1) / (s.2 - s.1)) else none

/-- `momentum.py:68-112` `stoch_k`. -/
def stochK (close low high : List K) (len : Nat) : List (Option K) :=
  tabulate close.length (fun t =>
    if t + 1 < len then none else stochVal (close.getD t 0) (stochState low high len (t + 1 - len)))

/-- `transforms.py:276-305` `StochK._nb`: the arguments are passed as `(high, low, close)`. -/
def stochKFeature (high low close : List K) (len : Nat) : List (Option K) := stochK high low close len

/-! ## `trend.py` -/

/-- `trend.py:32-36`: true range at `i ≥ 1`. -/
def trAt (high low close : List K) (i : Nat) : K :=
  max (max (high.getD i 0 - low.getD i 0) |high.getD i 0 - close.getD (i - 1) 0|) |low.getD i 0 - close.getD (i - 1) 0|

/-- `trend.py:39-46`: +DM at `i ≥ 1`. -/
def plusDm (high low : List K) (i : Nat) : K :=
  let hd := high.getD i 0 - high.getD (i - 1) 0
  let ld := low.getD (i - 1) 0 - low.getD i 0
  if hd > ld ∧ hd > 0 then hd else 0

/-- `trend.py:39-52`: -DM at `i ≥ 1`. -/
def minusDm (high low : List K) (i : Nat) : K :=
  let hd := high.getD i 0 - high.getD (i - 1) 0
  let ld := low.getD (i - 1) 0 - low.getD i 0
  if ld > hd ∧ ld > 0 then ld else 0

/-- `trend.py:59-69`: Wilder-smoothed sum at position `len + m`. -/
def wilderSum (x : Nat → K) (len : Nat) : Nat → K
  | 0 => ((List.range' 1 len).map x).sum
  | m + 1 => wilderSum x len m - wilderSum x len m / (len : K) + x (len + (m + 1))

/-- `trend.py:72-77`: a directional indicator at position `len + m`. -/
def diAt (tr dm : Nat → K) (len m : Nat) : K :=
  if wilderSum tr len m > 0 then 100 * (wilderSum dm len m / wilderSum tr len m) else 0

/-- `trend.py:79-83`: DX from the two indicators. -/
def dxVal (p m : K) : K := if p + m > 0 then 100 * (|p - m| / (p + m)) else 0

/-- `trend.py:80-83`: DX at position `i` (0 before `len`). -/
def dxAt (high low close : List K) (len i : Nat) : K :=
  if i < len then 0
  else dxVal (diAt (trAt high low close) (plusDm high low) len (i - len))
    (diAt (trAt high low close) (minusDm high low) len (i - len))

/-- `trend.py:88-94`: ADX at position `2 len - 1 + m`. -/
def adxState (dx : Nat → K) (len : Nat) : Nat → K
  | 0 => ((List.range' len len).map dx).sum / (len : K)
  | m + 1 => (adxState dx len m * ((len : K) - 1) + dx (2 * len + m)) / (len : K)

/-- `trend.py:8-96` `adx_core` (0, not NaN, before position `2 len - 1`). -/
def adxCore (high low close : List K) (len : Nat) : List K :=
  tabulate high.length (fun i => if i + 1 < 2 * len then 0 else adxState (dxAt high low close len) len (i + 1 - 2 * len))

/-! ## `reversion.py` -/

/-- `reversion.py:31-46`: rolling sums of `x` at position `np - 1 + m`. -/
def rollSumState (x : Nat → K) (np : Nat) : Nat → K
  | 0 => ((List.range np).map x).sum
  | m + 1 => rollSumState x np m + (x (np + m) - x m)

/-- `reversion.py:39-54`: the output at position `np - 1 + m`. -/
def vwapOut (log : K → K) (close volume : List K) (np : Nat) (isLog : Bool) : Nat → Option K
  | 0 =>
    let w := rollSumState (fun k => close.getD k 0 * volume.getD k 0) np 0
    let v := rollSumState (fun k => volume.getD k 0) np 0
    if v > 0 then some (close.getD (np - 1) 0 / (w / v) - 1) else none
  | m + 1 =>
    let w := rollSumState (fun k => close.getD k 0 * volume.getD k 0) np (m + 1)
    let v := rollSumState (fun k => volume.getD k 0) np (m + 1)
    if v > 0 then
      some (if isLog then log (close.getD (np + m) 0 / (w / v)) else close.getD (np + m) 0 / (w / v) - 1)
    else vwapOut log close volume np isLog m

/-- `reversion.py:9-56` `vwap_distance`. -/
def vwapDistance (log : K → K) (close volume : List K) (np : Nat) (isLog : Bool) : List (Option K) :=
  tabulate close.length (fun i => if i + 1 < np then none else vwapOut log close volume np isLog (i + 1 - np))

/-! ## `volume.py`, flow indicators -/

/-- `volume.py:572-607` `comp_flow_acceleration`; `eps` is `1e-12`. -/
def flowAcceleration (log : K → K) (eps : K) (v : List K) (w r : Nat) : List (Option K) :=
  if v.length < w ∨ r ≥ w then tabulate v.length (fun _ => none)
  else
    let s := cumAt (fun i => v.getD i 0)
    tabulate v.length (fun i =>
      if i + 1 < w then none
      else some (log ((s (i + 1) - s (i + 1 - r) + eps) / (s (i + 1 - r) - s (i + 1 - w) + eps))))

/-- `volume.py:625-632`: the values accumulated for one bar (0 if either side is NaN). -/
def vpinTerm (f : K → K → K) (b s : List (Option K)) (i : Nat) : K :=
  match b.getD i none, s.getD i none with
  | some x, some y => f x y
  | _, _ => 0

/-- `volume.py:627,632`: is one of the two volumes NaN? -/
def vpinNan (b s : List (Option K)) (i : Nat) : Nat :=
  match b.getD i none, s.getD i none with
  | some _, some _ => 0
  | _, _ => 1

/-- `volume.py:610-641` `vpin`; `eps` is `1e-9`. -/
def vpin (eps : K) (b s : List (Option K)) (w : Nat) : List (Option K) :=
  let bc := cumAt (vpinTerm (fun x _ => x) b s)
  let sc := cumAt (vpinTerm (fun _ y => y) b s)
  let ac := cumAt (vpinTerm (fun x y => |x - y|) b s)
  let nf := cumAt (vpinNan b s)
  tabulate b.length (fun i =>
    if w ≤ i + 1 ∧ nf (i + 1) - nf (i + 1 - w) = 0 then
      let tot := (bc (i + 1) - bc (i + 1 - w)) + (sc (i + 1) - sc (i + 1 - w))
      if tot > eps then some ((ac (i + 1) - ac (i + 1 - w)) / tot) else none
    else none)

/-! ## `correlation.py` -/

/-- `correlation.py:26-32`: simple returns, NaN when undefined. -/
def simpleReturn (price : List (Option K)) (i : Nat) : Option K :=
  if i = 0 then none
  else match price.getD i none, price.getD (i - 1) none with
    | some a, some b => if b ≠ 0 then some ((a - b) / b) else none
    | _, _ => none

/-- Float comparison `a <= b`, false if either is NaN. -/
def optLe (a b : Option K) : Bool :=
  match a, b with
  | some x, some y => decide (x ≤ y)
  | _, _ => false

/-- `correlation.py:45-55`: no `j` in `range(i-window+1, i)` has `xs[j+1] <= xs[j]`. -/
def noDecrease (xs : List (Option K)) (w i : Nat) : Bool :=
  (List.range' (i + 1 - w) (w - 1)).all (fun j => !optLe (xs.getD (j + 1) none) (xs.getD j none))

/-- `correlation.py:52`: no `j` has `xs[j+1] >= xs[j]`. -/
def noIncrease (xs : List (Option K)) (w i : Nat) : Bool :=
  (List.range' (i + 1 - w) (w - 1)).all (fun j => !optLe (xs.getD j none) (xs.getD (j + 1) none))

/-- Both coordinates, if both are present. -/
def bothSome (a b : Option K) : Option (K × K) :=
  match a, b with
  | some x, some y => some (x, y)
  | _, _ => none

/-- `correlation.py:71-75`: the valid pairs of the window. -/
def validPairs (price volume : List (Option K)) (w i : Nat) : List (K × K) :=
  (List.range' (i + 1 - w) w).filterMap (fun j => bothSome (simpleReturn price j) (volume.getD j none))

/-- `correlation.py:83-109`: correlation of the valid pairs, clamped. -/
def corrOf (sqrt : K → K) (l : List (K × K)) : Option K :=
  if l.length < 2 then none
  else
    let n := (l.length : K)
    let mr := (l.map (·.1)).sum / n
    let mv := (l.map (·.2)).sum / n
    let cov := (l.map (fun p => (p.1 - mr) * (p.2 - mv))).sum
    let sr := (l.map (fun p => (p.1 - mr) * (p.1 - mr))).sum
    let sv := (l.map (fun p => (p.2 - mv) * (p.2 - mv))).sum
    if sr > 0 ∧ sv > 0 then
      let c := cov / (sqrt sr * sqrt sv)
      some (if c > 1 then 1 else if c < -1 then -1 else c)
    else none

/-- `correlation.py:35-109`: one position. -/
def corrAt (sqrt : K → K) (price volume : List (Option K)) (w i : Nat) : Option K :=
  if i < w then none
  else if (simpleReturn price i).isNone ∨ (volume.getD i none).isNone then none
  else if 4 ≤ i ∧ i < 10 ∧ noDecrease price w i ∧ noDecrease volume w i then some 1
  else if 4 ≤ i ∧ i < 10 ∧ noDecrease price w i ∧ noIncrease volume w i then some (-1)
  else corrOf sqrt (validPairs price volume w i)

/-- `correlation.py:9-111` `rolling_price_volume_correlation`. -/
def priceVolumeCorrelation (sqrt : K → K) (price volume : List (Option K)) (w : Nat) : List (Option K) :=
  tabulate price.length (corrAt sqrt price volume w)

/-! ## `volatility.py` -/

/-- 1 for a value, 0 for NaN. -/
def validWeight : Option K → K
  | none => 0
  | some _ => 1

/-- The value, 0 for NaN. -/
def orZero : Option K → K
  | none => 0
  | some x => x

/-- The square, 0 for NaN. -/
def sqOrZero : Option K → K
  | none => 0
  | some x => x ^ 2

/-- State of `ewms`: sums of weights, squared weights, weighted values, weighted squares. -/
structure EwmAcc (K : Type) where
  sw : K
  sw2 : K
  sy : K
  sy2 : K

/-- `volatility.py:35-54`: the sums after the first `t` observations. -/
def ewmsState (y : List (Option K)) (q : K) : Nat → EwmAcc K
  | 0 => ⟨0, 0, 0, 0⟩
  | t + 1 =>
    let s := ewmsState y q t
    let v := y.getD t none
    ⟨q * s.sw + validWeight v, q ^ 2 * s.sw2 + validWeight v, q * s.sy + orZero v, q * s.sy2 + sqOrZero v⟩

/-- `volatility.py:56-67`: the (square-rooted) variance from the sums. -/
def ewmVal (sqrt : K → K) (s : EwmAcc K) : Option K :=
  if s.sw > 0 then
    let mean := s.sy / s.sw
    let den := s.sw - s.sw2 / s.sw
    if den > 0 then some (sqrt (max ((s.sy2 / s.sw - mean ^ 2) * s.sw / den) 0)) else none
  else none

/-- `volatility.py:9-69` `ewms`. -/
def ewms (sqrt : K → K) (y : List (Option K)) (span : Nat) : List (Option K) :=
  if span ≤ 1 then tabulate y.length (fun _ => none)
  else
    let alpha : K := 2 / ((span : K) + 1)
    tabulate y.length (fun t => ewmVal sqrt (ewmsState y (1 - alpha) (t + 1)))

/-- `volatility.py:108-114`: the decay factor of step `i` for the time since the previous sample; `decay dt` is
`exp(-dt / half_life)`. -/
def decayAt (decay : Int → K) (ts : List Int) (i : Nat) : K := decay (ts.getD i 0 - ts.getD (i - 1) 0)

/-- `volatility.py:100-124`: `(U, V)` after position `i`. -/
def ewmst0State (decay : Int → K) (ts : List Int) (y : List (Option K)) : Nat → K × K
  | 0 => (0, 0)
  | i + 1 =>
    let s := ewmst0State decay ts y i
    let q := decayAt decay ts (i + 1)
    match y.getD (i + 1) none with
    | none => (q * s.1, q * s.2)
    | some v => ((1 - q) * (v * v) + q * s.1, (1 - q) + q * s.2)

/-- `volatility.py:126-134`: floor of the standard deviation (`none` stays NaN). -/
def floorStd (sqrt : K → K) (floor : K) (var : K) : K :=
  let v := if var < 0 then 0 else var
  if sqrt v < floor then floor else sqrt v

/-- `volatility.py:72-136` `ewmst_mean0`. -/
def ewmstMean0 (sqrt : K → K) (decay : Int → K) (floor : K) (ts : List Int) (y : List (Option K)) : List (Option K) :=
  tabulate y.length (fun i =>
    if i = 0 then none
    else
      let s := ewmst0State decay ts y i
      if s.2 > 0 then some (floorStd sqrt floor (s.1 / s.2)) else none)

/-- `volatility.py:168-198`: the sums after position `i`.  The weight is added for NaN observations too. -/
def ewmstState (decay : Int → K) (ts : List Int) (y : List (Option K)) : Nat → EwmAcc K
  | 0 => ⟨0, 0, 0, 0⟩
  | i + 1 =>
    let s := ewmstState decay ts y i
    let q := decayAt decay ts (i + 1)
    let v := y.getD (i + 1) none
    ⟨(1 - q) + q * s.sw, (1 - q) * (1 - q) + q * q * s.sw2, (1 - q) * orZero v + q * s.sy, (1 - q) * sqOrZero v + q * s.sy2⟩

/-- `volatility.py:200-217`: the output from the sums. -/
def ewmstVal (sqrt : K → K) (floor : K) (s : EwmAcc K) : Option K :=
  if s.sw > 0 then
    let mean := s.sy / s.sw
    let raw := s.sy2 / s.sw - mean * mean
    let den := s.sw - s.sw2 / s.sw
    let var := if den > 0 ∧ raw > 0 then raw * (s.sw / den) else 0
    some (if sqrt var < floor then floor else sqrt var)
  else none

/-- `volatility.py:139-219` `ewmst`. -/
def ewmst (sqrt : K → K) (decay : Int → K) (floor : K) (ts : List Int) (y : List (Option K)) : List (Option K) :=
  tabulate y.length (fun i => if i = 0 then none else ewmstVal sqrt floor (ewmstState decay ts y i))

/-- `volatility.py:237-251`: one true range. -/
def trueRangeAt (high low close : List (Option K)) (i : Nat) : Option K :=
  if i = 0 then
    match high.getD 0 none, low.getD 0 none with
    | some h, some l => some (h - l)
    | _, _ => none
  else
    match high.getD i none, low.getD i none, close.getD (i - 1) none with
    | some h, some l, some c => some (max (max (h - l) |h - c|) |l - c|)
    | _, _, _ => none

/-- `volatility.py:222-253` `true_range`. -/
def trueRange (high low close : List (Option K)) : Except String (List (Option K)) :=
  if high.length = low.length ∧ low.length = close.length then .ok (tabulate high.length (trueRangeAt high low close))
  else .error "The length of high, low, and close prices must be the same."

/-- The values of a window that are not NaN. -/
def validOf (l : List (Option K)) : List K := l.filterMap id

/-- `volatility.py:275-284`: realised volatility of one window. -/
def realizedWin (sqrt : K → K) (isSample : Bool) (l : List (Option K)) : Option K :=
  let v := validOf l
  if v.length > 1 then
    some (sqrt ((v.map (fun x => x ^ 2)).sum / (if isSample then (v.length : K) - 1 else (v.length : K))))
  else none

/-- `volatility.py:256-286` `realized_vol`. -/
def realizedVol (sqrt : K → K) (r : List (Option K)) (w : Nat) (isSample : Bool) : List (Option K) :=
  rolling r w (realizedWin sqrt isSample)

/-- `volatility.py:320-325,331-336`: %B from the rolling sums. -/
def bollingerVal (sqrt : K → K) (w : Nat) (numStd c s q : K) : Option K :=
  let mean := s / (w : K)
  let var := (q - (w : K) * mean * mean) / ((w : K) - 1)
  let sd := sqrt (max var 0)
  let lower := mean - numStd * sd
  let upper := mean + numStd * sd
  if upper > lower then some ((c - lower) / (upper - lower)) else none

/-- `volatility.py:289-338` `bollinger_percent_b` (`window ≥ 2`; for 1 the compiled code divides by zero). -/
def bollingerB (sqrt : K → K) (close : List K) (w : Nat) (numStd : K) : List (Option K) :=
  tabulate close.length (fun i =>
    if i + 1 < w then none
    else bollingerVal sqrt w numStd (close.getD i 0) (rollSumState (fun k => close.getD k 0) w (i + 1 - w))
      (rollSumState (fun k => close.getD k 0 ^ 2) w (i + 1 - w)))

/-- `volatility.py:341-349` `parkinson_range`. -/
def parkinson (log : K → K) (high low : List K) : List K :=
  tabulate high.length (fun i => log (high.getD i 0 / low.getD i 0) ^ 2 / (log 2 * 4))

/-- Mean of the valid values of a window, NaN if there is none. -/
def validMean (l : List (Option K)) : Option K :=
  let v := validOf l
  if v.length > 0 then some (v.sum / (v.length : K)) else none

/-- `volatility.py:386-405`: EMA-based ATR at position `w - 1 + m`. -/
def atrEma (tr : List (Option K)) (w : Nat) : Nat → Option K
  | 0 => validMean (tr.take w)
  | m + 1 =>
    match tr.getD (w + m) none, atrEma tr w m with
    | some x, some a => some ((((w : K) - 1) * a + x) / (w : K))
    | _, _ => none

/-- `volatility.py:406-428`: SMA-based ATR at position `i`. -/
def atrSma (high low close tr : List (Option K)) (w i : Nat) : Option K :=
  if i = 2 ∧ (high.getD i none).isNone ∧ (low.getD i none).isNone ∧ (close.getD i none).isNone then none
  else validMean (window tr w i)

/-- `volatility.py:430-435`: normalisation by the mid price when it is valid and positive. -/
def atrNormalize (high low : List (Option K)) (i : Nat) (a : Option K) : Option K :=
  match a, high.getD i none, low.getD i none with
  | some x, some h, some l => if (h + l) / 2 > 0 then some (x / ((h + l) / 2)) else some x
  | a, _, _ => a

/-- `volatility.py:352-437` `atr`. -/
def atr (high low close : List (Option K)) (w : Nat) (ema normalize : Bool) : Except String (List (Option K)) :=
  match trueRange high low close with
  | .error e => .error e
  | .ok tr =>
    .ok (tabulate high.length (fun i =>
      let a := if i + 1 < w then none else if ema then atrEma tr w (i + 1 - w) else atrSma high low close tr w i
      if normalize then atrNormalize high low i a else a))

/-- `volatility.py:459-476`: variance of one window. -/
def varWin (ddof minPeriods : Nat) (l : List (Option K)) : Option K :=
  let v := validOf l
  if v.length ≥ minPeriods then
    if v.length > ddof then
      let n := (v.length : K)
      let mean := v.sum / n
      let var := (v.map (fun x => x * x)).sum / n - mean * mean
      some (max 0 (var * (n / (n - (ddof : K)))))
    else none
  else none

/-- `volatility.py:440-478` `rolling_variance_nb`. -/
def rollingVariance (xs : List (Option K)) (w ddof minPeriods : Nat) : List (Option K) :=
  rolling xs w (varWin ddof minPeriods)

/-- `volatility.py:502-517`: one-bar returns. -/
def vrReturn (log : K → K) (isLog : Bool) (price : List (Option K)) (i : Nat) : Option K :=
  if i = 0 then none
  else match price.getD i none, price.getD (i - 1) none with
    | some a, some b =>
      if isLog then (if b ≤ 0 ∨ a ≤ 0 then none else some (log (a / b)))
      else (if b ≤ 0 then none else some (a / b - 1))
    | _, _ => none

/-- `volatility.py:522-528`: four-bar returns. -/
def vrReturn4 (r : List (Option K)) (i : Nat) : Option K :=
  if i < 4 then none
  else match r.getD i none, r.getD (i - 1) none, r.getD (i - 2) none, r.getD (i - 3) none with
    | some a, some b, some c, some d => some (a + b + c + d)
    | _, _, _, _ => none

/-- `volatility.py:533-538`: the ratio. -/
def vrVal (v1 v4 : Option K) : Option K :=
  match v1, v4 with
  | some a, some b => if b > 0 then some (a / (b / 4)) else none
  | _, _ => none

/-- `volatility.py:481-540` `variance_ratio_1_4_core` (`min_periods` has its default 1). -/
def varianceRatio (log : K → K) (isLog : Bool) (price : List (Option K)) (w ddof : Nat) : List (Option K) :=
  if price.length < w + 4 then tabulate price.length (fun _ => none)
  else
    let r1 := tabulate price.length (vrReturn log isLog price)
    let r4 := tabulate price.length (vrReturn4 r1)
    let v1 := rollingVariance r1 w ddof 1
    let v4 := rollingVariance r4 w ddof 1
    tabulate price.length (fun i => vrVal (v1.getD i none) (v4.getD i none))

/-! ## `time.py` -/

/-- One output row of `time_cues`: phases as fractions of the period, and the flags. -/
structure TimeCue where
  secInDay : Int
  dayWeek : Int
  asia : Bool
  eu : Bool
  us : Bool
  trans : Bool
  topHour : Bool
deriving DecidableEq

/-- `time.py:27-60`; the sine and cosine features are functions of `secInDay` and `dayWeek`. -/
def timeCue (t : Int) : TimeCue :=
  let ts := t / 1000000000
  let sec := ts % 86400
  let dw := (ts / 86400 + 3) % 7
  let hour := sec / 3600
  let minute := sec % 3600 / 60
  { secInDay := sec
    dayWeek := dw
    asia := decide (0 ≤ hour ∧ hour < 8)
    eu := decide (7 ≤ hour ∧ hour < 15)
    us := decide (13 ≤ hour ∧ hour < 21)
    trans := decide ((hour = 0 ∨ hour = 7 ∨ hour = 13) ∧ minute = 0)
    topHour := decide (minute = 0) }

/-- `time.py:5-62` `time_cues`: sine and cosine of the time of day and of the day of the week, then the flags; `pi2` is
`2 * np.pi`. -/
def timeCues (sin cos : K → K) (pi2 : K) (ts : List Int) : List (K × K × K × K × TimeCue) :=
  ts.map (fun t =>
    let c := timeCue t
    (sin (pi2 * ((c.secInDay : K) / 86400)), cos (pi2 * ((c.secInDay : K) / 86400)),
      sin (pi2 * ((c.dayWeek : K) / 7)), cos (pi2 * ((c.dayWeek : K) / 7)), c))

end FinML
