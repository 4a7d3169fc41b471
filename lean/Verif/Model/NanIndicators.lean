/-
The indicators of `finmlkit/feature/core` that do not test for NaN, on inputs with missing values (`none` is NaN): arithmetic
with a NaN is NaN, comparisons with a NaN are false, the compiled `max(a, b)` is `b` if `b > a` and otherwise `a`, and `np.min`,
`np.max`, `np.sum` of an array with a NaN are NaN.  Simplifications as in `Model/Indicators`.  `comp_burst_ratio` is not here: the
compiled `np.median` does not treat NaN as NumPy does.
-/
import Verif.Model.CusumTest
import Verif.Model.PandasFeatures

namespace FinML

variable {K : Type} [Field K] [LinearOrder K]

/-- Arithmetic: NaN if either operand is. -/
def nan2 (f : K → K → K) : Option K → Option K → Option K
  | some a, some b => some (f a b)
  | _, _ => none

/-- `a > b`, false with a NaN. -/
def nanGt : Option K → Option K → Bool
  | some a, some b => decide (b < a)
  | _, _ => false

/-- `a <= b`, false with a NaN. -/
def nanLe : Option K → Option K → Bool
  | some a, some b => decide (a ≤ b)
  | _, _ => false

/-- `a == b`, false with a NaN. -/
def nanEq : Option K → Option K → Bool
  | some a, some b => decide (a = b)
  | _, _ => false

/-- Compiled `max(a, b)`. -/
def pyMax (a b : Option K) : Option K := if nanGt b a then b else a

/-- Compiled `min(a, b)`. -/
def pyMin (a b : Option K) : Option K := if nanGt a b then b else a

/-- `np.sum`. -/
def nanSum (l : List (Option K)) : Option K := l.foldl (nan2 (· + ·)) (some 0)

/-- `ma.py:46-62` `sma`. -/
def smaNan (xs : List (Option K)) (w : Nat) : List (Option K) := rolling xs w (fun l => (nanSum l).map (1 / (w : K) * ·))

/-- `utils.py:82-88`: one window; `std != 0` holds for a NaN. -/
def zscoreWinNan (sqrt : K → K) (ddof : Nat) (l : List (Option K)) : Option K :=
  let mean := (nanSum l).map (· / (l.length : K))
  let var := (nanSum (l.map (fun x => (nan2 (· - ·) x mean).map (· ^ 2)))).map (· / ((l.length : K) - (ddof : K)))
  let std := var.map sqrt
  if nanEq std (some 0) then none else nan2 (· / ·) (nan2 (· - ·) (l.getLastD none) mean) std

/-- `utils.py:67-90` `comp_zscore`. -/
def zscoreNan (sqrt : K → K) (xs : List (Option K)) (w ddof : Nat) : List (Option K) := rolling xs w (zscoreWinNan sqrt ddof)

/-- `utils.py:110-124` `pct_change`. -/
def pctChangeNan (xs : List (Option K)) (p : Nat) : List (Option K) :=
  tabulate xs.length (fun t =>
    if t < p then none
    else
      let base := xs.getD (t - p) none
      if nanGt base (some 0) then nan2 (· / ·) (nan2 (· - ·) (xs.getD t none) base) base else none)

/-- `momentum.py:6-22` `roc`. -/
def rocNan (xs : List (Option K)) (p : Nat) : List (Option K) :=
  tabulate xs.length (fun i =>
    if i < p then none
    else (nan2 (· / ·) (nan2 (· - ·) (xs.getD i none) (xs.getD (i - p) none)) (xs.getD (i - p) none)).map (· * 100))

/-- `volatility.py:341-349` `parkinson_range`. -/
def parkinsonNan (log : K → K) (high low : List (Option K)) : List (Option K) :=
  tabulate high.length (fun i => (nan2 (fun h l => log (h / l)) (high.getD i none) (low.getD i none)).map (fun r => r ^ 2 / (log 2 * 4)))

/-- `volume.py:597-600`: prefix sums. -/
def cumNan (v : List (Option K)) : Nat → Option K
  | 0 => some 0
  | i + 1 => nan2 (· + ·) (cumNan v i) (v.getD i none)

/-- `volume.py:572-607` `comp_flow_acceleration`. -/
def flowNan (log : K → K) (eps : K) (v : List (Option K)) (w r : Nat) : List (Option K) :=
  if v.length < w ∨ r ≥ w then tabulate v.length (fun _ => none)
  else
    let s := cumNan v
    tabulate v.length (fun i =>
      if i + 1 < w then none
      else nan2 (fun a b => log ((a + eps) / (b + eps))) (nan2 (· - ·) (s (i + 1)) (s (i + 1 - r)))
        (nan2 (· - ·) (s (i + 1 - r)) (s (i + 1 - w))))

/-- `reversion.py:31-46`, `volatility.py:312-331`: rolling sums of `x` at position `np - 1 + m`. -/
def rollSumNan (x : Nat → Option K) (np : Nat) : Nat → Option K
  | 0 => nanSum ((List.range np).map x)
  | m + 1 => nan2 (· + ·) (rollSumNan x np m) (nan2 (· - ·) (x (np + m)) (x m))

/-- `volatility.py:289-338` `bollinger_percent_b`: with a NaN in either sum, `mean`, `sd` and the bands are NaN and `upper > lower`
is false. -/
def bollingerNan (sqrt : K → K) (close : List (Option K)) (w : Nat) (numStd : K) : List (Option K) :=
  tabulate close.length (fun i =>
    if i + 1 < w then none
    else
      match close.getD i none, rollSumNan (fun k => close.getD k none) w (i + 1 - w),
        rollSumNan (fun k => (close.getD k none).map (· ^ 2)) w (i + 1 - w) with
      | some c, some s, some q => bollingerVal sqrt w numStd c s q
      | _, _, _ => none)

/-- `reversion.py:39-54`: the output at position `np - 1 + m`; without `vsum > 0` the previous output is repeated. -/
def vwapOutNan (log : K → K) (close volume : List (Option K)) (np : Nat) (isLog : Bool) : Nat → Option K
  | 0 =>
    let w := rollSumNan (fun k => nan2 (· * ·) (close.getD k none) (volume.getD k none)) np 0
    let v := rollSumNan (fun k => volume.getD k none) np 0
    if nanGt v (some 0) then (nan2 (· / ·) (close.getD (np - 1) none) (nan2 (· / ·) w v)).map (· - 1) else none
  | m + 1 =>
    let w := rollSumNan (fun k => nan2 (· * ·) (close.getD k none) (volume.getD k none)) np (m + 1)
    let v := rollSumNan (fun k => volume.getD k none) np (m + 1)
    if nanGt v (some 0) then
      (nan2 (· / ·) (close.getD (np + m) none) (nan2 (· / ·) w v)).map (fun q => if isLog then log q else q - 1)
    else vwapOutNan log close volume np isLog m

/-- `reversion.py:9-56` `vwap_distance`. -/
def vwapNan (log : K → K) (close volume : List (Option K)) (np : Nat) (isLog : Bool) : List (Option K) :=
  tabulate close.length (fun i => if i + 1 < np then none else vwapOutNan log close volume np isLog (i + 1 - np))

/-- Difference of neighbours, `momentum.py:44`, `:56`. -/
def diffNan (xs : List (Option K)) (i : Nat) : Option K := nan2 (· - ·) (xs.getD i none) (xs.getD (i - 1) none)

/-- `momentum.py:45-46`, `:57`: gain (0 for a NaN difference). -/
def gainNan (xs : List (Option K)) (i : Nat) : Option K := if nanGt (diffNan xs i) (some 0) then diffNan xs i else some 0

/-- `momentum.py:47-48`: loss in the first window, where the `else` branch also takes a NaN difference. -/
def lossFirstNan (xs : List (Option K)) (i : Nat) : Option K := if nanGt (diffNan xs i) (some 0) then some 0 else (diffNan xs i).map (- ·)

/-- `momentum.py:58`: loss after the first window (0 for a NaN difference). -/
def lossNan (xs : List (Option K)) (i : Nat) : Option K := if nanGt (some 0) (diffNan xs i) then (diffNan xs i).map (- ·) else some 0

/-- `momentum.py:50-51`, `:60-61`: average at position `w + m`. -/
def wilderNan (x0 x : Nat → Option K) (w : Nat) : Nat → Option K
  | 0 => (nanSum ((List.range' 1 w).map x0)).map (· / (w : K))
  | m + 1 => nan2 (fun a b => (((w : K) - 1) * a + b) / (w : K)) (wilderNan x0 x w m) (x (w + (m + 1)))

/-- `momentum.py:52`, `:63`. -/
def rsiValNan (g l : Option K) : Option K := if nanGt l (some 0) then nan2 (fun g l => 100 - 100 / (1 + g / l)) g l else none

/-- `momentum.py:25-65` `rsi_wilder`. -/
def rsiNan (xs : List (Option K)) (w : Nat) : List (Option K) :=
  tabulate xs.length (fun i => if i < w then none else
    rsiValNan (wilderNan (gainNan xs) (gainNan xs) w (i - w)) (wilderNan (lossFirstNan xs) (lossNan xs) w (i - w)))

/-- `momentum.py:91-108`: running minimum and maximum at position `length - 1 + m`. -/
def stochStateNan (low high : List (Option K)) (len : Nat) : Nat → Option K × Option K
  | 0 => ((allSome (window low len (len - 1))).map npMin, (allSome (window high len (len - 1))).map npMax)
  | m + 1 =>
    let s := stochStateNan low high len m
    let t := len + m
    if nanEq (low.getD (t - len) none) s.1 || nanEq (high.getD (t - len) none) s.2 then
      ((allSome (window low len t)).map npMin, (allSome (window high len t)).map npMax)
    else (pyMin s.1 (low.getD t none), pyMax s.2 (high.getD t none))

/-- `momentum.py:94`, `:110`. -/
def stochValNan (c : Option K) (s : Option K × Option K) : Option K :=
  if nanGt s.2 s.1 then nan2 (· / ·) ((nan2 (· - ·) c s.1).map (100 * ·)) (nan2 (· - ·) s.2 s.1) else none

/-- `momentum.py:68-112` `stoch_k`. -/
def stochNan (close low high : List (Option K)) (len : Nat) : List (Option K) :=
  tabulate close.length (fun t =>
    if t + 1 < len then none else stochValNan (close.getD t none) (stochStateNan low high len (t + 1 - len)))

/-- `trend.py:32-36`: true range at `i ≥ 1`. -/
def trNan (high low close : List (Option K)) (i : Nat) : Option K :=
  pyMax (pyMax (nan2 (· - ·) (high.getD i none) (low.getD i none))
    ((nan2 (· - ·) (high.getD i none) (close.getD (i - 1) none)).map (fun x => |x|)))
    ((nan2 (· - ·) (low.getD i none) (close.getD (i - 1) none)).map (fun x => |x|))

/-- `trend.py:39-46`: +DM at `i ≥ 1`. -/
def plusDmNan (high low : List (Option K)) (i : Nat) : Option K :=
  let hd := nan2 (· - ·) (high.getD i none) (high.getD (i - 1) none)
  let ld := nan2 (· - ·) (low.getD (i - 1) none) (low.getD i none)
  if nanGt hd ld && nanGt hd (some 0) then hd else some 0

/-- `trend.py:39-52`: -DM at `i ≥ 1`. -/
def minusDmNan (high low : List (Option K)) (i : Nat) : Option K :=
  let hd := nan2 (· - ·) (high.getD i none) (high.getD (i - 1) none)
  let ld := nan2 (· - ·) (low.getD (i - 1) none) (low.getD i none)
  if nanGt ld hd && nanGt ld (some 0) then ld else some 0

/-- `trend.py:59-69`: Wilder-smoothed sum at position `len + m`. -/
def wilderSumNan (x : Nat → Option K) (len : Nat) : Nat → Option K
  | 0 => nanSum ((List.range' 1 len).map x)
  | m + 1 => nan2 (· + ·) (nan2 (· - ·) (wilderSumNan x len m) ((wilderSumNan x len m).map (· / (len : K)))) (x (len + (m + 1)))

/-- `trend.py:72-77`: a directional indicator at position `len + m`. -/
def diNan (tr dm : Nat → Option K) (len m : Nat) : Option K :=
  if nanGt (wilderSumNan tr len m) (some 0) then (nan2 (· / ·) (wilderSumNan dm len m) (wilderSumNan tr len m)).map (100 * ·) else some 0

/-- `trend.py:79-83`. -/
def dxValNan (p m : Option K) : Option K :=
  if nanGt (nan2 (· + ·) p m) (some 0) then
    (nan2 (· / ·) ((nan2 (· - ·) p m).map (fun x => |x|)) (nan2 (· + ·) p m)).map (100 * ·)
  else some 0

/-- `trend.py:80-83`: DX at position `i` (0 before `len`). -/
def dxNan (high low close : List (Option K)) (len i : Nat) : Option K :=
  if i < len then some 0
  else dxValNan (diNan (trNan high low close) (plusDmNan high low) len (i - len))
    (diNan (trNan high low close) (minusDmNan high low) len (i - len))

/-- `trend.py:88-94`: ADX at position `2 len - 1 + m`. -/
def adxStateNan (dx : Nat → Option K) (len : Nat) : Nat → Option K
  | 0 => (nanSum ((List.range' len len).map dx)).map (· / (len : K))
  | m + 1 => (nan2 (· + ·) ((adxStateNan dx len m).map (· * ((len : K) - 1))) (dx (2 * len + m))).map (· / (len : K))

/-- `trend.py:8-96` `adx_core`. -/
def adxNan (high low close : List (Option K)) (len : Nat) : List (Option K) :=
  tabulate high.length (fun i => if i + 1 < 2 * len then some 0 else adxStateNan (dxNan high low close len) len (i + 1 - 2 * len))

/-- `cusum.py:42-59`: one start index; `max(0, dyn)` and `min(0, dyn)` give 0 for a NaN. -/
def sntStepNan (lg sq : K → K) (y : List (Option K)) (t : Nat) (sigma : Option K) (s : Snt K) (n : Nat) : Snt K :=
  let dyn := nan2 (· - ·) (y.getD t none) (y.getD n none)
  let den := sigma.map (· * sq ((t - n : Nat) : K))
  if nanLe den (some (1 / 10 ^ 16)) then s
  else
    let u := nan2 (· / ·) (pyMax (some 0) dyn) den
    let d := nan2 (· / ·) ((pyMin (some 0) dyn).map (- ·)) den
    let s1 := match u with
      | some u => if u > s.up then { s with up := u, critUp := sq (46 / 10 + lg ((t - n : Nat) : K)) } else s
      | none => s
    match d with
      | some d => if d > s1.down then { s1 with down := d, critDown := sq (46 / 10 + lg ((t - n : Nat) : K)) } else s1
      | none => s1

/-- `cusum.py:11-66` `_comp_max_s_nt`. -/
def compMaxSntNan (lg sq : K → K) (y : List (Option K)) (t : Nat) (sigma : Option K) : Snt K :=
  if t < 1 ∨ nanLe sigma (some 0) then sntInit
  else ((List.range (t - 2)).map (· + 1)).foldl (sntStepNan lg sq y t sigma) sntInit

/-- `cusum.py:115-121`, `:162-169`: the statistic at index `t` of a log-price series. -/
def sntAtNan (lg sq : K → K) (y : List (Option K)) (t : Nat) : Snt K :=
  compMaxSntNan lg sq y t
    ((nanSum ((List.range (t - 1 + 1)).map (fun j => (nan2 (· - ·) (y.getD (j + 1) none) (y.getD j none)).map (· ^ 2)))).map
      (fun s => sq (s / ((t - 1 : Nat) : K))))

end FinML
