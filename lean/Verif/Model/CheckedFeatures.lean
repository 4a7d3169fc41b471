/-
The compiled feature kernels with every array access checked, as `Model/Checked` does for the bars, and with the output arrays of
`np.empty` followed entry by entry: a slot is `none` until the kernel writes it, and reading a slot that was never written ends the
run like an access outside the array.  A NaN is `some none` in a slot.  The `prange` loops are run in order (`Model/Parallel` treats
other orders).  Divisions by zero are those of the model of the kernel.
-/
import Verif.Model.Checked
import Verif.Model.Indicators

namespace FinML

variable {K : Type} [Field K] [LinearOrder K]

/-- `for i in …: (value, state) = step(i); out[i] = value`. -/
def fillLoop {σ α : Type} (step : List (Option α) → Nat → σ → Option (α × σ)) : List Nat → σ → List (Option α) → Option (List (Option α))
  | [], _, out => some out
  | i :: is, s, out =>
    match step out i s with
    | none => none
    | some r =>
      match wr out (i : Int) (some r.1) with
      | none => none
      | some out => fillLoop step is r.2 out

/-- `out[:k] = v`; NumPy clips the slice. -/
def fillPrefix {α : Type} (k : Nat) (v : α) (out : List (Option α)) : List (Option α) := (out.take k).map (fun _ => some v) ++ out.drop k

/-- `for k in …: total += term(k)`. -/
def sumLoop (term : Nat → Option K) (is : List Nat) : Option K :=
  is.foldlM (fun s k => (term k).map (fun x => s + x)) 0

/-! ## `ma.py` -/

/-- `ma.py:36-41`: one iteration. -/
def ewmaStepChk (y : List K) (q : K) (_ : List (Option K)) (t : Nat) (s : K × K) : Option (K × (K × K)) :=
  (rd y (t : Int)).map (fun x => ((x + q * s.1) / (1 + q * s.2), (x + q * s.1, 1 + q * s.2)))

/-- `ma.py:6-43` `ewma`. -/
def ewmaChk (y : List K) (span : Nat) : Option (Except String (List (Option K))) :=
  if span < 1 then some (.error "span size is less than or equal to 1. Please provide a span size greater than 1.")
  else do
    let y0 ← rd y 0
    let out ← wr (List.replicate y.length none) 0 (some (y0 / 1))
    let out ← fillLoop (ewmaStepChk y (1 - 2 / ((span : K) + 1))) (List.range' 1 (y.length - 1)) (y0, 1) out
    some (.ok out)

/-! ## `volatility.py` -/

/-- `volatility.py:243-251`: one iteration. -/
def trueRangeStepChk (high low close : List (Option K)) (_ : List (Option (Option K))) (i : Nat) (_ : Unit) : Option (Option K × Unit) := do
  let h ← rd high (i : Int)
  let l ← rd low (i : Int)
  let c ← rd close ((i : Int) - 1)
  some (match h, l, c with
    | some h, some l, some c => some (max (max (h - l) |h - c|) |l - c|)
    | _, _, _ => none, ())

/-- `volatility.py:238-241`: the first true range. -/
def firstRange : Option K → Option K → Option K
  | some h, some l => some (h - l)
  | _, _ => none

/-- `volatility.py:222-253` `true_range`. -/
def trueRangeChk (high low close : List (Option K)) : Option (Except String (List (Option (Option K)))) :=
  if high.length = low.length ∧ low.length = close.length then do
    let h ← rd high 0
    let l ← rd low 0
    let out ← wr (List.replicate high.length none) 0 (some (firstRange h l))
    let out ← fillLoop (trueRangeStepChk high low close) (List.range' 1 (high.length - 1)) () out
    some (.ok out)
  else some (.error "The length of high, low, and close prices must be the same.")

/-- `volatility.py:108-134`: one iteration of `ewmst_mean0`; the state holds `U`, `V` and `last_ts`. -/
def ewmst0StepChk (sqrt : K → K) (decay : Int → K) (floor : K) (ts : List Int) (y : List (Option K)) (_ : List (Option (Option K))) (i : Nat)
    (s : (K × K) × Int) : Option (Option K × ((K × K) × Int)) := do
  let t ← rd ts (i : Int)
  let v ← rd y (i : Int)
  let q := decay (t - s.2)
  let uv : K × K := match v with
    | none => (q * s.1.1, q * s.1.2)
    | some v => ((1 - q) * (v * v) + q * s.1.1, (1 - q) + q * s.1.2)
  some (if uv.2 > 0 then some (floorStd sqrt floor (uv.1 / uv.2)) else none, (uv, t))

/-- `volatility.py:72-136` `ewmst_mean0`. -/
def ewmst0Chk (sqrt : K → K) (decay : Int → K) (floor : K) (ts : List Int) (y : List (Option K)) : Option (List (Option (Option K))) :=
  if y.length = 0 then some []
  else do
    let t0 ← rd ts 0
    let out ← wr (List.replicate y.length none) 0 (some none)
    fillLoop (ewmst0StepChk sqrt decay floor ts y) (List.range' 1 (y.length - 1)) ((0, 0), t0) out

/-- `volatility.py:176-217`: one iteration of `ewmst`; the state holds the sums and `last_ts`. -/
def ewmstStepChk (sqrt : K → K) (decay : Int → K) (floor : K) (ts : List Int) (y : List (Option K)) (_ : List (Option (Option K))) (i : Nat)
    (s : EwmAcc K × Int) : Option (Option K × (EwmAcc K × Int)) := do
  let t ← rd ts (i : Int)
  let v ← rd y (i : Int)
  let q := decay (t - s.2)
  let a : EwmAcc K := ⟨(1 - q) + q * s.1.sw, (1 - q) * (1 - q) + q * q * s.1.sw2, (1 - q) * orZero v + q * s.1.sy, (1 - q) * sqOrZero v + q * s.1.sy2⟩
  some (ewmstVal sqrt floor a, (a, t))

/-- `volatility.py:139-219` `ewmst`. -/
def ewmstChk (sqrt : K → K) (decay : Int → K) (floor : K) (ts : List Int) (y : List (Option K)) : Option (List (Option (Option K))) :=
  if y.length = 0 then some []
  else do
    let t0 ← rd ts 0
    let out ← wr (List.replicate y.length none) 0 (some none)
    fillLoop (ewmstStepChk sqrt decay floor ts y) (List.range' 1 (y.length - 1)) (⟨0, 0, 0, 0⟩, t0) out

/-- `volatility.py:327-336`: one iteration; the state holds `rolling_sum` and `rolling_sum_sq`. -/
def bollingerStepChk (sqrt : K → K) (close : List K) (w : Nat) (numStd : K) (_ : List (Option (Option K))) (i : Nat) (s : K × K) :
    Option (Option K × (K × K)) := do
  let c ← rd close (i : Int)
  let c0 ← rd close ((i : Int) - (w : Int))
  some (bollingerVal sqrt w numStd c (s.1 + (c - c0)) (s.2 + (c ^ 2 - c0 ^ 2)), (s.1 + (c - c0), s.2 + (c ^ 2 - c0 ^ 2)))

/-- `volatility.py:289-338` `bollinger_percent_b`. -/
def bollingerChk (sqrt : K → K) (close : List K) (w : Nat) (numStd : K) : Option (List (Option (Option K))) :=
  let out := fillPrefix w none (List.replicate close.length none)
  if close.length < w then some out
  else do
    let s ← sumLoop (fun k => rd close (k : Int)) (List.range w)
    let q ← sumLoop (fun k => (rd close (k : Int)).map (fun c => c ^ 2)) (List.range w)
    let c ← rd close ((w : Int) - 1)
    let out ← wr out ((w : Int) - 1) (some (bollingerVal sqrt w numStd c s q))
    fillLoop (bollingerStepChk sqrt close w numStd) (List.range' w (close.length - w)) (s, q) out

/-- `volatility.py:347-348`: one iteration. -/
def parkinsonStepChk (log : K → K) (high low : List K) (_ : List (Option K)) (i : Nat) (_ : Unit) : Option (K × Unit) := do
  let h ← rd high (i : Int)
  let l ← rd low (i : Int)
  some (log (h / l) ^ 2 / (log 2 * 4), ())

/-- `volatility.py:341-349` `parkinson_range`. -/
def parkinsonChk (log : K → K) (high low : List K) : Option (List (Option K)) :=
  fillLoop (parkinsonStepChk log high low) (List.range high.length) () (List.replicate high.length none)

/-! ## `momentum.py`, `utils.py` -/

/-- `momentum.py:19-20`: one iteration. -/
def rocStepChk (xs : List K) (p : Nat) (_ : List (Option (Option K))) (i : Nat) (_ : Unit) : Option (Option K × Unit) := do
  let x ← rd xs (i : Int)
  let b ← rd xs ((i : Int) - (p : Int))
  some (some ((x - b) / b * 100), ())

/-- `momentum.py:6-22` `roc`. -/
def rocChk (xs : List K) (p : Nat) : Option (List (Option (Option K))) :=
  fillLoop (rocStepChk xs p) (List.range' p (xs.length - p)) () (fillPrefix p none (List.replicate xs.length none))

/-- `utils.py:121-123`: one iteration. -/
def pctChangeStepChk (xs : List K) (p : Nat) (_ : List (Option (Option K))) (i : Nat) (_ : Unit) : Option (Option K × Unit) := do
  let b ← rd xs ((i : Int) - (p : Int))
  let x ← rd xs (i : Int)
  some (if b > 0 then some ((x - b) / b) else none, ())

/-- `utils.py:110-124` `pct_change`. -/
def pctChangeChk (xs : List K) (p : Nat) : Option (List (Option (Option K))) :=
  fillLoop (pctChangeStepChk xs p) (List.range' p (xs.length - p)) () (fillPrefix p none (List.replicate xs.length none))

/-- `close[i] - close[i - 1]` (`momentum.py:44`, `:56`). -/
def diffChk (xs : List K) (i : Nat) : Option K := do
  let x ← rd xs (i : Int)
  let b ← rd xs ((i : Int) - 1)
  some (x - b)

/-- `momentum.py:55-63`: one iteration; the state holds `avg_gain` and `avg_loss`. -/
def rsiStepChk (xs : List K) (w : Nat) (_ : List (Option (Option K))) (i : Nat) (s : K × K) : Option (Option K × (K × K)) := do
  let d ← diffChk xs i
  let gain := if d > 0 then d else 0
  let loss := if d < 0 then -d else 0
  let g := (((w : K) - 1) * s.1 + gain) / (w : K)
  let l := (((w : K) - 1) * s.2 + loss) / (w : K)
  some (rsiVal g l, (g, l))

/-- `momentum.py:25-65` `rsi_wilder`. -/
def rsiChk (xs : List K) (w : Nat) : Option (List (Option (Option K))) :=
  let out := fillPrefix w none (List.replicate xs.length none)
  if xs.length ≤ w then some out
  else do
    let g ← sumLoop (fun i => (diffChk xs i).map (fun d => if d > 0 then d else 0)) (List.range' 1 w)
    let l ← sumLoop (fun i => (diffChk xs i).map (fun d => if d > 0 then 0 else -d)) (List.range' 1 w)
    let out ← wr out (w : Int) (some (rsiVal (g / (w : K)) (l / (w : K))))
    fillLoop (rsiStepChk xs w) (List.range' (w + 1) (xs.length - (w + 1))) (g / (w : K), l / (w : K)) out

/-- `np.min(xs[a:b])`, which raises for an empty slice. -/
def sliceMinChk (xs : List K) (len i : Nat) : Option K := if window xs len i = [] then none else some (npMin (window xs len i))

/-- `np.max(xs[a:b])`, which raises for an empty slice. -/
def sliceMaxChk (xs : List K) (len i : Nat) : Option K := if window xs len i = [] then none else some (npMax (window xs len i))

/-- `momentum.py:103-108`: the new minimum and maximum. -/
def stochRangeChk (low high : List K) (len t : Nat) (s : K × K) : Option (K × K) := do
  let l0 ← rd low ((t : Int) - (len : Int))
  let h0 ← rd high ((t : Int) - (len : Int))
  if l0 = s.1 ∨ h0 = s.2 then do
    let lo ← sliceMinChk low len t
    let hi ← sliceMaxChk high len t
    some (lo, hi)
  else do
    let l ← rd low (t : Int)
    let h ← rd high (t : Int)
    some (min s.1 l, max s.2 h)

/-- `momentum.py:97-110`: one iteration; the state holds `lo` and `hi`. -/
def stochStepChk (close low high : List K) (len : Nat) (_ : List (Option (Option K))) (t : Nat) (s : K × K) : Option (Option K × (K × K)) := do
  let s ← stochRangeChk low high len t s
  let c ← rd close (t : Int)
  some (stochVal c s, s)

/-- `momentum.py:68-112` `stoch_k`. -/
def stochKChk (close low high : List K) (len : Nat) : Option (List (Option (Option K))) :=
  let out := fillPrefix (len - 1) none (List.replicate close.length none)
  if close.length < len then some out
  else do
    let lo ← sliceMinChk low len (len - 1)
    let hi ← sliceMaxChk high len (len - 1)
    let c ← rd close ((len : Int) - 1)
    let out ← wr out ((len : Int) - 1) (some (stochVal c (lo, hi)))
    fillLoop (stochStepChk close low high len) (List.range' len (close.length - len)) (lo, hi) out

/-! ## `reversion.py` -/

/-- `reversion.py:43-54`: one iteration; the state holds `wsum` and `vsum`. -/
def vwapStepChk (log : K → K) (close volume : List K) (np : Nat) (isLog : Bool) (out : List (Option (Option K))) (i : Nat) (s : K × K) :
    Option (Option K × (K × K)) := do
  let c0 ← rd close ((i : Int) - (np : Int))
  let v0 ← rd volume ((i : Int) - (np : Int))
  let c ← rd close (i : Int)
  let v ← rd volume (i : Int)
  let w := s.1 + (c * v - c0 * v0)
  let v := s.2 + (v - v0)
  if v > 0 then some (some (if isLog then log (c / (w / v)) else c / (w / v) - 1), (w, v))
  else (rd out ((i : Int) - 1)).join.map (fun p => (p, (w, v)))

/-- `reversion.py:39-40`: the entry of the first window. -/
def vwapFirstChk (close : List K) (np : Nat) (w v : K) (out : List (Option (Option K))) : Option (List (Option (Option K))) :=
  if v > 0 then do
    let c ← rd close ((np : Int) - 1)
    wr out ((np : Int) - 1) (some (some (c / (w / v) - 1)))
  else some out

/-- `reversion.py:9-56` `vwap_distance`. -/
def vwapChk (log : K → K) (close volume : List K) (np : Nat) (isLog : Bool) : Option (List (Option (Option K))) :=
  let out := fillPrefix np none (List.replicate close.length none)
  if close.length < np then some out
  else do
    let w ← sumLoop (fun k => (rd close (k : Int)).bind (fun c => (rd volume (k : Int)).map (fun v => c * v))) (List.range np)
    let v ← sumLoop (fun k => rd volume (k : Int)) (List.range np)
    let out ← vwapFirstChk close np w v out
    fillLoop (vwapStepChk log close volume np isLog) (List.range' np (close.length - np)) (w, v) out

/-! ## `volume.py` -/

/-- `volume.py:598-600`: one entry of the prefix sums, `S[j] = S[j-1] + volumes[j-1]`. -/
def prefixStepChk (v : List K) (out : List (Option K)) (j : Nat) (_ : Unit) : Option (K × Unit) := do
  let s ← (rd out ((j : Int) - 1)).join
  let x ← rd v ((j : Int) - 1)
  some (s + x, ())

/-- `volume.py:602-605`: one iteration; `sums` is `S`. -/
def flowStepChk (log : K → K) (eps : K) (sums : List (Option K)) (w r : Nat) (_ : List (Option (Option K))) (i : Nat) (_ : Unit) :
    Option (Option K × Unit) := do
  let a ← (rd sums ((i : Int) + 1)).join
  let b ← (rd sums ((i : Int) + 1 - (r : Int))).join
  let c ← (rd sums ((i : Int) + 1 - (w : Int))).join
  some (some (log ((a - b + eps) / (b - c + eps))), ())

/-- `volume.py:572-607` `comp_flow_acceleration`. -/
def flowChk (log : K → K) (eps : K) (v : List K) (w r : Nat) : Option (List (Option (Option K))) :=
  let out := List.replicate v.length (some none)
  if v.length < w ∨ r ≥ w then some out
  else do
    let sums ← wr (List.replicate (v.length + 1) none) 0 (some 0)
    let sums ← fillLoop (prefixStepChk v) (List.range' 1 v.length) () sums
    fillLoop (flowStepChk log eps sums w r) (List.range' (w - 1) (v.length - (w - 1))) () out

/-- The four running sums of `vpin` (`volume.py:616-622`). -/
structure VpinSums (K : Type) where
  buy : List (Option K)
  sell : List (Option K)
  abs : List (Option K)
  nan : List (Option Nat)

/-- `volume.py:629-632`: `arr[i+1] = arr[i] + x`. -/
def cumStepChk {A : Type} [Add A] (arr : List (Option A)) (i : Nat) (x : A) : Option (List (Option A)) :=
  (rd arr (i : Int)).join.bind (fun s => wr arr ((i : Int) + 1) (some (s + x)))

/-- `arr[i+1] - arr[i+1-window]` (`volume.py:634-639`). -/
def cumDiffChk {A : Type} [Sub A] (arr : List (Option A)) (w i : Nat) : Option A :=
  (rd arr ((i : Int) + 1)).join.bind (fun a => (rd arr ((i : Int) + 1 - (w : Int))).join.map (fun b => a - b))

/-- `volume.py:634-640`: the value of position `i` (NaN if nothing is written). -/
def vpinValChk (eps : K) (s : VpinSums K) (w i : Nat) : Option (Option K) :=
  if w ≤ i + 1 then
    (cumDiffChk s.nan w i).bind (fun d =>
      if d = 0 then do
        let b ← cumDiffChk s.buy w i
        let c ← cumDiffChk s.sell w i
        let a ← cumDiffChk s.abs w i
        some (if b + c > eps then some (a / (b + c)) else none)
      else some none)
  else some none

/-- `volume.py:627-632`: what one bar adds to the four sums. -/
def vpinAdds : Option K → Option K → (K × K) × (K × Nat)
  | some x, some y => ((x, y), (|x - y|, 0))
  | _, _ => ((0, 0), (0, 1))

/-- `volume.py:624-640`: one iteration. -/
def vpinStepChk (eps : K) (b s : List (Option K)) (w : Nat) (_ : List (Option (Option K))) (i : Nat) (a : VpinSums K) :
    Option (Option K × VpinSums K) := do
  let vb ← rd b (i : Int)
  let vs ← rd s (i : Int)
  let buy ← cumStepChk a.buy i (vpinAdds vb vs).1.1
  let sell ← cumStepChk a.sell i (vpinAdds vb vs).1.2
  let abs ← cumStepChk a.abs i (vpinAdds vb vs).2.1
  let nan ← cumStepChk a.nan i (vpinAdds vb vs).2.2
  let r ← vpinValChk eps ⟨buy, sell, abs, nan⟩ w i
  some (r, ⟨buy, sell, abs, nan⟩)

/-- `volume.py:610-641` `vpin`. -/
def vpinChk (eps : K) (b s : List (Option K)) (w : Nat) : Option (List (Option (Option K))) := do
  let z ← wr (List.replicate (b.length + 1) none) 0 (some (0 : K))
  let n ← wr (List.replicate (b.length + 1) none) 0 (some 0)
  fillLoop (vpinStepChk eps b s w) (List.range b.length) ⟨z, z, z, n⟩ (List.replicate b.length (some none))

/-! ## `correlation.py` -/

/-- `correlation.py:29-32`: the return between two prices. -/
def stepReturn : Option K → Option K → Option K
  | some a, some b => if b ≠ 0 then some ((a - b) / b) else none
  | _, _ => none

/-- `correlation.py:28-32`: one iteration. -/
def returnStepChk (price : List (Option K)) (_ : List (Option (Option K))) (i : Nat) (_ : Unit) : Option (Option K × Unit) := do
  let a ← rd price (i : Int)
  let b ← rd price ((i : Int) - 1)
  some (stepReturn a b, ())

/-- `correlation.py:49-55`: are all pairs of neighbours of the window free of `bad`? -/
def neighboursChk (bad : Option K → Option K → Bool) (xs : List (Option K)) (w i : Nat) : Option Bool :=
  ((List.range' (i + 1 - w) (w - 1)).mapM (fun j : Nat => do
    let a ← rd xs ((j : Int) + 1)
    let b ← rd xs (j : Int)
    some (!bad a b))).map (fun l : List Bool => l.all id)

/-- `correlation.py:73-75`: the pair of one bar; the volume of a bar without return is not read. -/
def pairChk (returns : List (Option (Option K))) (volume : List (Option K)) (j : Nat) : Option (Option (K × K)) :=
  (rd returns (j : Int)).join.bind (fun r =>
    if r.isNone then some none else (rd volume (j : Int)).map (fun v => bothSome r v))

/-- `correlation.py:72-109`: the correlation of the window. -/
def corrWindowChk (sqrt : K → K) (returns : List (Option (Option K))) (volume : List (Option K)) (w i : Nat) : Option (Option K) :=
  ((List.range' (i + 1 - w) w).mapM (pairChk returns volume)).map (fun l : List (Option (K × K)) => corrOf sqrt (l.filterMap id))

/-- `correlation.py:35-109`: the value of position `i`. -/
def corrValChk (sqrt : K → K) (price volume : List (Option K)) (returns : List (Option (Option K))) (w i : Nat) : Option (Option K) :=
  (rd returns (i : Int)).join.bind (fun r =>
    if r.isNone then some none
    else (rd volume (i : Int)).bind (fun v =>
      if v.isNone then some none
      else if 4 ≤ i ∧ i < 10 then do
        let up ← neighboursChk (fun a b => optLe a b) price w i
        let vDown ← neighboursChk (fun a b => optLe b a) volume w i
        let vUp ← neighboursChk (fun a b => optLe a b) volume w i
        if up ∧ vUp then some (some 1) else if up ∧ vDown then some (some (-1)) else corrWindowChk sqrt returns volume w i
      else corrWindowChk sqrt returns volume w i))

/-- `correlation.py:9-111` `rolling_price_volume_correlation`. -/
def correlationChk (sqrt : K → K) (price volume : List (Option K)) (w : Nat) : Option (List (Option (Option K))) := do
  let returns ← wr (List.replicate price.length none) 0 (some none)
  let returns ← fillLoop (returnStepChk price) (List.range' 1 (price.length - 1)) () returns
  fillLoop (fun _ i _ => (corrValChk sqrt price volume returns w i).map (fun r => (r, ()))) (List.range' w (price.length - w)) ()
    (List.replicate price.length (some none))

/-! ## `trend.py`; the loops that fill several arrays are split, one per array -/

/-- `trend.py:32-36`: one iteration. -/
def adxTrStepChk (high low close : List K) (_ : List (Option K)) (i : Nat) (_ : Unit) : Option (K × Unit) := do
  let h ← rd high (i : Int)
  let l ← rd low (i : Int)
  let c ← rd close ((i : Int) - 1)
  some (max (max (h - l) |h - c|) |l - c|, ())

/-- `trend.py:39-52`: one iteration; `pick` chooses from `high_diff` and `low_diff`. -/
def adxDmStepChk (pick : K → K → K) (high low : List K) (_ : List (Option K)) (i : Nat) (_ : Unit) : Option (K × Unit) := do
  let h ← rd high (i : Int)
  let h' ← rd high ((i : Int) - 1)
  let l' ← rd low ((i : Int) - 1)
  let l ← rd low (i : Int)
  some (pick (h - h') (l' - l), ())

/-- `trend.py:66-69`: one iteration. -/
def smoothStepChk (x : List (Option K)) (len : Nat) (out : List (Option K)) (i : Nat) (_ : Unit) : Option (K × Unit) := do
  let s ← (rd out ((i : Int) - 1)).join
  let y ← (rd x (i : Int)).join
  some (s - s / (len : K) + y, ())

/-- `trend.py:55-69`: a smoothed array. -/
def smoothChk (x : List (Option K)) (size len : Nat) : Option (List (Option K)) :=
  if len + 1 ≤ size then do
    let t ← sumLoop (fun k => (rd x (k : Int)).join) (List.range' 1 len)
    let out ← wr (List.replicate size (some 0)) (len : Int) (some t)
    fillLoop (smoothStepChk x len) (List.range' (len + 1) (size - (len + 1))) () out
  else some (List.replicate size (some 0))

/-- `trend.py:74-77`: one iteration. -/
def diStepChk (tr dm : List (Option K)) (_ : List (Option K)) (i : Nat) (_ : Unit) : Option (K × Unit) := do
  let t ← (rd tr (i : Int)).join
  let d ← (rd dm (i : Int)).join
  some (if t > 0 then 100 * (d / t) else 0, ())

/-- `trend.py:81-83`: one iteration. -/
def dxStepChk (plus minus : List (Option K)) (_ : List (Option K)) (i : Nat) (_ : Unit) : Option (K × Unit) := do
  let p ← (rd plus (i : Int)).join
  let m ← (rd minus (i : Int)).join
  some (dxVal p m, ())

/-- `trend.py:93-94`: one iteration. -/
def adxStepChk (dx : List (Option K)) (len : Nat) (out : List (Option K)) (i : Nat) (_ : Unit) : Option (K × Unit) := do
  let a ← (rd out ((i : Int) - 1)).join
  let d ← (rd dx (i : Int)).join
  some ((a * ((len : K) - 1) + d) / (len : K), ())

/-- `trend.py:86-94`: the last array. -/
def adxLastChk (dx : List (Option K)) (size len : Nat) : Option (List (Option K)) :=
  if 2 * len ≤ size then do
    let t ← sumLoop (fun k => (rd dx (k : Int)).join) (List.range' len len)
    let out ← wr (List.replicate size (some 0)) (2 * (len : Int) - 1) (some (t / (len : K)))
    fillLoop (adxStepChk dx len) (List.range' (2 * len) (size - 2 * len)) () out
  else some (List.replicate size (some 0))

/-- `trend.py:8-96` `adx_core`. -/
def adxChk (high low close : List K) (len : Nat) : Option (List (Option K)) := do
  let size := high.length
  let zeros : List (Option K) := List.replicate size (some 0)
  let tr ← fillLoop (adxTrStepChk high low close) (List.range' 1 (size - 1)) () zeros
  let plusDm ← fillLoop (adxDmStepChk (fun hd ld => if hd > ld ∧ hd > 0 then hd else 0) high low) (List.range' 1 (size - 1)) () zeros
  let minusDm ← fillLoop (adxDmStepChk (fun hd ld => if ld > hd ∧ ld > 0 then ld else 0) high low) (List.range' 1 (size - 1)) () zeros
  let str ← smoothChk tr size len
  let sp ← smoothChk plusDm size len
  let sm ← smoothChk minusDm size len
  let plus ← fillLoop (diStepChk str sp) (List.range' len (size - len)) () zeros
  let minus ← fillLoop (diStepChk str sm) (List.range' len (size - len)) () zeros
  let dx ← fillLoop (dxStepChk plus minus) (List.range' len (size - len)) () zeros
  adxLastChk dx size len

end FinML
