import Verif.Model.PandasFeatures

/-!
# The pandas implementations that exist next to a compiled one (`finmlkit/feature/transforms.py`)
-/

namespace FinML

variable {K : Type} [Field K] [LinearOrder K]

/-- `transforms.py:247-252,259-264`: the RSI value of the pandas code. -/
def rsiValPd (g l : K) : K := if l ≠ 0 then 100 - 100 / (1 + g / l) else 100

/-- `transforms.py:221-267` `RSIWilder._pd`: raises when there is no bar number `w`. -/
def rsiPd (xs : List K) (w : Nat) : Except String (List (Option K)) :=
  if xs.length ≤ w then .error "IndexError: single positional indexer is out-of-bounds"
  else .ok (tabulate xs.length (fun i =>
    if i < w then none else some (rsiValPd (wilderAvg (gainAt xs) w (i - w)) (wilderAvg (lossAt xs) w (i - w)))))

/-- `transforms.py:195-197` `PctChange._pd`, non-zero values. -/
def pctChangePd (xs : List K) (p : Nat) : List (Option K) :=
  tabulate xs.length (fun t => if t < p then none else some (xs.getD t 0 / xs.getD (t - p) 0 - 1))

/-- `transforms.py:563-568` `SMA._pd`. -/
def smaPd (xs : List (Option K)) (w : Nat) : List (Option K) := pdRolling xs w (fun l => some (l.sum / (l.length : K)))

/-- The `k`-th most recent value, counted from position `t`, with its weight; NaN values have none. -/
def ewmTerms (q : K) (y : List (Option K)) (t : Nat) : List (K × K) :=
  (List.range (t + 1)).filterMap (fun k => (y.getD (t - k) none).map (fun v => (q ^ k, v)))

/-- `transforms.py:591-596` `EWMA._pd`: `ewm(span).mean()` (`adjust=True`, `ignore_na=False`): the weighted mean of the
values present so far, weights by distance in rows. -/
def ewmaPd (y : List (Option K)) (span : Nat) : Except String (List (Option K)) :=
  if span < 1 then .error "ValueError: span must satisfy: span >= 1"
  else .ok (tabulate y.length (fun t =>
    let l := ewmTerms (1 - 2 / ((span : K) + 1)) y t
    if l = [] then none else some ((l.map (fun p => p.1 * p.2)).sum / (l.map Prod.fst).sum)))

/-- `ma.py:32-39` with NaN in the numerator. -/
def ewmaNumNan (y : List (Option K)) (q : K) : Nat → Option K
  | 0 => y.getD 0 none
  | t + 1 => match y.getD (t + 1) none, ewmaNumNan y q t with
    | some a, some u => some (a + q * u)
    | _, _ => none

/-- `ma.py:32-39`: the denominator. -/
def ewmaDen (q : K) : Nat → K
  | 0 => 1
  | t + 1 => 1 + q * ewmaDen q t

/-- `ma.py:6-43` `ewma` on data with NaN. -/
def ewmaNan (y : List (Option K)) (span : Nat) : Except String (List (Option K)) :=
  if span < 1 then .error "span size is less than or equal to 1. Please provide a span size greater than 1."
  else .ok (tabulate y.length (fun t =>
    (ewmaNumNan y (1 - 2 / ((span : K) + 1)) t).map (fun u => u / ewmaDen (1 - 2 / ((span : K) + 1)) t)))

/-- `transforms.py:466-485` `RealizedVolatility._pd`: count, sum of squares without NaN, root of the quotient. -/
def realizedVolPd (sqrt : K → K) (r : List (Option K)) (w : Nat) (isSample : Bool) : List (Option K) :=
  tabulate r.length (fun i =>
    if i + 1 < w then none
    else
      let win := window r w i
      let cnt := (win.filter Option.isSome).length
      if cnt > 1 then
        some (sqrt ((win.map (fun v => (v.map (fun x => x * x)).getD 0)).sum / (if isSample then (cnt : K) - 1 else (cnt : K))))
      else none)

/-- Binary operation with NaN on either side giving NaN. -/
def nanOp {β : Type} (f : K → K → Option β) : Option K → Option K → Option β
  | some u, some v => f u v
  | _, _ => none

/-- `transforms.py:843-851` `VPIN._pd`; `0/0` is NaN, and a zero total of non-negative volumes has zero imbalance. -/
def vpinPd (b s : List (Option K)) (w : Nat) : List (Option K) :=
  let imb := List.zipWith (nanOp (fun u v => some |u - v|)) b s
  let tot := List.zipWith (nanOp (fun u v => some (u + v))) b s
  List.zipWith (nanOp (fun u v => if v = 0 then none else some (u / v)))
    (pdRolling imb w (fun l => some l.sum)) (pdRolling tot w (fun l => some l.sum))

/-- pandas `rolling.corr` of one window: covariance over the root of the product of the variances, NaN for `0/0` and
for a single pair. -/
def corrPdVal (sqrt : K → K) (l : List (K × K)) : Option K :=
  let n := (l.length : K)
  let mr := (l.map (·.1)).sum / n
  let mv := (l.map (·.2)).sum / n
  let cov := (l.map (fun p => (p.1 - mr) * (p.2 - mv))).sum / (n - 1)
  let vr := (l.map (fun p => (p.1 - mr) * (p.1 - mr))).sum / (n - 1)
  let vv := (l.map (fun p => (p.2 - mv) * (p.2 - mv))).sum / (n - 1)
  if l.length < 2 ∨ vr = 0 ∨ vv = 0 then none else some (cov / sqrt (vr * vv))

/-- The returns and volumes of the window ending at `i` (complete non-zero prices). -/
def corrPairs (price volume : List K) (w i : Nat) : List (K × K) :=
  (List.range' (i + 1 - w) w).map (fun j => (price.getD j 0 / price.getD (j - 1) 0 - 1, volume.getD j 0))

/-- `Series.is_monotonic_increasing`. -/
def monoUp : List K → Bool
  | a :: b :: l => decide (a ≤ b) && monoUp (b :: l)
  | _ => true

/-- `Series.is_monotonic_decreasing`. -/
def monoDown : List K → Bool
  | a :: b :: l => decide (b ≤ a) && monoDown (b :: l)
  | _ => true

/-- `transforms.py:774-803` `PriceVolumeCorrelation._pd`, complete non-zero prices and complete volumes. -/
def corrPd (sqrt : K → K) (price volume : List K) (w : Nat) : List (Option K) :=
  tabulate price.length (fun i =>
    let v := if i < w then none else corrPdVal sqrt (corrPairs price volume w i)
    if 10 ≤ price.length ∧ w = 4 ∧ monoUp price = true ∧ w ≤ i then
      if monoUp volume then some 1 else if monoDown volume then some (-1) else v
    else v)

end FinML
