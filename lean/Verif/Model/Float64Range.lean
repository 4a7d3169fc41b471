/-
Float64 versions of the true range, the average true range, the flow acceleration and the burst ratio
(`finmlkit/feature/core/volatility.py:222-253`, `:352-437`, `volume.py:572-607`, `utils.py:92-108`).
-/
import Verif.Model.Indicators
import Verif.Model.Float64Bars

namespace FinML

/-- `volatility.py:237-251`: one true range; every difference is rounded, `max` and `abs` are exact. -/
def trueRangeAt64 (high low close : List (Option ℚ)) (i : Nat) : Option ℚ :=
  if i = 0 then
    match high.getD 0 none, low.getD 0 none with
    | some h, some l => some (f64 (h - l))
    | _, _ => none
  else
    match high.getD i none, low.getD i none, close.getD (i - 1) none with
    | some h, some l, some c => some (max (max (f64 (h - l)) |f64 (h - c)|) |f64 (l - c)|)
    | _, _, _ => none

/-- `volatility.py:222-253` `true_range`. -/
def trueRange64 (high low close : List (Option ℚ)) : Except String (List (Option ℚ)) :=
  if high.length = low.length ∧ low.length = close.length then .ok (tabulate high.length (trueRangeAt64 high low close))
  else .error "The length of high, low, and close prices must be the same."

/-- `volatility.py:389-397`, `:416-426`: `tr_sum / valid_count`. -/
def validMean64 (l : List (Option ℚ)) : Option ℚ :=
  let v := validOf l
  if v.length > 0 then some (f64 (sum64 v / (v.length : ℚ))) else none

/-- `volatility.py:399-405`: `((window - 1) * atr + tr) / window`. -/
def atrEma64 (tr : List (Option ℚ)) (w : Nat) : Nat → Option ℚ
  | 0 => validMean64 (tr.take w)
  | m + 1 =>
    match tr.getD (w + m) none, atrEma64 tr w m with
    | some x, some a => some (f64 (f64 (f64 (((w : ℚ) - 1) * a) + x) / (w : ℚ)))
    | _, _ => none

/-- `volatility.py:406-428`. -/
def atrSma64 (high low close tr : List (Option ℚ)) (w i : Nat) : Option ℚ :=
  if i = 2 ∧ (high.getD i none).isNone ∧ (low.getD i none).isNone ∧ (close.getD i none).isNone then none
  else validMean64 (window tr w i)

/-- `volatility.py:430-435`. -/
def atrNormalize64 (high low : List (Option ℚ)) (i : Nat) (a : Option ℚ) : Option ℚ :=
  match a, high.getD i none, low.getD i none with
  | some x, some h, some l => if f64 (f64 (h + l) / 2) > 0 then some (f64 (x / f64 (f64 (h + l) / 2))) else some x
  | a, _, _ => a

/-- `volatility.py:352-437` `atr`. -/
def atr64 (high low close : List (Option ℚ)) (w : Nat) (ema normalize : Bool) : Except String (List (Option ℚ)) :=
  match trueRange64 high low close with
  | .error e => .error e
  | .ok tr =>
    .ok (tabulate high.length (fun i =>
      let a := if i + 1 < w then none else if ema then atrEma64 tr w (i + 1 - w) else atrSma64 high low close tr w i
      if normalize then atrNormalize64 high low i a else a))

/-- `volume.py:595-598`: the prefix sums. -/
def prefix64 (v : List ℚ) : Nat → ℚ
  | 0 => 0
  | i + 1 => f64 (prefix64 v i + v.getD i 0)

/-- `volume.py:601-602`: `S[b] - S[a]`, the volume of the bars from `a` up to before `b`. -/
def flowPart64 (v : List ℚ) (a b : Nat) : ℚ := f64 (prefix64 v b - prefix64 v a)

/-- `volume.py:601-603`: the argument of the logarithm at index `i`. -/
def flowRatio64 (eps : ℚ) (v : List ℚ) (w r i : Nat) : ℚ :=
  f64 (f64 (flowPart64 v (i + 1 - r) (i + 1) + eps) / f64 (flowPart64 v (i + 1 - w) (i + 1 - r) + eps))

/-- `volume.py:572-607` `comp_flow_acceleration`. -/
def flowAcceleration64 (log : ℚ → ℚ) (eps : ℚ) (v : List ℚ) (w r : Nat) : List (Option ℚ) :=
  if v.length < w ∨ r ≥ w then tabulate v.length (fun _ => none)
  else tabulate v.length (fun i => if i + 1 < w then none else some (log (flowRatio64 eps v w r i)))

/-- `np.median` (library function used at `utils.py:105`): the middle element, or the rounded mean of the two middle ones. -/
def npMedian64 (l : List ℚ) : ℚ :=
  let s := l.insertionSort (· ≤ ·)
  let n := s.length
  if n % 2 = 1 then s.getD (n / 2) 0 else f64 (f64 (s.getD (n / 2 - 1) 0 + s.getD (n / 2) 0) / 2)

/-- `utils.py:92-108` `comp_burst_ratio`. -/
def burstRatio64 (xs : List ℚ) (w : Nat) : List (Option ℚ) :=
  rolling xs w (fun l => if npMedian64 l > 0 then some (f64 (l.getLastD 0 / npMedian64 l)) else none)

end FinML
