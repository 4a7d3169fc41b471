/-
Realised volatility, rolling variance, the variance ratio and the z-score with their float64 arithmetic
(`finmlkit/feature/core/volatility.py`, `finmlkit/feature/core/utils.py`).  Realised volatility is given before its square root;
the square root of the z-score is a parameter.
-/
import Verif.Model.Float64Features
import Verif.Model.Indicators

namespace FinML

/-- `volatility.py:275-284`: the argument of the square root for one window; `np.nansum` adds from left to right. -/
def realizedVar64 (isSample : Bool) (l : List (Option ℚ)) : Option ℚ :=
  let v := validOf l
  if v.length > 1 then
    some (f64 (sum64 (v.map (fun x => f64 (x * x))) / (if isSample then (v.length : ℚ) - 1 else (v.length : ℚ))))
  else none

/-- `volatility.py:256-286` `realized_vol` before the square root. -/
def realizedVars64 (r : List (Option ℚ)) (w : Nat) (isSample : Bool) : List (Option ℚ) := rolling r w (realizedVar64 isSample)

/-- `volatility.py:459-476`: variance of one window. -/
def varWin64 (ddof minPeriods : Nat) (l : List (Option ℚ)) : Option ℚ :=
  let v := validOf l
  if v.length ≥ minPeriods then
    if v.length > ddof then
      let n := (v.length : ℚ)
      let mean := f64 (sum64 v / n)
      let var := f64 (f64 (sum64 (v.map (fun x => f64 (x * x))) / n) - f64 (mean * mean))
      some (max 0 (f64 (var * f64 (n / (n - (ddof : ℚ))))))
    else none
  else none

/-- `volatility.py:440-478` `rolling_variance_nb`. -/
def rollingVariance64 (xs : List (Option ℚ)) (w ddof minPeriods : Nat) : List (Option ℚ) := rolling xs w (varWin64 ddof minPeriods)

/-- `volatility.py:512-517`: one-bar simple returns. -/
def simpleReturn64 (price : List (Option ℚ)) (i : Nat) : Option ℚ :=
  if i = 0 then none
  else match price.getD i none, price.getD (i - 1) none with
    | some a, some b => if b ≤ 0 then none else some (f64 (f64 (a / b) - 1))
    | _, _ => none

/-- `volatility.py:522-528`: four-bar returns. -/
def fourBar64 (r : List (Option ℚ)) (i : Nat) : Option ℚ :=
  if i < 4 then none
  else match r.getD i none, r.getD (i - 1) none, r.getD (i - 2) none, r.getD (i - 3) none with
    | some a, some b, some c, some d => some (f64 (f64 (f64 (a + b) + c) + d))
    | _, _, _, _ => none

/-- `volatility.py:533-538`: the ratio. -/
def vrVal64 (v1 v4 : Option ℚ) : Option ℚ :=
  match v1, v4 with
  | some a, some b => if b > 0 then some (f64 (a / f64 (b / 4))) else none
  | _, _ => none

/-- `volatility.py:481-540` `variance_ratio_1_4_core` with simple returns. -/
def varianceRatio64 (price : List (Option ℚ)) (w ddof : Nat) : List (Option ℚ) :=
  if price.length < w + 4 then tabulate price.length (fun _ => none)
  else
    let r1 := tabulate price.length (simpleReturn64 price)
    let r4 := tabulate price.length (fourBar64 r1)
    let v1 := rollingVariance64 r1 w ddof 1
    let v4 := rollingVariance64 r4 w ddof 1
    tabulate price.length (fun i => vrVal64 (v1.getD i none) (v4.getD i none))

/-- `utils.py:84-90`: the z-score of the last value of a window. -/
def zscoreWin64 (sqrt64 : ℚ → ℚ) (ddof : Nat) (l : List ℚ) : Option ℚ :=
  let mean := f64 (sum64 l / l.length)
  let std := sqrt64 (zVar64 l ddof)
  if std ≠ 0 then some (f64 (f64 (l.getLastD 0 - mean) / std)) else none

/-- `utils.py:67-90` `comp_zscore`. -/
def zscore64 (sqrt64 : ℚ → ℚ) (xs : List ℚ) (w ddof : Nat) : List (Option ℚ) := rolling xs w (zscoreWin64 sqrt64 ddof)

end FinML
