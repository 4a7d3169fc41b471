/-
Simple returns and the moving average with their float64 arithmetic (`finmlkit/feature/core/utils.py`, `ma.py`).
-/
import Verif.Model.Indicators
import Verif.Model.Float64Bars

namespace FinML

/-- `utils.py:54` (also `volatility.py:515`): `close[i] / close[lag] - 1.0`. -/
def ratioRet64 (a b : ℚ) : ℚ := f64 (f64 (a / b) - 1)

/-- `utils.py:123` (also `correlation.py:30`): `(x[t] - base) / base`. -/
def diffRet64 (a b : ℚ) : ℚ := f64 (f64 (a - b) / b)

/-- `utils.py:110-124` `pct_change`. -/
def pctChange64 (xs : List ℚ) (p : Nat) : List (Option ℚ) :=
  tabulate xs.length (fun t =>
    if t < p then none
    else
      let base := xs.getD (t - p) 0
      if base > 0 then some (diffRet64 (xs.getD t 0) base) else none)

/-- `utils.py:48-59`: the return of price `c` against the earlier price `b`. -/
def retOf64 (log64 : ℚ → ℚ) (isLog : Bool) (b c : ℚ) : Ext ℚ :=
  if b ≠ 0 then .fin (if isLog then log64 (f64 (c / b)) else ratioRet64 c b) else .pinf

/-- `utils.py:12-64` `comp_lagged_returns`; `w` is the window in seconds. -/
def laggedReturns64 (log64 : ℚ → ℚ) (ts : List Int) (close : List ℚ) (w : ℚ) (isLog : Bool) : Except String (List (Ext ℚ)) :=
  if w ≤ 0 then .error "The return window must be greater than zero."
  else
    .ok (tabulate close.length (fun i =>
      if i < lagStart64 ts w then .nan
      else
        let lag := lagIdx64 ts (ts.getD i 0) w
        if 0 ≤ lag ∧ lag < (i : Int) then retOf64 log64 isLog (close.getD lag.toNat 0) (close.getD i 0)
        else .nan))

/-- `ma.py:46-62` `sma`: `1./N * np.sum(...)`. -/
def sma64 (xs : List ℚ) (w : Nat) : List (Option ℚ) := rolling xs w (fun l => some (f64 (f64 (1 / (w : ℚ)) * sum64 l)))

end FinML
