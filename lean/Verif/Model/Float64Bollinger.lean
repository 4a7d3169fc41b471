/-
Bollinger %B in float64 arithmetic (`finmlkit/feature/core/volatility.py:289-338`).  The square root is a parameter.
-/
import Verif.Model.Float64Features
import Verif.Model.Indicators

namespace FinML

/-- `feature/core/volatility.py:319-320`: the variance of the first window, which groups `window * mean * mean` from the left. -/
def bollVarFirst64 (w : Nat) (s : ℚ × ℚ) : ℚ :=
  let mean := f64 (s.1 / w)
  f64 (f64 (s.2 - f64 (f64 ((w : ℚ) * mean) * mean)) / ((w : ℚ) - 1))

/-- `feature/core/volatility.py:322`, `:334`. -/
def bollLower64 (numStd mean sd : ℚ) : ℚ := f64 (mean - f64 (numStd * sd))

/-- `feature/core/volatility.py:323`, `:335`. -/
def bollUpper64 (numStd mean sd : ℚ) : ℚ := f64 (mean + f64 (numStd * sd))

/-- `feature/core/volatility.py:324`, `:336`: the position of the price in the bands. -/
def bollPos64 (c lower upper : ℚ) : Option ℚ :=
  if lower < upper then some (f64 (f64 (c - lower) / f64 (upper - lower))) else none

/-- `feature/core/volatility.py:319-324`, `:331-336`: %B from the mean and the variance. -/
def bollVal64 (sqrt64 : ℚ → ℚ) (numStd c mean var : ℚ) : Option ℚ :=
  let sd := sqrt64 (max var 0)
  bollPos64 c (bollLower64 numStd mean sd) (bollUpper64 numStd mean sd)

/-- The variance that `bollinger_percent_b` computes at index `i ≥ w - 1` (`feature/core/volatility.py:311-332`). -/
def bollVarAt64 (close : List ℚ) (w i : Nat) : ℚ :=
  let s := (bollSums64 close w).getD (i + 1 - w) (0, 0)
  if i + 1 = w then bollVarFirst64 w s else bollVar64 w s

/-- `feature/core/volatility.py:289-338` `bollinger_percent_b` (`window ≥ 2`). -/
def bollinger64 (sqrt64 : ℚ → ℚ) (close : List ℚ) (w : Nat) (numStd : ℚ) : List (Option ℚ) :=
  tabulate close.length (fun i =>
    if i + 1 < w then none
    else bollVal64 sqrt64 numStd (close.getD i 0) (f64 (((bollSums64 close w).getD (i + 1 - w) (0, 0)).1 / w)) (bollVarAt64 close w i))

end FinML
