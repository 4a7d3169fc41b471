/-
`ewmst_mean0` and `parkinson_range` (`finmlkit/feature/core/volatility.py:72-136`, `:341-349`) in float64 arithmetic.  The exponential, the
logarithm and the square root are parameters.
-/
import Verif.Model.Float64
import Verif.Model.Indicators

namespace FinML

/-- `volatility.py:114`: `alpha = 1.0 - exp(-dt / half_life)`; `q` is the exponential. -/
def mean0Alpha64 (q : ℚ) : ℚ := f64 (1 - q)

/-- `volatility.py:120-124`: the factor `1.0 - alpha` of the old sums. -/
def mean0Keep64 (q : ℚ) : ℚ := f64 (1 - mean0Alpha64 q)

/-- `volatility.py:100-124`: `(U, V)` after position `i`. -/
def mean0State64 (decay : Int → ℚ) (ts : List Int) (y : List (Option ℚ)) : Nat → ℚ × ℚ
  | 0 => (0, 0)
  | i + 1 =>
    let s := mean0State64 decay ts y i
    let a := mean0Alpha64 (decayAt decay ts (i + 1))
    let k := mean0Keep64 (decayAt decay ts (i + 1))
    match y.getD (i + 1) none with
    | none => (f64 (k * s.1), f64 (k * s.2))
    | some v => (f64 (f64 (a * f64 (v * v)) + f64 (k * s.1)), f64 (a + f64 (k * s.2)))

/-- `volatility.py:127`: the variance, NaN while the weights sum to 0. -/
def mean0Var64 (s : ℚ × ℚ) : Option ℚ := if s.2 > 0 then some (f64 (s.1 / s.2)) else none

/-- `volatility.py:72-136` `ewmst_mean0`. -/
def ewmstMean064 (sqrt64 : ℚ → ℚ) (decay : Int → ℚ) (floor : ℚ) (ts : List Int) (y : List (Option ℚ)) : List (Option ℚ) :=
  tabulate y.length (fun i => if i = 0 then none else (mean0Var64 (mean0State64 decay ts y i)).map (floorStd sqrt64 floor))

/-- `volatility.py:346`: `np.log(2.0) * 4.0`. -/
def parkinsonDiv64 (log64 : ℚ → ℚ) : ℚ := f64 (log64 2 * 4)

/-- `volatility.py:348`. -/
def parkinsonVal64 (log64 : ℚ → ℚ) (h l : ℚ) : ℚ := f64 (f64 (log64 (f64 (h / l)) * log64 (f64 (h / l))) / parkinsonDiv64 log64)

/-- `volatility.py:341-349` `parkinson_range`. -/
def parkinson64 (log64 : ℚ → ℚ) (high low : List ℚ) : List ℚ :=
  tabulate high.length (fun i => parkinsonVal64 log64 (high.getD i 0) (low.getD i 0))

end FinML
