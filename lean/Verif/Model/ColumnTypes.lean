/-
The indicators whose output array has the element type of the input column (`np.empty_like`): `sma`
(`finmlkit/feature/core/ma.py:46-62`) and `roc` (`finmlkit/feature/core/momentum.py:6-22`).  The columns of the bar
tables are `float64`, `float32` (volumes, dollars) or `int64` (trade counts, `bar/base.py:338-345`, `:449-464`).

Numbers are rationals, as in `Verif.Model.Float64`; overflow of `int64` is left out.
-/
import Verif.Model.Float64Bars
import Verif.Model.Indicators

namespace FinML

/-- The element type of a column. -/
inductive ColType
  | float64
  | float32
  | int64
deriving DecidableEq

/-- Conversion of a float to an integer: towards zero. -/
def truncZ (x : ℚ) : Int := if 0 ≤ x then x.floor else -((-x).floor)

/-- Storing a float64 number in an array of the given type. -/
def ColType.store : ColType → ℚ → ℚ
  | .float64, x => x
  | .float32, x => f32 x
  | .int64, x => truncZ x

/-- Storing NaN: the conversion to `int64` gives the smallest integer on x86-64. -/
def ColType.storeNan : ColType → Option ℚ
  | .int64 => some (-(2 ^ 63))
  | _ => none

/-- `ma.py:60`: `1./N * np.sum(…, dtype=np.float64)`. -/
def smaVal64 (w : Nat) (l : List ℚ) : ℚ := f64 (f64 (1 / (w : ℚ)) * sum64 l)

/-- `ma.py:46-62` `sma` on a column of type `c`. -/
def smaTyped (c : ColType) (xs : List ℚ) (w : Nat) : List (Option ℚ) :=
  tabulate xs.length (fun i => if i + 1 < w then c.storeNan else some (c.store (smaVal64 w (window xs w i))))

/-- Difference of two elements of a column. -/
def ColType.sub : ColType → ℚ → ℚ → ℚ
  | .float64, a, b => f64 (a - b)
  | .float32, a, b => f32 (a - b)
  | .int64, a, b => a - b

/-- Quotient of two elements of a column: integers are divided in float64. -/
def ColType.div : ColType → ℚ → ℚ → ℚ
  | .float32, a, b => f32 (a / b)
  | _, a, b => f64 (a / b)

/-- `momentum.py:20`: the rate of change from `a` to `b`; the factor 100 is an integer, so the product is a float64. -/
def rocVal64 (c : ColType) (a b : ℚ) : ℚ := f64 (c.div (c.sub b a) a * 100)

/-- `momentum.py:6-22` `roc` on a column of type `c` without zeros. -/
def rocTyped (c : ColType) (xs : List ℚ) (p : Nat) : List (Option ℚ) :=
  tabulate xs.length (fun i => if i < p then c.storeNan else some (c.store (rocVal64 c (xs.getD (i - p) 0) (xs.getD i 0))))

end FinML
