/-
The structural-break statistic of `finmlkit/feature/core/structural_break/cusum.py` with its float64 arithmetic.  The logarithm and the
square root are parameters.
-/
import Verif.Model.CusumTest
import Verif.Model.Float64Bars

namespace FinML

/-- `cusum.py:29-32`: initial values. -/
def sntInit64 : Snt ℚ := ⟨-(f64 (1 / 1000000)), -(f64 (1 / 1000000)), 0, 0⟩

/-- `cusum.py:45`: the denominator. -/
def breakDen64 (sq : ℚ → ℚ) (t : Nat) (sigma : ℚ) (n : Nat) : ℚ := f64 (sigma * sq ((t - n : Nat) : ℚ))

/-- `cusum.py:55`, `:59`: the critical value. -/
def breakCrit64 (lg sq : ℚ → ℚ) (t n : Nat) : ℚ := sq (f64 (f64 (46 / 10) + lg ((t - n : Nat) : ℚ)))

/-- `cusum.py:42-59`: one start index `n`. -/
def sntStep64 (lg sq : ℚ → ℚ) (y : List ℚ) (t : Nat) (sigma : ℚ) (s : Snt ℚ) (n : Nat) : Snt ℚ :=
  let dyn := f64 (y.getD t 0 - y.getD n 0)
  let den := breakDen64 sq t sigma n
  if den ≤ f64 (1 / 10 ^ 16) then s
  else
    let u := f64 (max 0 dyn / den)
    let d := f64 (-(min 0 dyn) / den)
    let s1 := if u > s.up then { s with up := u, critUp := breakCrit64 lg sq t n } else s
    if d > s1.down then { s1 with down := d, critDown := breakCrit64 lg sq t n } else s1

/-- `cusum.py:11-66` `_comp_max_s_nt`. -/
def compMaxSnt64 (lg sq : ℚ → ℚ) (y : List ℚ) (t : Nat) (sigma : ℚ) : Snt ℚ :=
  if t < 1 ∨ sigma ≤ 0 then sntInit64
  else ((List.range (t - 2)).map (· + 1)).foldl (sntStep64 lg sq y t sigma) sntInit64

/-- `cusum.py:112`, `:159`: `np.diff(y) ** 2`. -/
def sqDiff64 (y : List ℚ) (j : Nat) : ℚ := f64 (f64 (y.getD (j + 1) 0 - y.getD j 0) * f64 (y.getD (j + 1) 0 - y.getD j 0))

/-- `cusum.py:112`, `:159`: element `k` of the cumulative sum. -/
def cumSqDiff64 (y : List ℚ) (k : Nat) : ℚ := sum64 ((List.range (k + 1)).map (sqDiff64 y))

/-- `cusum.py:115`, `:162`: `sigma_sq_t`, the estimated standard deviation. -/
def breakSigma64 (sq : ℚ → ℚ) (y : List ℚ) (t : Nat) : ℚ := sq (f64 (cumSqDiff64 y (t - 1) / ((t - 1 : Nat) : ℚ)))

/-- `cusum.py:115-121`, `:162-169`: the statistic at index `t` of a series of float64 log prices. -/
def sntAt64 (lg sq : ℚ → ℚ) (y : List ℚ) (t : Nat) : Snt ℚ := compMaxSnt64 lg sq y t (breakSigma64 sq y t)

end FinML
