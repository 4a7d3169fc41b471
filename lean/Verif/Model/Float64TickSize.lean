/-
`comp_price_tick_size` (`finmlkit/bar/utils.py:49-81`) with its float64 arithmetic.  `np.round(x, decimals=12)` under Numba
multiplies by `1e12`, rounds to an integer and divides.  The decade `np.floor(np.log10(x))` is a parameter `dec`, because
the last bit of `log10` is not fixed by any standard.
-/
import Verif.Model.Float64

namespace FinML

/-- `np.round(x, decimals=12)`, `bar/utils.py:61`. -/
def round12f (x : ℚ) : ℚ := f64 ((rint (f64 (x * 10 ^ 12)) : ℚ) / 10 ^ 12)

/-- `bar/utils.py:64-81` on the unique rounded prices. -/
def tickOf64 (dec : ℚ → Int) (u : List ℚ) : ℚ :=
  if u.length ≤ 1 then 0
  else
    let scale : ℚ := f64 (10 ^ (-(dec (minOf (((npDiff u).map f64).filter (fun d => decide (0 < d)))))))
    f64 ((gcdLoop (npDiff (u.map (fun p => rint (f64 (p * scale))))) 0 : ℚ) / scale)

/-- `bar/utils.py:49-81` `comp_price_tick_size` in float64. -/
def compTickSize64 (dec : ℚ → Int) (prices : List ℚ) : Except String ℚ :=
  if prices = [] then .error "Empty prices array"
  else .ok (tickOf64 dec (npUnique ((prices.take 10000).map round12f)))

end FinML
