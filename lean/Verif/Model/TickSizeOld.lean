/-
Model of `comp_price_tick_size_old` (`finmlkit/bar/utils.py:84-126`).  As in `Model/TickSize`, prices are rational
numbers and `floor(log10 x)` is the exact decade.
-/
import Verif.Model.TickSize
import Verif.Model.Bars

namespace FinML

/-- `round(x, ndigits)` (`bar/utils.py:124`): the nearest multiple of `10 ^ (-ndigits)`, ties to even. -/
def roundDigits (x : ℚ) (nd : Int) : ℚ := (rint (x * 10 ^ nd) : ℚ) / 10 ^ nd

/-- `bar/utils.py:117-124`: two significant digits. -/
def roundTwo (x : ℚ) : ℚ := roundDigits x (2 - 1 - Int.log 10 |x|)

/-- `bar/utils.py:84-126` `comp_price_tick_size_old`. -/
def compTickSizeOld (prices : List ℚ) : Except String ℚ :=
  if prices = [] then .error "Empty prices array"
  else
    let u := npUnique ((prices.take 10000).map round12)
    if u.length ≤ 1 then .ok 0
    else
      let m := npMedian (npDiff u)
      if m = 0 then .ok 0 else .ok (roundTwo m)

end FinML
