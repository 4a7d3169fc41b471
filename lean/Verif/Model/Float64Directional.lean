/-
`comp_bar_directional_features` (`finmlkit/bar/base.py:409-546`) with float64 accumulators and float32 outputs: volumes, dollar
values, spreads and the extremes of the running balances.
-/
import Verif.Model.Float64Bars

namespace FinML

/-- Accumulators and output cells of one bar, `bar/base.py:454-488`. -/
structure Flow64 where
  volBuy : ℚ
  volSell : ℚ
  dolBuy : ℚ
  dolSell : ℚ
  cumVol : ℚ
  cumDol : ℚ
  cumVolMin : ℚ
  cumVolMax : ℚ
  cumDolMin : ℚ
  cumDolMax : ℚ
deriving DecidableEq

/-- `bar/base.py:456-459,469-480`. -/
def flowInit64 : Flow64 := ⟨0, 0, 0, 0, 0, 0, 1000000000, -1000000000, 1000000000, -1000000000⟩

/-- `bar/base.py:521-526`: the extremes are kept in float32 cells; the comparison is in float64 and the result is rounded when
it is stored. -/
def flowExtremes64 (s : Flow64) : Flow64 :=
  { s with
    cumVolMax := f32 (max s.cumVolMax s.cumVol)
    cumVolMin := f32 (min s.cumVolMin s.cumVol)
    cumDolMax := f32 (max s.cumDolMax s.cumDol)
    cumDolMin := f32 (min s.cumDolMin s.cumDol) }

/-- `bar/base.py:502-526`: one trade (side, price, volume). -/
def flowStep64 (s : Flow64) (t : Int × ℚ × ℚ) : Flow64 :=
  let d := f64 (t.2.1 * t.2.2)
  if t.1 = 1 then
    flowExtremes64 { s with
      volBuy := f64 (s.volBuy + t.2.2), dolBuy := f64 (s.dolBuy + d),
      cumVol := f64 (s.cumVol + t.2.2), cumDol := f64 (s.cumDol + d) }
  else if t.1 = -1 then
    flowExtremes64 { s with
      volSell := f64 (s.volSell + t.2.2), dolSell := f64 (s.dolSell + d),
      cumVol := f64 (s.cumVol - t.2.2), cumDol := f64 (s.cumDol - d) }
  else s

/-- One row of output: volumes and dollar values are rounded to float32 at the end (`bar/base.py:531-534`). -/
def flowBar64 (ts : List (Int × ℚ × ℚ)) : Flow64 :=
  let s := ts.foldl flowStep64 flowInit64
  { s with volBuy := f32 s.volBuy, volSell := f32 s.volSell, dolBuy := f32 s.dolBuy, dolSell := f32 s.dolSell }

/-- Accumulators of the spreads: side and price of the previous trade, largest spread, sum of the spreads, number of signed
trades (`bar/base.py:468-469,481-488`). -/
structure Spread64 where
  prevSide : Int
  prevPrice : ℚ
  maxSpread : ℚ
  cumSpread : ℚ
  ticks : Int
deriving DecidableEq

/-- `bar/base.py:491-500,503,511`: one trade (side, price, volume); the difference of the prices and the sum are float64. -/
def spreadStep64 (s : Spread64) (t : Int × ℚ × ℚ) : Spread64 :=
  let spread := |f64 (t.2.1 - s.prevPrice)|
  let ticks := if t.1 = 1 ∨ t.1 = -1 then s.ticks + 1 else s.ticks
  if t.1 ≠ s.prevSide then
    ⟨t.1, t.2.1, if spread > s.maxSpread then spread else s.maxSpread, f64 (s.cumSpread + spread), ticks⟩
  else ⟨t.1, t.2.1, s.maxSpread, s.cumSpread, ticks⟩

/-- `max_spread` and `mean_spread` of one bar, float32 cells (`bar/base.py:535-536`); `side` and `price` are those of the trade
before the bar.  `none`: division by a count of zero. -/
def spreadBar64 (side : Int) (price : ℚ) (ts : List (Int × ℚ × ℚ)) : ℚ × Option ℚ :=
  let s := ts.foldl spreadStep64 ⟨side, price, 0, 0, 0⟩
  (f32 s.maxSpread, if s.ticks = 0 then none else some (f32 (f64 (s.cumSpread / (s.ticks : ℚ)))))

end FinML
