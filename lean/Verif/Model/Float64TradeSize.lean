/-
`comp_bar_trade_size_features` (`finmlkit/bar/base.py:549-612`) with its float64 arithmetic and its float32 outputs.  The logarithm
and the percentile are library functions and stay parameters.
-/
import Verif.Model.TradeSize
import Verif.Model.Float64Bars

namespace FinML

/-- `bar/base.py:600-604`: `block_volume`, one rounded addition per block trade. -/
def blockVolume64 (thr : Option ℚ) (l : List ℚ) : ℚ :=
  match thr with
  | none => 0
  | some t => l.foldl (fun b a => if a > t then f64 (b + a) else b) 0

/-- `bar/base.py:610`: `(amounts_bar / total_volume) ** 2`. -/
def shareSq64 (total a : ℚ) : ℚ := f64 (f64 (a / total) * f64 (a / total))

/-- `bar/base.py:610`: the concentration in float64. -/
def gini64 (l : List ℚ) : ℚ := f64 (1 - sum64 (l.map (shareSq64 (sum64 l))))

/-- `bar/base.py:592-593`: a size relative to the threshold, stored as float32. -/
def relSize64 (log1p : ℚ → ℚ) (thr : Option ℚ) (x : ℚ) : Option ℚ :=
  match thr with
  | none => none
  | some t => if t = 0 then none else some (f32 (log1p (f64 (x / t))))

/-- `bar/base.py:589-610`: the row of a non-empty bar whose typical size is not zero. -/
def sizeRow64 (log1p : ℚ → ℚ) (pct95 : List ℚ → ℚ) (thr : Option ℚ) (l : List ℚ) : SizeBar ℚ :=
  let total := sum64 l
  let meanRel := relSize64 log1p thr (f64 (total / (l.length : ℚ)))
  let size95Rel := relSize64 log1p thr (pct95 l)
  if total = 0 then { meanRel := meanRel, size95Rel := size95Rel, pctBlock := none, gini := none }
  else
    { meanRel := meanRel, size95Rel := size95Rel,
      pctBlock := some (f32 (f64 (blockVolume64 thr l / total))),
      gini := if l.length = 1 then some 0 else some (f32 (gini64 l)) }

/-- `bar/base.py:581-610`: one iteration of the `prange` loop; the threshold is rounded once. -/
def sizeBar64 (log1p : ℚ → ℚ) (pct95 : List ℚ → ℚ) (thetaMult : ℚ) (theta : Option ℚ) (l : List ℚ) : SizeBar ℚ :=
  if l = [] ∨ theta = some 0 then { meanRel := none, size95Rel := none, pctBlock := none, gini := none }
  else sizeRow64 log1p pct95 (theta.map (fun t => f64 (t * thetaMult))) l

end FinML
