/-
Model of `comp_bar_trade_size_features` (`finmlkit/bar/base.py:549-612`).
-/
import Verif.Model.Bars

namespace FinML

variable {K : Type} [Field K] [LinearOrder K]

/-- One output row; `none` is NaN (for the two relative sizes also the infinity of a zero threshold). -/
structure SizeBar (K : Type) where
  meanRel : Option K
  size95Rel : Option K
  pctBlock : Option K
  gini : Option K
deriving DecidableEq

/-- `amounts[start:end + 1]` with `start = bar_close_indices[i] + 1`, `bar/base.py:582-591`.  Close indices are at
least `-1`, so the start is never negative. -/
def barSlice (amounts : List K) (c₀ c₁ : Int) : List K :=
  (amounts.drop (c₀ + 1).toNat).take (c₁ - c₀).toNat

/-- `np.percentile(a, 95)` of a non-empty array (library function used at `bar/base.py:593`): linear interpolation
between the order statistics around position `0.95 (n - 1)`. -/
def percentile95 (l : List K) : K :=
  let s := l.insertionSort (· ≤ ·)
  let pos := (l.length - 1) * 95
  let f : K := ((pos % 100 : Nat) : K) / 100
  s.getD (pos / 100) 0 * (1 - f) + s.getD ((pos + 99) / 100) 0 * f

/-- `bar/base.py:600-603`: `block_volume`. -/
def blockVolume (thr : Option K) (l : List K) : K :=
  match thr with
  | none => 0
  | some t => l.foldl (fun b a => if a > t then b + a else b) 0

/-- `bar/base.py:592-593`: a size relative to the threshold; the division by zero of the parallel loop does not raise. -/
def relSize (log1p : K → K) (thr : Option K) (x : K) : Option K :=
  match thr with
  | none => none
  | some t => if t = 0 then none else some (log1p (x / t))

/-- `bar/base.py:588-610`: the row of a non-empty bar whose typical size is not zero; `thr = none` is a NaN threshold. -/
def sizeRow (log1p : K → K) (thr : Option K) (l : List K) : SizeBar K :=
  let total := l.sum
  let meanRel := relSize log1p thr (total / (l.length : K))
  let size95Rel := relSize log1p thr (percentile95 l)
  if total = 0 then { meanRel := meanRel, size95Rel := size95Rel, pctBlock := none, gini := none }
  else
    { meanRel := meanRel, size95Rel := size95Rel,
      pctBlock := some (blockVolume thr l / total),
      gini := if l.length = 1 then some 0 else some (1 - (l.map (fun a => (a / total) ^ 2)).sum) }

/-- `bar/base.py:581-610`: one iteration of the `prange` loop; `theta = none` is NaN (no typical size yet). -/
def sizeBar (log1p : K → K) (thetaMult : K) (theta : Option K) (l : List K) : SizeBar K :=
  if l = [] ∨ theta = some 0 then { meanRel := none, size95Rel := none, pctBlock := none, gini := none }
  else sizeRow log1p (theta.map (· * thetaMult)) l

/-- `bar/base.py:549-612` `comp_bar_trade_size_features`. -/
def compBarTradeSize (log1p : K → K) (amounts : List K) (theta : List (Option K)) (closes : List Int) (thetaMult : K) :
    Except String (List (SizeBar K)) :=
  if (theta.length : Int) ≠ closes.length - 1 then .error "Theta should match the the number of bars."
  else .ok (List.zipWith (fun t c => sizeBar log1p thetaMult t (barSlice amounts c.1 c.2)) theta (closePairs closes))

end FinML
