/-
Model of `comp_price_tick_size` (`finmlkit/bar/utils.py:49-81`).  Prices are rational numbers; the floating point
`log10` is the exact decade, the multiplication by the scale is exact.
-/
import Verif.Prelude
import Mathlib.Data.Int.Log
import Mathlib.Data.Rat.Floor

namespace FinML

/-- `np.round(x)` (library function used at `bar/utils.py:62` and `:70`): the nearest integer, ties to even. -/
def rint (x : ℚ) : Int :=
  let f := x.floor
  let r := x - f
  if r < 1 / 2 then f else if 1 / 2 < r then f + 1 else if f % 2 = 0 then f else f + 1

/-- `np.round(x, decimals=12)`, `bar/utils.py:62`. -/
def round12 (x : ℚ) : ℚ := (rint (x * 10 ^ 12) : ℚ) / 10 ^ 12

/-- `np.diff`, used at `bar/utils.py:68` and `:75`. -/
def npDiff {α : Type} [Sub α] : List α → List α
  | a :: b :: l => (b - a) :: npDiff (b :: l)
  | _ => []

/-- `np.min` of a non-empty array, used at `bar/utils.py:69`. -/
def minOf : List ℚ → ℚ
  | [] => 0
  | a :: l => l.foldl min a

/-- `np.unique`, `bar/utils.py:63`. -/
def npUnique (l : List ℚ) : List ℚ := l.dedup.insertionSort (· ≤ ·)

/-- `bar/utils.py:74-79`: the greatest common divisor of the positive differences, stopping early at 1. -/
def gcdLoop : List Int → Int → Int
  | [], t => t
  | d :: ds, t =>
    if d > 0 then
      let t' := if t = 0 then d else (Int.gcd t d : Int)
      if t' = 1 then t' else gcdLoop ds t'
    else gcdLoop ds t

/-- `bar/utils.py:61-81`, after the check for an empty array, on the unique rounded prices of the sample. -/
def tickOf (u : List ℚ) : ℚ :=
  if u.length ≤ 1 then 0
  else
    let scale : ℚ := 10 ^ (-(Int.log 10 (minOf ((npDiff u).filter (fun d => decide (0 < d))))))
    (gcdLoop (npDiff (u.map (fun p => rint (p * scale)))) 0 : ℚ) / scale

/-- `bar/utils.py:49-81` `comp_price_tick_size`. -/
def compTickSize (prices : List ℚ) : Except String ℚ :=
  if prices = [] then .error "Empty prices array"
  else .ok (tickOf (npUnique ((prices.take 10000).map round12)))

end FinML
