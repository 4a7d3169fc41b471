/-
Specification vocabulary for symmetric CUSUM filters, independent of the recursive implementation.
-/
import Verif.Prelude

namespace FinML

variable {K : Type} [Field K] [LinearOrder K]

/-- The largest sum of a suffix of `l` (the empty suffix, with sum 0, included). -/
def maxSuffix (l : List K) : K := (l.tails.map List.sum).foldr max 0

/-- The smallest sum of a suffix of `l` (the empty suffix, with sum 0, included). -/
def minSuffix (l : List K) : K := (l.tails.map List.sum).foldr min 0

/-- The returns `r (a+1), …, r i`. -/
def retsBetween (r : Nat → K) (a i : Nat) : List K := (List.range' (a + 1) (i - a)).map r

/-- The last mark of side `s` strictly before `i` (or `f` if there is none). -/
def lastMark (c : List (Nat × Bool)) (s : Bool) (f i : Nat) : Nat :=
  ((c.filter (fun p => decide (p.2 = s) && decide (p.1 < i))).map Prod.fst).foldr max f

/-- The upward CUSUM at `i`: the largest sum of the most recent returns, looking back no further than
the last upward mark. -/
def upSum (r : Nat → K) (c : List (Nat × Bool)) (f i : Nat) : K :=
  maxSuffix (retsBetween r (lastMark c true f i) i)

/-- The downward CUSUM at `i`: the smallest sum of the most recent returns, looking back no further than
the last downward mark. -/
def downSum (r : Nat → K) (c : List (Nat × Bool)) (f i : Nat) : K :=
  minSuffix (retsBetween r (lastMark c false f i) i)

end FinML
