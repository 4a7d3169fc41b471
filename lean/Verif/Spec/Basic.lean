/-
Elementary specification vocabulary, independent of the model.
-/
import Verif.Prelude

namespace FinML

/-- Sum of `v[a], v[a+1], …, v[b-1]`. -/
def rangeSum {K : Type} [AddMonoid K] (v : List K) (a b : Nat) : K := ((v.drop a).take (b - a)).sum

/-- `FirstCrossings T v s lo c`: the indices in `c` cut the values `v` into segments, the first one
starting at `s`, each later one starting right after the previous cut.  Each cut is the first index
(not before `lo` for the first segment) at which the sum of its segment reaches `T`, and after the last
cut the sum never reaches `T`. -/
def FirstCrossings {K : Type} [AddMonoid K] [LT K] [LE K] (T : K) (v : List K) :
    (s lo : Nat) → List Nat → Prop
  | s, lo, [] => ∀ j, lo ≤ j → j < v.length → rangeSum v s (j + 1) < T
  | s, lo, c :: cs =>
    lo ≤ c ∧ c < v.length ∧ T ≤ rangeSum v s (c + 1) ∧
    (∀ j, lo ≤ j → j < c → rangeSum v s (j + 1) < T) ∧
    FirstCrossings T v (c + 1) (c + 1) cs

/-- `x` is the `k`-th smallest element (counting from 0) of `l`. -/
def IsOrderStat {K : Type} [LinearOrder K] (l : List K) (k : Nat) (x : K) : Prop :=
  x ∈ l ∧ l.countP (fun y => decide (y < x)) ≤ k ∧ k < l.countP (fun y => decide (y ≤ x))

/-- `m` is the median of `l`: the mean of the two middle elements (which coincide for odd length). -/
def IsMedian {K : Type} [Field K] [LinearOrder K] (l : List K) (m : K) : Prop :=
  ∃ lo hi, IsOrderStat l ((l.length - 1) / 2) lo ∧ IsOrderStat l (l.length / 2) hi ∧ m = (lo + hi) / 2

end FinML
