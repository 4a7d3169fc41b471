/-
Sample weights in float64 arithmetic: `label/weights.py:8-142`.
-/
import Verif.Model.Float64
import Verif.Model.Label

namespace FinML

/-- A way of adding up numbers: `np.sum` and `np.mean` may add sequentially, pairwise or in parallel chunks, each chunk starting
from zero. -/
inductive SumTree where
  | zero
  | leaf (x : ℚ)
  | node (l r : SumTree)

/-- The numbers added. -/
def SumTree.leaves : SumTree → List ℚ
  | .zero => []
  | .leaf x => [x]
  | .node l r => l.leaves ++ r.leaves

/-- Each addition is rounded. -/
def SumTree.eval64 : SumTree → ℚ
  | .zero => 0
  | .leaf x => x
  | .node l r => f64 (l.eval64 + r.eval64)

/-- The number of additions on the longest path. -/
def SumTree.depth : SumTree → Nat
  | .zero => 0
  | .leaf _ => 0
  | .node l r => max l.depth r.depth + 1

/-- The order of a plain loop. -/
def SumTree.ofList (l : List ℚ) : SumTree := l.foldl (fun t x => .node t (.leaf x)) .zero

/-- `label/weights.py:44`: the terms `1.0 / concurrency_slice` of one label. -/
def uniqTerms64 (conc : List Int) (s : Nat × Nat) : List ℚ := (spanSlice conc s).map (fun (x : Int) => f64 (1 / (x : ℚ)))

/-- `label/weights.py:47`: `np.mean`, the sum in the order `t` divided by the count. -/
def mean64 (t : SumTree) : ℚ := f64 (t.eval64 / (t.leaves.length : ℚ))

/-- `np.cumsum` (a loop). -/
def cumsum64 (c : ℚ) : List ℚ → List ℚ
  | [] => []
  | x :: xs => f64 (c + x) :: cumsum64 (f64 (c + x)) xs

/-- `label/weights.py:128-132`. -/
def decaySlope64 (lw total : ℚ) : ℚ :=
  if lw ≥ 0 then f64 (f64 (1 - lw) / total) else f64 (1 / f64 (f64 (lw + 1) * total))

/-- `label/weights.py:106-142` `time_decay`. -/
def timeDecay64 (u : List ℚ) (lw : ℚ) : Except String (List ℚ) :=
  if ¬ (-1 ≤ lw ∧ lw ≤ 1) then .error "last_weight must lie in [-1, 1]"
  else
    let cum := cumsum64 0 u
    let total := cum.getLastD 0
    if total = 0 then .error "The sum of all average uniqueness weights must be grater than 0."
    else if lw < 0 ∧ f64 (f64 (lw + 1) * total) = 0 then .error "ZeroDivisionError"
    else
      let slope := decaySlope64 lw total
      let const := f64 (1 - f64 (slope * total))
      let w := cum.map (fun c => f64 (const + f64 (slope * c)))
      .ok (if lw < 0 then w.map (fun x => max x 0) else w)

/-- `label/weights.py:97-102`: normalisation, with the sum taken in the order `t`. -/
def normalise64 (t : SumTree) : Except String (List ℚ) :=
  if t.eval64 ≤ 0 then .error "Sum of weights is zero or negative, cannot normalize."
  else .ok (t.leaves.map (fun x => f64 (x * f64 ((t.leaves.length : ℚ) / t.eval64))))

end FinML
