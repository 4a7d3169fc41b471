/-
Return attribution, combination and class balance of sample weights in float64 (`label/weights.py:52-103`, `:146-188`,
`label/kit.py:434-478`).
-/
import Verif.Model.Float64Weights
import Verif.Model.Float64Bars

namespace FinML

/-- `label/weights.py:89-92`: the terms `log_rets[j] / concurrency[j]` that are added for one label. -/
def attrTerms64 (lr : List (Option ℚ)) (conc : List Int) (s : Nat × Nat) : List ℚ :=
  (List.range' s.1 (s.2 + 1 - s.1)).filterMap (fun j =>
    match lr.getD j none with
    | none => none
    | some r => if conc.getD j 0 > 0 then some (f64 (r / ((conc.getD j 0 : Int) : ℚ))) else none)

/-- `label/weights.py:89-94`: the weight of one label before normalisation. -/
def attribution64 (lr : List (Option ℚ)) (conc : List Int) (s : Nat × Nat) : ℚ := |sum64 (attrTerms64 lr conc s)|

/-- `label/weights.py:172-175`. -/
def classSums64 (classes : List Int) (labels : List Int) (w : List ℚ) : List ℚ :=
  (List.range classes.length).map (fun c => sum64 (((labels.zip w).filter (fun p => searchLeft classes p.1 = c)).map (·.2)))

/-- `label/weights.py:177-186`: class weights and final weights of `class_balance_weights`. -/
def classBalance64 (labels : List Int) (w : List ℚ) : List ℚ × List ℚ :=
  let classes := uniqueLabels labels
  let sums := classSums64 classes labels w
  let total := sum64 sums
  let cw := sums.map (fun s => if s > 0 then f64 (total / f64 ((classes.length : ℚ) * s)) else 0)
  (cw, List.zipWith (fun l x => f64 (x * cw.getD (searchLeft classes l) 0)) labels w)

/-- `label/kit.py:434-439`: return attributions normalised to sum up to the event count; pandas adds them in the order `t`. -/
def infoAttr64 (t : SumTree) : Except String (List ℚ) :=
  if t.eval64 ≤ 0 then .error "Return attribution sum is zero or negative, cannot normalize."
  else .ok (t.leaves.map (fun x => f64 (f64 (x * (t.leaves.length : ℚ)) / t.eval64)))

/-- `label/kit.py:443-450`: decay times information weight times vertical-touch weight. -/
def combine64 (d i : List ℚ) (vtw : Option (List ℚ)) : List ℚ :=
  let c := List.zipWith (fun x y => f64 (x * y)) d i
  match vtw with
  | none => c
  | some v => List.zipWith (fun x y => f64 (x * y)) c v

/-- `label/kit.py:452-478`: normalisation to mean one, the mean taken in the order `t`, then class balance. -/
def finalFrom64 (t : SumTree) (labels : Option (List Int)) : Except String (List ℚ) :=
  if mean64 t ≤ 0 then .error "Mean of combined weights is zero or negative, cannot normalize."
  else
    let base := t.leaves.map (fun x => f64 (x / mean64 t))
    match labels with
    | none => .ok base
    | some l => .ok (classBalance64 l base).2

end FinML
