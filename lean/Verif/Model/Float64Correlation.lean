/-
Price–volume correlation in float64 (`feature/core/correlation.py`).
-/
import Verif.Model.Indicators
import Verif.Model.Float64Returns

namespace FinML

/-- `correlation.py:26-32`: simple returns. -/
def relReturn64 (price : List (Option ℚ)) (i : Nat) : Option ℚ :=
  if i = 0 then none
  else match price.getD i none, price.getD (i - 1) none with
    | some a, some b => if b ≠ 0 then some (diffRet64 a b) else none
    | _, _ => none

/-- `correlation.py:71-75`: the valid pairs of the window. -/
def validPairs64 (price volume : List (Option ℚ)) (w i : Nat) : List (ℚ × ℚ) :=
  (List.range' (i + 1 - w) w).filterMap (fun j => bothSome (relReturn64 price j) (volume.getD j none))

/-- `correlation.py:84-85`. -/
def listMean64 (l : List ℚ) : ℚ := f64 (sum64 l / (l.length : ℚ))

/-- `correlation.py:92-97`: rounded sum of rounded products of rounded deviations. -/
def devSum64 (l : List (ℚ × ℚ)) (m n : ℚ) : ℚ := sum64 (l.map (fun p => f64 (f64 (p.1 - m) * f64 (p.2 - n))))

/-- `correlation.py:83-109`: correlation of the valid pairs, clamped. -/
def corrOf64 (sqrt64 : ℚ → ℚ) (l : List (ℚ × ℚ)) : Option ℚ :=
  if l.length < 2 then none
  else
    let mr := listMean64 (l.map (·.1))
    let mv := listMean64 (l.map (·.2))
    let cov := devSum64 l mr mv
    let sr := devSum64 (l.map (fun p => (p.1, p.1))) mr mr
    let sv := devSum64 (l.map (fun p => (p.2, p.2))) mv mv
    if sr > 0 ∧ sv > 0 then
      let c := f64 (cov / f64 (sqrt64 sr * sqrt64 sv))
      some (if c > 1 then 1 else if c < -1 then -1 else c)
    else none

/-- `correlation.py:35-109`: one position. -/
def corrAt64 (sqrt64 : ℚ → ℚ) (price volume : List (Option ℚ)) (w i : Nat) : Option ℚ :=
  if i < w then none
  else if (relReturn64 price i).isNone ∨ (volume.getD i none).isNone then none
  else if 4 ≤ i ∧ i < 10 ∧ noDecrease price w i ∧ noDecrease volume w i then some 1
  else if 4 ≤ i ∧ i < 10 ∧ noDecrease price w i ∧ noIncrease volume w i then some (-1)
  else corrOf64 sqrt64 (validPairs64 price volume w i)

/-- `correlation.py:9-111` `rolling_price_volume_correlation`. -/
def priceVolumeCorrelation64 (sqrt64 : ℚ → ℚ) (price volume : List (Option ℚ)) (w : Nat) : List (Option ℚ) :=
  tabulate price.length (corrAt64 sqrt64 price volume w)

end FinML
