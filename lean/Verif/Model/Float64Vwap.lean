/-
`feature/core/reversion.py` `vwap_distance` with float64 arithmetic.
-/
import Verif.Model.Float64Features

namespace FinML

/-- `np.log(close[i] / (wsum / vsum))` (`feature/core/reversion.py:50`). -/
def vwapDistLog64 (log64 : ℚ → ℚ) (c : ℚ) (s : ℚ × ℚ) : ℚ := log64 (f64 (c / f64 (s.1 / s.2)))

/-- `feature/core/reversion.py:39-54`: the output at position `np - 1 + m`; an empty window repeats the previous output. -/
def vwapOut64 (log64 : ℚ → ℚ) (close volume : List ℚ) (np : Nat) (isLog : Bool) : Nat → Option ℚ
  | 0 =>
    let s := (vwapSums64 close volume np).getD 0 (0, 0)
    if s.2 > 0 then some (vwapDistVal64 (close.getD (np - 1) 0) s) else none
  | m + 1 =>
    let s := (vwapSums64 close volume np).getD (m + 1) (0, 0)
    if s.2 > 0 then
      some (if isLog then vwapDistLog64 log64 (close.getD (np + m) 0) s else vwapDistVal64 (close.getD (np + m) 0) s)
    else vwapOut64 log64 close volume np isLog m

/-- `feature/core/reversion.py:9-56` `vwap_distance`. -/
def vwapDistance64 (log64 : ℚ → ℚ) (close volume : List ℚ) (np : Nat) (isLog : Bool) : List (Option ℚ) :=
  (List.range close.length).map (fun i => if i + 1 < np then none else vwapOut64 log64 close volume np isLog (i + 1 - np))

end FinML
