/-
Model of `/repo/finmlkit/sampling/filters.py`.
-/
import Verif.Prelude

namespace FinML

variable {K : Type} [Field K] [LinearOrder K]

/-- `sampling/filters.py:53-68`: the event loop; each element carries the log return and threshold of
iteration `i`. -/
def cusumFilterLoop : Nat → K → K → List (K × K) → List Nat
  | _, _, _, [] => []
  | i, sPos, sNeg, (ret, thrs) :: rest =>
    let sPos := max 0 (sPos + ret)
    let sNeg := min 0 (sNeg + ret)
    if sNeg < -thrs then i :: cusumFilterLoop (i + 1) sPos 0 rest
    else if sPos > thrs then i :: cusumFilterLoop (i + 1) 0 sNeg rest
    else cusumFilterLoop (i + 1) sPos sNeg rest

/-- `sampling/filters.py:6-70` `cusum_filter` (`log` is `np.log`). -/
def cusumFilter (log : K → K) (series : List K) (threshold : List K) : Except String (List Nat) :=
  if series.length ≤ 1 then .error "Input time series must have at least 2 elements."
  else if threshold.length ≠ 1 ∧ threshold.length ≠ series.length then
    .error "Threshold array must either contain 1 const. element or len(raw_time_series) elements."
  else
    let n := series.length
    let thr := if threshold.length = 1 then List.replicate n (threshold.getD 0 0) else threshold
    let steps := (List.range' 1 (n - 1)).map
      (fun i => (log (series.getD i 0 / series.getD (i - 1) 0), thr.getD i 0))
    .ok (cusumFilterLoop 1 0 0 steps)

end FinML
