/-
Model of `/repo/finmlkit/sampling/filters.py:6-70` on inputs with missing values (NaN = `none`).
-/
import Verif.Prelude

namespace FinML

variable {K : Type} [Field K] [LinearOrder K]

/-- `sampling/filters.py:44`: `np.log(series[i] / series[i - 1])`, NaN when either price is NaN. -/
def logRetNan (log : K → K) (prev cur : Option K) : Option K :=
  match prev, cur with
  | some p, some c => some (log (c / p))
  | _, _ => none

/-- `sampling/filters.py:57`: `max(0.0, s_pos + ret)`.  The compiled `max(a, b)` keeps `a` unless `b > a`, so a NaN gives `0.0`. -/
def sPosNan (s : K) (ret : Option K) : K := match ret with | some r => max 0 (s + r) | none => 0

/-- `sampling/filters.py:58`: `min(0.0, s_neg + ret)`, likewise. -/
def sNegNan (s : K) (ret : Option K) : K := match ret with | some r => min 0 (s + r) | none => 0

/-- `sampling/filters.py:53-68`: both comparisons with a NaN threshold are false. -/
def cusumNanLoop : Nat → K → K → List (Option K × Option K) → List Nat
  | _, _, _, [] => []
  | i, sPos, sNeg, (ret, thrs) :: rest =>
    let sPos := sPosNan sPos ret
    let sNeg := sNegNan sNeg ret
    match thrs with
    | none => cusumNanLoop (i + 1) sPos sNeg rest
    | some t =>
      if sNeg < -t then i :: cusumNanLoop (i + 1) sPos 0 rest
      else if sPos > t then i :: cusumNanLoop (i + 1) 0 sNeg rest
      else cusumNanLoop (i + 1) sPos sNeg rest

/-- `sampling/filters.py:6-70` `cusum_filter`. -/
def cusumFilterNan (log : K → K) (series threshold : List (Option K)) : Except String (List Nat) :=
  if series.length ≤ 1 then .error "Input time series must have at least 2 elements."
  else if threshold.length ≠ 1 ∧ threshold.length ≠ series.length then
    .error "Threshold array must either contain 1 const. element or len(raw_time_series) elements."
  else
    let thr := if threshold.length = 1 then List.replicate series.length (threshold.getD 0 none) else threshold
    .ok (cusumNanLoop 1 0 0 (List.zip (List.zipWith (logRetNan log) series series.tail) thr.tail))

end FinML
