/-
Model of `ApproximateEntropy` (`/repo/finmlkit/feature/transforms.py:1400-1457`).  `app_entropy` of the package `antropy` is an external
function; it is given its documented meaning (Pincus' approximate entropy with self-matches, Chebyshev distance, distance at most the
tolerance counts as a match, at least two and at most as many values per template as the series has).
-/
import Verif.Model.PandasFeatures

namespace FinML

variable {K : Type} [Field K] [LinearOrder K]

/-- The templates of length `m` of a series. -/
def templates (m : Nat) (l : List K) : List (List K) := (List.range (l.length + 1 - m)).map (fun i => (l.drop i).take m)

/-- Chebyshev distance at most `r`. -/
def withinR (r : K) (u v : List K) : Bool := (u.zip v).all (fun p => decide (|p.1 - p.2| ≤ r))

/-- The number of templates matching `u`, itself included. -/
def matchCount (r : K) (E : List (List K)) (u : List K) : Nat := E.countP (withinR r u)

/-- The mean logarithm of the fraction of matching templates. -/
def apPhi (log : K → K) (r : K) (m : Nat) (l : List K) : K :=
  let E := templates m l
  (E.map (fun u => log ((matchCount r E u : K) / (E.length : K)))).sum / (E.length : K)

/-- `antropy.app_entropy(l, order=m, metric="chebyshev", tolerance=r)`. -/
def apEn (log : K → K) (r : K) (m : Nat) (l : List K) : K := apPhi log r m l - apPhi log r (m + 1) l

/-- `np.std` (divisor `n`). -/
def popStd (sqrt : K → K) (l : List K) : K :=
  sqrt ((l.map (fun x => (x - l.sum / (l.length : K)) ^ 2)).sum / (l.length : K))

/-- `transforms.py:1440-1446`: the function applied to a window. -/
def apenWin (log sqrt : K → K) (m : Nat) (tol : K) (l : List K) : K := apEn log (tol * popStd sqrt l) m l

/-- `transforms.py:1431-1457`.  Without the package every call raises; templates that are too short or do not fit into the window
raise as soon as a complete window is evaluated. -/
def approxEntropy (installed : Bool) (log sqrt : K → K) (w m : Nat) (tol : K) (xs : List (Option K)) : Except String (List (Option K)) :=
  if !installed then .error "ImportError"
  else if (m < 2 ∨ w < m + 1) ∧ (pdRolling xs w (fun l => some l)).any Option.isSome then .error "ValueError"
  else .ok (pdRolling xs w (fun l => some (apenWin log sqrt m tol l)))

end FinML
