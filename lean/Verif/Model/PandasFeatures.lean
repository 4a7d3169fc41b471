import Verif.Model.Indicators

/-!
# Features computed with pandas (`finmlkit/feature/transforms.py`)

A pandas series is a `List (Option K)`, `none` being NaN.  `rolling(w).apply(f)` evaluates `f` on complete windows
without NaN only (`min_periods` defaults to the window).  Logarithm, square root and arctangent are parameters.
-/

namespace FinML

variable {K : Type} [Field K] [LinearOrder K]

/-- The values of a list without NaN; `none` when one is missing. -/
def allSome {α : Type} : List (Option α) → Option (List α)
  | [] => some []
  | none :: _ => none
  | some a :: l => (allSome l).map (a :: ·)

/-- `Series.rolling(w).apply(f)`: NaN unless the window is complete and has no NaN. -/
def pdRolling {α β : Type} (xs : List (Option α)) (w : Nat) (f : List α → Option β) : List (Option β) :=
  rolling xs w (fun l => (allSome l).bind f)

/-- `Series.shift(p)`, `p` may be negative (`transforms.py:78-83`, `Lag`). -/
def pdShift (p : Int) (xs : List (Option K)) : List (Option K) :=
  tabulate xs.length (fun i => if (i : Int) - p < 0 then none else xs.getD ((i : Int) - p).toNat none)

/-- `transforms.py:136-148` (`Return`), non-zero prices; a NaN on either side gives NaN. -/
def pdReturn (log : K → K) (p : Int) (isLog : Bool) (xs : List (Option K)) : List (Option K) :=
  List.zipWith (fun a b => match a, b with
    | some x, some y => some (if isLog then log (x / y) else x / y - 1)
    | _, _ => none) xs (pdShift p xs)

/-- `transforms.py:132`: output name of `Return`. -/
def returnName (p : Nat) (_isLog : Bool) : String := "ret" ++ toString p

/-- `transforms.py:103`: output name of `ReturnT` for windows up to a microsecond. -/
def returnTName : String := "ret1"

/-- `transforms.py:1538` (`BarDuration`): seconds between a bar and the bar `p` places earlier. -/
def barDuration (p : Nat) (ts : List Int) : List (Option K) :=
  tabulate ts.length (fun i => if i < p then none else some (((ts.getD i 0 - ts.getD (i - p) 0 : Int) : K) / 1000000000))

/-- `transforms.py:1495-1498` (`BarDurationEWMA`): `ewm(span, adjust=True).mean()` of the durations, whose first entry
is NaN; the weights start with the first duration. -/
def barDurationEwma (span : Nat) (ts : List Int) : Except String (List (Option K)) :=
  match ts with
  | [] => .ok []
  | _ :: _ => (ewma ((barDuration 1 ts).tail.map (fun d => d.getD 0)) span).map (fun l => none :: l.map some)

/-- `transforms.py:1592`: sum of products of neighbours. -/
def neighbourProducts (l : List K) : K := (List.zipWith (· * ·) l.tail l.dropLast).sum

/-- `transforms.py:1584-1594` (`BiPowerVariation`); `c` is `(pi/2)**0.5`. -/
def biPower (c : K) (w : Nat) (xs : List (Option K)) : List (Option K) :=
  (pdRolling (xs.map (Option.map abs)) (w + 1) (fun l => some (neighbourProducts l))).map (Option.map (c * ·))

/-- The `k`-th central moment `mean((x - mean)^k)`. -/
def centralMoment (k : Nat) (l : List K) : K :=
  (l.map (fun x => (x - l.sum / (l.length : K)) ^ k)).sum / (l.length : K)

/-- `transforms.py:923`: `scipy.stats.kurtosis` (Fisher, biased); NaN for constant data. -/
def kurtWin (l : List K) : Option K :=
  if centralMoment 2 l = 0 then none else some (centralMoment 4 l / centralMoment 2 l ^ 2 - 3)

/-- `transforms.py:918-928` (`KurtosisTransform`). -/
def kurtosis (w : Nat) (xs : List (Option K)) : List (Option K) := pdRolling xs w kurtWin

/-- `transforms.py:1052-1056`: `(x - mean) / std` with `ddof = 1`; NaN for fewer than two values and for `0/0`. -/
def mrzWin (sqrt : K → K) (l : List K) : Option K :=
  if l.length ≤ 1 then none
  else
    let mean := l.sum / (l.length : K)
    let std := sqrt ((l.map (fun x => (x - mean) ^ 2)).sum / ((l.length : K) - 1))
    if std = 0 then none else some ((l.getLastD 0 - mean) / std)

/-- `transforms.py:1049-1058` (`MeanReversionZScore`). -/
def meanRevZ (sqrt : K → K) (w : Nat) (xs : List (Option K)) : List (Option K) := pdRolling xs w (mrzWin sqrt)

/-- Least-squares slope of points `(x, y)` (`scipy.stats.linregress`, `np.polyfit(…, 1)`). -/
def slopeOf (l : List (K × K)) : K :=
  let mx := (l.map Prod.fst).sum / (l.length : K)
  let my := (l.map Prod.snd).sum / (l.length : K)
  (l.map (fun p => (p.1 - mx) * (p.2 - my))).sum / (l.map (fun p => (p.1 - mx) ^ 2)).sum

/-- `transforms.py:963`: pair the window with `0, …, w-1`. -/
def withIndex (l : List K) : List (K × K) := ((List.range l.length).map (fun i : Nat => (i : K))).zip l

/-- `transforms.py:954-983` (`TrendSlope`) for windows of at least two bars; `angle` is `degrees(arctan(·))`, the
input is the series of log prices. -/
def trendSlope (angle : K → K) (w : Nat) (logs : List (Option K)) : List (Option K) :=
  pdRolling logs w (fun l => some (angle (slopeOf (withIndex l))))

/-- `series.cumsum()`. -/
def cumsum : List K → List K
  | [] => []
  | a :: l => a :: (cumsum l).map (a + ·)

/-- `transforms.py:1385-1386`: standard deviation of the `k`-step differences. -/
def lagStd (sqrt : K → K) (y : List K) (k : Nat) : K :=
  sqrt (centralMoment 2 (List.zipWith (fun a b => a - b) (y.drop k) y))

/-- `transforms.py:1380-1387`: the deviations for the lags shorter than the path. -/
def hurstTaus (sqrt : K → K) (y : List K) : List K := ([1, 2, 4, 8].filter (fun k => decide (k < y.length))).map (lagStd sqrt y)

/-- `transforms.py:1377-1392` `_hurst_aggregated_variance`; the fit raises when fewer than four lags are available. -/
def hurstWin (sqrt log : K → K) (l : List K) : Except String (Option K) :=
  let taus := hurstTaus sqrt (cumsum l)
  if taus.all (fun t => decide (t > 0)) then
    if taus.length = 4 then .ok (some (slopeOf (([1, 2, 4, 8] : List K).map log |>.zip (taus.map log))))
    else .error "TypeError: expected x and y to have same length"
  else .ok none

end FinML
