/-
Float64 versions of `CandleShape`, `DailyGap`, `BarRate`, `BarDuration` and `BiPowerVariation`
(`finmlkit/feature/transforms.py:1065-1330`, `:1511-1604`).  Every operation is rounded to 53 bits.
-/
import Verif.Model.DayFeatures
import Verif.Model.PandasFeatures
import Verif.Model.Float64Weights

namespace FinML

/-- The literal `1e-12` of `transforms.py:1311`. -/
def candleEps64 : ℚ := f64 (1 / 10 ^ 12)

/-- `(x - u) / u` (`transforms.py:1102`, `:1321`). -/
def relDiff64 (x u : ℚ) : ℚ := f64 (f64 (x - u) / u)

/-- `transforms.py:1304-1321` `CandleShape._pd` for one bar; `maximum`, `minimum` and `abs` are exact. -/
def candleShape64 (op hi lo cl vw : ℚ) : CandleOut ℚ :=
  let range := f64 (f64 (hi - lo) + candleEps64)
  { wickUp := f64 (f64 (hi - max op cl) / range)
    wickDn := f64 (f64 (min op cl - lo) / range)
    body := f64 (|f64 (cl - op)| / range)
    vwapDrift := if op = 0 then none else some (relDiff64 vw op) }

/-- `transforms.py:1102`: the gap of day `d`. -/
def gapOfDay64 (rows : List (Int × ℚ)) (d : Int) : Option ℚ :=
  match firstOfDay rows d, lastShifted rows d with
  | some x, some u => if u = 0 then none else some (relDiff64 x u)
  | _, _ => none

/-- `transforms.py:1065-1117` `DailyGap._pd`. -/
def dailyGap64 (rows : List (Int × ℚ)) : List (Option ℚ) :=
  rows.map (fun r => if r.1 % dayNs = 0 then gapOfDay64 rows (r.1 / dayNs) else none)

/-- `transforms.py:1262`: the rate of `k` bars in a window of `sec` seconds. -/
def rateOf64 (sec : ℚ) (k : Nat) : ℚ := f64 (f64 ((k : ℚ) / sec) * 3600)

/-- `transforms.py:1240-1265` `BarRate._pd`: the rolling sum of ones is a whole number, hence exact; `sec` is `window.total_seconds()`. -/
def barRate64 (w : Int) (sec : ℚ) (ts : List Int) : List ℚ :=
  (List.range ts.length).map (fun i => rateOf64 sec ((ts.take (i + 1)).countP (fun t => decide (ts.getD i 0 - w ≤ t))))

/-- `dt.total_seconds()` (`transforms.py:1538`): the nanoseconds as float64, divided by `1e9`. -/
def seconds64 (d : Int) : ℚ := f64 (f64 (d : ℚ) / 1000000000)

/-- `transforms.py:1538` (`BarDuration`). -/
def barDuration64 (p : Nat) (ts : List Int) : List (Option ℚ) :=
  tabulate ts.length (fun i => if i < p then none else some (seconds64 (ts.getD i 0 - ts.getD (i - p) 0)))

/-- `transforms.py:1592`: the products of neighbours, each rounded. -/
def pairProducts64 (l : List ℚ) : List ℚ := List.zipWith (fun a b => f64 (a * b)) l.tail l.dropLast

/-- `transforms.py:1584-1594` (`BiPowerVariation`): `c` is the float64 `(pi/2)**0.5`, `order` the order in which `np.sum` adds. -/
def biPower64 (c : ℚ) (order : List ℚ → SumTree) (w : Nat) (xs : List (Option ℚ)) : List (Option ℚ) :=
  (pdRolling (xs.map (Option.map abs)) (w + 1) (fun l => some (order (pairProducts64 l)).eval64)).map (Option.map (fun s => f64 (c * s)))

end FinML
