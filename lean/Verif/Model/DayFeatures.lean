/-
Models of `DailyGap`, `ORBBreak`, `BarRate` and `CandleShape` (`finmlkit/feature/transforms.py:1065-1338`).
The index is an ascending list of timestamps in nanoseconds (UTC); prices are not NaN.
-/
import Verif.Model.TimeBarStore
import Verif.Model.Indicators

namespace FinML

variable {K : Type} [Field K] [LinearOrder K]

/-! ### DailyGap -/

/-- `series.shift(1)` (`transforms.py:1099`) as (timestamp, value) rows; `prev` is the value before the first row. -/
def shiftRows (prev : Option K) : List (Int × K) → List (Int × Option K)
  | [] => []
  | r :: rows => (r.1, prev) :: shiftRows (some r.2) rows

/-- `series.resample('D').first()` (`transforms.py:1096`) on day number `d`. -/
def firstOfDay (rows : List (Int × K)) (d : Int) : Option K :=
  (rows.find? (fun r => decide (r.1 / dayNs = d))).map (·.2)

/-- `series.shift(1).resample('D').last()` (`transforms.py:1099`) on day number `d`: the last value that is not NaN. -/
def lastShifted (rows : List (Int × K)) (d : Int) : Option K :=
  ((shiftRows none rows).filterMap (fun r => if r.1 / dayNs = d then r.2 else none)).getLast?

/-- `transforms.py:1102`: the gap of day `d`; a zero denominator is left out. -/
def gapOfDay (rows : List (Int × K)) (d : Int) : Option K :=
  match firstOfDay rows d, lastShifted rows d with
  | some x, some u => if u = 0 then none else some ((x - u) / u)
  | _, _ => none

/-- `transforms.py:1065-1117` `DailyGap._pd`: the gap is placed on the row stamped exactly midnight. -/
def dailyGap (rows : List (Int × K)) : List (Option K) :=
  rows.map (fun r => if r.1 % dayNs = 0 then gapOfDay rows (r.1 / dayNs) else none)

/-! ### ORBBreak -/

/-- One bar as read by `ORBBreak`. -/
structure OrbBar (K : Type) where
  ts : Int
  high : K
  low : K
  close : K

/-- `first_timestamp.hour == 0 and first_timestamp.minute == 0`, `transforms.py:1174`. -/
def inFirstMinute (t : Int) : Bool := decide (t % dayNs < 60000000000)

/-- `transforms.py:1165-1197`: the two conditions tested for the row at position `i`. -/
def orbAt (rows : List (OrbBar K)) (i : Nat) : Bool × Bool :=
  match rows[i]? with
  | none => (false, false)
  | some r =>
    let sameDay := fun q : OrbBar K => decide (q.ts / dayNs = r.ts / dayNs)
    let day := rows.filter sameDay
    let pos := (rows.take i).countP sameDay
    let opening := day.take 4
    match opening with
    | [] => (false, false)
    | f :: rest =>
      if inFirstMinute f.ts && decide (4 ≤ pos) then
        (decide ((rest.map (·.high)).foldl max f.high < r.close), decide (r.close < (rest.map (·.low)).foldl min f.low))
      else (false, false)

/-- `transforms.py:1122-1203` `ORBBreak._pd`.  `orb_long.loc[timestamp] = True` (`:1193`, `:1197`) sets every row with that
timestamp. -/
def orbBreak (rows : List (OrbBar K)) : List (Bool × Bool) :=
  (List.range rows.length).map (fun i =>
    let same := (List.range rows.length).filter (fun j => (rows[j]?).map (·.ts) == (rows[i]?).map (·.ts))
    (same.any (fun j => (orbAt rows j).1), same.any (fun j => (orbAt rows j).2)))

/-! ### BarRate -/

/-- `transforms.py:1231-1234`: the output name, by window length in seconds. -/
def barRateName (windowSec : Nat) : String :=
  if windowSec % 60 = 0 then "bars_per_hour" else s!"rate_{windowSec}/60m"

/-- `transforms.py:1240-1265` `BarRate._pd`: bars in the closed window of `w` nanoseconds ending at each bar, per hour. -/
def barRate (w : Int) (ts : List Int) : List K :=
  (List.range ts.length).map (fun i =>
    (((ts.take (i + 1)).countP (fun t => decide (ts.getD i 0 - w ≤ t)) : Nat) : K) / ((w : K) / 1000000000) * 3600)

/-! ### CandleShape -/

/-- The four outputs for one bar. -/
structure CandleOut (K : Type) where
  wickUp : K
  wickDn : K
  body : K
  vwapDrift : Option K

/-- `transforms.py:1304-1321` `CandleShape._pd` for one bar; `eps` is the `1e-12` of line 1311. -/
def candleShape (eps op hi lo cl vw : K) : CandleOut K :=
  let range := hi - lo + eps
  { wickUp := (hi - max op cl) / range
    wickDn := (min op cl - lo) / range
    body := |cl - op| / range
    vwapDrift := if op = 0 then none else some ((vw - op) / op) }

end FinML
