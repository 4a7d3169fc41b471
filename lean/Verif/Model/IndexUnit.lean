/-
The timestamps a transform takes from the index of its frame (`finmlkit/feature/base.py:254-298`), for every unit a pandas
`DatetimeIndex` can have, and the places that read them: `ReturnT` (`feature/transforms.py:112-117`), `EWMST` (`:327-332`),
`TimeCues` (`:438-442`) and the event search of the label kit (`label/kit.py:285-288`).
-/
import Verif.Model.Indicators
import Verif.Model.TbmObject

namespace FinML

variable {K : Type} [Field K] [LinearOrder K]

/-- Resolution of a `datetime64` array (pandas: `s`, `ms`, `us`, `ns`). -/
inductive IndexUnit
  | s | ms | us | ns
deriving DecidableEq

/-- Nanoseconds of one tick. -/
def IndexUnit.nanos : IndexUnit → Int
  | .s => 1000000000
  | .ms => 1000000
  | .us => 1000
  | .ns => 1

/-- A `DatetimeIndex`: the stored 64-bit integers and the unit they count. -/
structure DtIndex where
  unit : IndexUnit
  ticks : List Int
deriving DecidableEq

/-- The instants the index stands for, in nanoseconds since the epoch. -/
def DtIndex.instants (x : DtIndex) : List Int := x.ticks.map (· * x.unit.nanos)

/-- The input of a transform: not a frame, a frame whose index holds no dates, or a frame with a `DatetimeIndex`. -/
inductive FrameIndex
  | noFrame
  | noDates
  | dates (x : DtIndex)

/-- `base.py:254-298` `_check_datetime_index` and `_get_timestamps`: `x.index.values.astype(np.int64)`. -/
def getTimestamps : FrameIndex → Except String (List Int)
  | .noFrame => .error "Input must be a pandas DataFrame"
  | .noDates => .error "Input DataFrame must have a datetime index for time-based features."
  | .dates x => .ok x.ticks

/-- `transforms.py:112-117` `ReturnT._nb`. -/
def returnTOn (log : K → K) (f : FrameIndex) (close : List K) (w : Int) (isLog : Bool) : Except String (List (Ext K)) :=
  match getTimestamps f with
  | .error e => .error e
  | .ok ts => laggedReturns log ts close w isLog

/-- `transforms.py:327-332` `EWMST._nb`; `exp x` is `np.exp`, `halfLife` is in seconds (`volatility.py:178-182`). -/
def ewmstOn (sqrt exp : K → K) (halfLife floor : K) (f : FrameIndex) (y : List (Option K)) : Except String (List (Option K)) :=
  match getTimestamps f with
  | .error e => .error e
  | .ok ts => .ok (ewmst sqrt (fun d => exp (-((d : K) / 1000000000) / halfLife)) floor ts y)

/-- `transforms.py:438-442` `TimeCues._nb`. -/
def timeCuesOn (sin cos : K → K) (pi2 : K) (f : FrameIndex) : Except String (List (K × K × K × K × TimeCue)) :=
  match getTimestamps f with
  | .error e => .error e
  | .ok ts => .ok (timeCues sin cos pi2 ts)

/-- `label/kit.py:288`: `np.searchsorted(trades.data.timestamp.values, features.index.values.astype(np.int64))`.  The event
stamped at the instant `r.ts` is stored as `r.ts / nanos` ticks. -/
def eventPosition (u : IndexUnit) (ts : List Int) (r : EventRow K) : Nat := searchLeft ts (r.ts / u.nanos)

/-- `label/kit.py:272-313` `compute_labels` for a features index of unit `u`: the trailing events are dropped by instant
(`:269`, pandas compares instants), the event indices are found by `eventPosition` unless there is an `event_idx` column. -/
def tbmComputeOn (log : K → K) (u : IndexUnit) (o : TbmObj K) (ts : List Int) (close : List K) : TbmObj K × Option String :=
  match o.idx with
  | some _ => tbmCompute log o ts close
  | none =>
    let r := tbmCompute log { o with idx := some (eventPosition u ts) } ts close
    ({ r.1 with idx := none }, r.2)

end FinML
