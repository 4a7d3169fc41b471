/-
Model of the stored time bars: `finmlkit/bar/io.py:424-565` (`AddTimeBarH5`) and `:677-950` (`TimeBarReader`).

The two HDF5 trees `/klines/K` and `/klines_meta/K` are finite maps keyed by month, as in `Verif/Model/Store.lean`;
`bare` holds groups written at the root of the file under a bare month name.  Bars are exact (the code stores `vwap`
and the median of resampled bars in float32).
-/
import Verif.Model.Store
import Verif.Model.Indexers

namespace FinML

variable {K : Type} [Field K] [LinearOrder K] {κ : Type} [LinearOrder κ]

/-- One row of a stored or resampled bar frame; `vwap = none` is NaN (`0/0` in a window without volume). -/
structure TBar (K : Type) where
  ts : Int
  opn : K
  high : K
  low : K
  close : K
  volume : K
  trades : Int
  vwap : Option K
  median : K
deriving DecidableEq

/-- `bar/base.py:132-169` `build_ohlcv` for `TimeBarKit` (`bar/kit.py:12-40`): time bars labelled with their close
timestamps (`bar_close_timestamps` drops the first clock value). -/
def buildTimeBars (ts : List Int) (prices volumes : List K) (interval : Int) : Except String (List (TBar K)) :=
  let idx := timeBarIndexer ts interval
  match compBarOhlcv prices volumes idx.2 with
  | .error e => .error e
  | .ok rows => .ok (List.zipWith (fun (t : Int) (b : Ohlcv K) =>
      ⟨t, b.opn, b.high, b.low, b.close, b.volume, b.trades, some b.vwap, b.median⟩) idx.1.tail rows)

/-! ## Resampling -/

/-- `DatetimeIndex.floor(timeframe)` for a fixed frequency of `d` nanoseconds. -/
def floorTo (d t : Int) : Int := t / d * d

/-- The distinct values in order of first appearance: the groups of `groupby(sort=False)`. -/
def uniq : List Int → List Int
  | [] => []
  | x :: xs => x :: (uniq xs).filter (fun y => y ≠ x)

/-- `bar/io.py:938-940`: `searchsorted(cum_w, cutoff, side="left")` on the running sums of the weights, as the first
position reaching the cutoff (the sums are non-decreasing), and the size there. -/
def wmedLoop (cutoff cum : K) : List (K × Int) → Option K
  | [] => none
  | p :: l => if cutoff ≤ cum + (p.2 : K) then some p.1 else wmedLoop cutoff (cum + (p.2 : K)) l

/-- `bar/io.py:931-940` `w_median`; `sortW` is `argsort` by size (not stable: any sorted permutation). -/
def wMedian (sortW : List (K × Int) → List (K × Int)) (l : List (K × Int)) : K :=
  let s := sortW l
  (wmedLoop ((s.map (fun p => (p.2 : K))).sum * (1 / 2)) 0 s).getD 0

/-- `bar/io.py:915-944`: the row of one group. -/
def aggBars (sortW : List (K × Int) → List (K × Int)) (k : Int) : List (TBar K) → TBar K
  | [] => ⟨k, 0, 0, 0, 0, 0, 0, none, 0⟩
  | r :: rs =>
    let g := r :: rs
    let vol := (g.map (·.volume)).sum
    { ts := k,
      opn := r.opn,
      high := (rs.map (·.high)).foldl max r.high,
      low := (rs.map (·.low)).foldl min r.low,
      close := (g.getLast?.map (·.close)).getD 0,
      volume := vol,
      trades := (g.map (·.trades)).sum,
      vwap := if vol = 0 then none else some ((g.map (fun b => b.vwap.getD 0 * b.volume)).sum / vol),
      median := wMedian sortW (g.map (fun b => (b.median, b.trades))) }

/-- `bar/io.py:890-950` `_resample`.  The final `dropna(subset=["open"])` removes nothing: stored bars always have an
open price (an interval without trades repeats the last price). -/
def resample (sortW : List (K × Int) → List (K × Int)) (d : Int) (rows : List (TBar K)) : List (TBar K) :=
  (uniq (rows.map (fun r => floorTo d r.ts))).map
    (fun k => aggBars sortW k (rows.filter (fun r => floorTo d r.ts = k)))

/-! ## The store of time bars -/

/-- The `/klines_meta/K` record, `bar/io.py:502-507`. -/
structure KMeta where
  recordCount : Nat
  firstTs : Int
  lastTs : Int
deriving DecidableEq

/-- The part of the HDF5 file holding time bars. -/
structure KStore (κ K : Type) where
  klines : List (κ × List (TBar K))
  metas : List (κ × KMeta)
  bare : List (κ × (List (TBar K) ⊕ KMeta))

/-- A file without time bars. -/
def KStore.empty : KStore κ K := ⟨[], [], []⟩

/-- A key as accepted by `process_key` (`bar/io.py:447`): `'/trades/YYYY-MM'` or `'YYYY-MM'`. -/
inductive TKey (κ : Type)
  | full (k : κ)
  | plain (k : κ)

/-- `bar/io.py:502-507`: the metadata of a non-empty bar frame. -/
def kmetaOf (bars : List (TBar K)) : KMeta :=
  ⟨bars.length, (bars.head?.map (·.ts)).getD 0, (bars.getLast?.map (·.ts)).getD 0⟩

/-- `bar/io.py:441-514` `process_key`; `build` is the outcome of loading the month's trades and building one-second
bars.  With a plain month name the three `replace` calls change nothing, so bars and metadata share one key and the
metadata replaces the bars. -/
def processKey (overwrite : Bool) (build : Except String (List (TBar K))) (st : KStore κ K) :
    TKey κ → KStore κ K × Except String Bool
  | .full k =>
    if (aget k st.klines).isSome && !overwrite then (st, .ok false)
    else match build with
      | .error e => (st, .error e)
      | .ok [] => ({ st with klines := aset k [] st.klines }, .error "IndexError")
      | .ok (b :: bs) =>
        ({ st with klines := aset k (b :: bs) st.klines, metas := aset k (kmetaOf (b :: bs)) st.metas }, .ok true)
  | .plain k =>
    if (aget k st.bare).isSome && !overwrite then (st, .ok false)
    else match build with
      | .error e => (st, .error e)
      | .ok [] => ({ st with bare := aset k (.inl []) st.bare }, .error "IndexError")
      | .ok (b :: bs) =>
        let afterBars := aset k (.inl (b :: bs)) st.bare
        ({ st with bare := aset k (.inr (kmetaOf (b :: bs))) (adel k afterBars) }, .ok true)

/-- `bar/io.py:516-565` `process_all`: exceptions are caught and reported as `False`. -/
def processAllBars (overwrite : Bool) (build : κ → Except String (List (TBar K))) :
    KStore κ K → List κ → KStore κ K × List (κ × Bool)
  | st, [] => (st, [])
  | st, k :: ks =>
    let r := processKey overwrite (build k) st (.full k)
    let ok := match r.2 with | .ok b => b | .error _ => false
    let rest := processAllBars overwrite build r.1 ks
    (rest.1, (k, ok) :: rest.2)

/-! ## Reading -/

/-- Nanoseconds per day. -/
def dayNs : Int := 86400000000000

/-- `bar/io.py:838`: `end_time.time() == time(0, 0)`; `Timestamp.time()` has microsecond resolution. -/
def isMidnight (e : Int) : Bool := decide (e % dayNs / 1000 = 0)

/-- `bar/io.py:835-840`: the effective end of the range. -/
def effectiveEnd (stop : Option Int) : Option Int :=
  stop.map (fun e => if isMidnight e then e + dayNs - 1000 else e)

/-- `bar/io.py:730-759` `_find_relevant_keys`. -/
def relevantKeys (st : KStore κ K) (start stop : Option Int) : List κ :=
  ((st.metas.filter (fun p =>
      (match start with | none => true | some s => decide (p.2.lastTs ≥ s)) &&
      (match stop with | none => true | some e => decide (p.2.firstTs ≤ e)))).map (·.1)).insertionSort (· ≤ ·)

/-- `bar/io.py:849-864`: read the groups; a missing group raises. -/
def readGroups (st : KStore κ K) : List κ → Except String (List (TBar K))
  | [] => .ok []
  | k :: ks =>
    match aget k st.klines with
    | none => .error "KeyError"
    | some rows =>
      match readGroups st ks with
      | .error e => .error e
      | .ok rest => .ok (rows ++ rest)

/-- `bar/io.py:761-888` `read`.  `timeframe` is the target frequency in nanoseconds and whether its name ends with `D`. -/
def readBars (sortW : List (K × Int) → List (K × Int)) (st : KStore κ K) (start stop : Option Int)
    (timeframe : Option (Int × Bool)) : Except String (List (TBar K)) :=
  let stop' := effectiveEnd stop
  match readGroups st (relevantKeys st start stop') with
  | .error e => .error e
  | .ok df =>
    let df := df.filter (fun r => inBounds start stop' r.ts)
    match timeframe with
    | none => .ok df
    | some (d, isDay) =>
      let res := resample sortW d df
      match stop with
      | none => .ok res
      | some e => if isDay && isMidnight e then .ok (res.filter (fun r => r.ts ≤ e - dayNs)) else .ok res

/-- `bar/io.py:716-726`: loop body of `_list_time_range`. -/
def rangeStep (acc : Option (Int × Int)) (m : KMeta) : Option (Int × Int) :=
  match acc with
  | none => some (m.firstTs, m.lastTs)
  | some (a, b) => some (if m.firstTs < a then m.firstTs else a, if m.lastTs > b then m.lastTs else b)

/-- `bar/io.py:698-728` `_list_time_range`: earliest first and latest last timestamp over all metadata. -/
def listTimeRange (st : KStore κ K) : Option (Int × Int) := (st.metas.map (·.2)).foldl rangeStep none

end FinML
