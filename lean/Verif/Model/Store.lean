/-
Model of the monthly HDF5 trade store: `finmlkit/bar/data_model.py:420-772,1064-1083` (`save_h5`, `_keys_for_timerange`,
`load_trades_h5`) and of the ingestion loop `scripts/binance2h5.py:195-267` (`_writer_thread`, `process_all`).

The HDF5 file is three finite maps (association lists) keyed by month: `/trades/K`, `/meta/K`, `/integrity/K`.
Each pandas `put`/`remove`/`append` is one atomic step; compression, chunking and file locking are not modelled.
The month key type `κ` is any linear order (the code uses strings `YYYY-MM`, whose string order is the order of months;
see `Verif/Props/Months.lean`).
-/
import Verif.Model.Trades

namespace FinML

variable {K : Type} [Field K] [LinearOrder K] {κ : Type} [LinearOrder κ] {V : Type}

/-! ## Finite maps -/

/-- The value stored under a key. -/
def aget (k : κ) : List (κ × V) → Option V
  | [] => none
  | (k', v) :: m => if k' = k then some v else aget k m

/-- Remove a key. -/
def adel (k : κ) : List (κ × V) → List (κ × V)
  | [] => []
  | (k', v) :: m => if k' = k then adel k m else (k', v) :: adel k m

/-- Store a value under a key, replacing any previous value. -/
def aset (k : κ) (v : V) (m : List (κ × V)) : List (κ × V) := (k, v) :: adel k m

/-! ## The store -/

/-- The `/meta/K` record, `bar/data_model.py:536-545` (the two integrity fields are carried but never interpreted). -/
structure Meta (K : Type) where
  recordCount : Nat
  firstTs : Int
  lastTs : Int
  dataOk : Option Bool
  missingPct : K
deriving DecidableEq

/-- The data of a `TradesData` object that `save_h5` writes.  `dataOk = none` is the initial `data_ok = None`
(`bar/data_model.py:171-173`) of an object whose ids were not checked. -/
structure Frame (K : Type) where
  rows : List (OutTrade K)
  dataOk : Option Bool
  missingPct : K
  discontinuities : List Discontinuity
deriving DecidableEq

/-- The HDF5 file. -/
structure Store (κ K : Type) where
  trades : List (κ × List (OutTrade K))
  metas : List (κ × Meta K)
  integrity : List (κ × List Discontinuity)
deriving DecidableEq

/-- An empty file. -/
def Store.empty : Store κ K := ⟨[], [], []⟩

/-- One primitive pandas operation on the file. -/
inductive StoreOp (κ K : Type)
  | rmTrades (k : κ)
  | rmMeta (k : κ)
  | rmIntegrity (k : κ)
  | putTrades (k : κ) (rows : List (OutTrade K))
  | appendTrades (k : κ) (rows : List (OutTrade K))
  | putMeta (k : κ) (m : Meta K)
  | putIntegrity (k : κ) (d : List Discontinuity)

/-- Effect of one operation.  `HDFStore.remove` of an absent key raises `KeyError`. -/
def StoreOp.run (st : Store κ K) : StoreOp κ K → Except String (Store κ K)
  | .rmTrades k => if (aget k st.trades).isSome then .ok { st with trades := adel k st.trades } else .error "KeyError"
  | .rmMeta k => if (aget k st.metas).isSome then .ok { st with metas := adel k st.metas } else .error "KeyError"
  | .rmIntegrity k =>
    if (aget k st.integrity).isSome then .ok { st with integrity := adel k st.integrity } else .error "KeyError"
  | .putTrades k rows => .ok { st with trades := aset k rows st.trades }
  | .appendTrades k rows => .ok { st with trades := aset k ((aget k st.trades).getD [] ++ rows) st.trades }
  | .putMeta k m => .ok { st with metas := aset k m st.metas }
  | .putIntegrity k d => .ok { st with integrity := aset k d st.integrity }

/-- Run operations until the first error; the file keeps the effect of those before it. -/
def runOps (st : Store κ K) : List (StoreOp κ K) → Store κ K × Option String
  | [] => (st, none)
  | o :: os =>
    match o.run st with
    | .ok st' => runOps st' os
    | .error e => (st, some e)

/-- `bar/data_model.py:536-546`: the metadata written at the end of a save. -/
def saveMeta (st : Store κ K) (k : κ) (f : Frame K) (overwrite : Bool) : Meta K :=
  let ex := (aget k st.trades).isSome
  { recordCount := if ex && overwrite then f.rows.length
      else if ex then ((aget k st.trades).getD [] ++ f.rows).length else f.rows.length,
    firstTs := (f.rows.head?.map (·.ts)).getD 0,
    lastTs := (f.rows.getLast?.map (·.ts)).getD 0,
    dataOk := f.dataOk,
    missingPct := f.missingPct }

/-- `bar/data_model.py:471-569`: the operations `save_h5` performs, given the state of the file when it is opened. -/
def saveOps (st : Store κ K) (k : κ) (f : Frame K) (overwrite : Bool) : List (StoreOp κ K) :=
  let ex := (aget k st.trades).isSome
  (if ex && overwrite then
      [.rmTrades k, .rmMeta k] ++ (if (aget k st.integrity).isSome then [.rmIntegrity k] else []) ++
        [.putTrades k f.rows]
    else if ex then [.appendTrades k f.rows]
    else [.putTrades k f.rows]) ++
  [.putMeta k (saveMeta st k f overwrite)] ++
  (if f.discontinuities.isEmpty then [] else [.putIntegrity k f.discontinuities])

/-- `bar/data_model.py:500-505` on an empty frame: the old month is removed when it is overwritten; pandas writes no table for
an empty frame, neither with `put` nor with `append`. -/
def saveOpsEmpty (st : Store κ K) (k : κ) (overwrite : Bool) : List (StoreOp κ K) :=
  if (aget k st.trades).isSome && overwrite then
    [.rmTrades k, .rmMeta k] ++ (if (aget k st.integrity).isSome then [.rmIntegrity k] else [])
  else []

/-- `bar/data_model.py:420-574` `save_h5`: the resulting file and the exception raised, if any.  `monthOf` renders the
month of a timestamp; it is used when no `month_key` is given.  Saving an empty frame fails before anything is written when
there is no month key (`:450`), else when the metadata is computed (`:540`), after the old month was removed. -/
def saveH5 (monthOf : Int → κ) (monthKey : Option κ) (overwrite : Bool) (st : Store κ K) (f : Frame K) :
    Store κ K × Option String :=
  match f.rows.head? with
  | none =>
    match monthKey with
    | none => (st, some "IndexError")
    | some k =>
      match runOps st (saveOpsEmpty st k overwrite) with
      | (st', none) => (st', some "IndexError")
      | (st', some e) => (st', some e)
  | some r =>
    let k := monthKey.getD (monthOf r.ts)
    runOps st (saveOps st k f overwrite)

/-! ## Loading -/

/-- Is `t` inside the (optional, inclusive) bounds? -/
def inBounds (start stop : Option Int) (t : Int) : Bool :=
  (match start with | none => true | some s => decide (s ≤ t)) &&
  (match stop with | none => true | some e => decide (t ≤ e))

/-- `bar/data_model.py:579-594` `_keys_for_timerange`. -/
def keysForRange (st : Store κ K) (start stop : Option Int) : List κ :=
  ((st.metas.filter (fun p =>
      (match stop with | none => true | some e => decide (p.2.firstTs ≤ e)) &&
      (match start with | none => true | some s => decide (p.2.lastTs ≥ s)))).map (·.1)).insertionSort (· ≤ ·)

/-- `bar/data_model.py:1064-1083` (worker) and `:739-748`: read one group; a group that cannot be read raises. -/
def loadGroup (st : Store κ K) (start stop : Option Int) (k : κ) : Except String (List (OutTrade K)) :=
  match aget k st.trades with
  | none => .error "KeyError"
  | some rows => .ok (rows.filter (fun r => inBounds start stop r.ts))

/-- `Index.is_monotonic_increasing`. -/
def rowsMonotone : List (OutTrade K) → Bool
  | [] => true
  | [_] => true
  | a :: b :: l => decide (a.ts ≤ b.ts) && rowsMonotone (b :: l)

/-- `bar/data_model.py:752-764`: concatenate the frames and sort if needed.  `sortIdx` is `sort_index`, which is not
stable: any sorted permutation. -/
def finishLoad (sortIdx : List (OutTrade K) → List (OutTrade K)) (frames : List (List (OutTrade K))) :
    Except String (List (OutTrade K)) :=
  if frames = [] then .error "ValueError"
  else
    let df := frames.flatten
    .ok (if rowsMonotone df then df else sortIdx df)

/-- `bar/data_model.py:655-669`: the groups to read. -/
def keysToLoad (st : Store κ K) (key : Option κ) (start stop : Option Int) : Except String (List κ) :=
  match key with
  | some k => if (aget k st.trades).isSome then .ok [k] else .error "KeyError"
  | none =>
    match keysForRange st start stop with
    | [] => .error "KeyError"
    | ks => .ok ks

/-- A group contributes a frame when its read succeeded and is not empty (`df.empty`). -/
def usable : Except String (List (OutTrade K)) → Option (List (OutTrade K))
  | .ok (r :: rs) => some (r :: rs)
  | _ => none

/-- `bar/data_model.py:735-750`: sequential reading; groups whose read raises are logged and skipped, empty frames are
skipped.  `read` is the outcome of reading a group (normally `loadGroup`). -/
def loadSequential (read : κ → Except String (List (OutTrade K))) (ks : List κ) : List (List (OutTrade K)) :=
  ks.filterMap (fun k => usable (read k))

/-- `bar/data_model.py:711-722`: the dictionary of results filled in completion order. -/
def collectResults (read : κ → Except String (List (OutTrade K))) (completion : List κ) :
    List (κ × List (OutTrade K)) :=
  completion.foldl (fun d k => match usable (read k) with
    | some rows => aset k rows d
    | none => d) []

/-- `bar/data_model.py:689-728`: multiprocessing load; `completion` is the order in which workers finish. -/
def loadParallel (read : κ → Except String (List (OutTrade K))) (completion ks : List κ) : List (List (OutTrade K)) :=
  let d := collectResults read completion
  ks.filterMap (fun k => aget k d)

/-- `bar/data_model.py:596-772` `load_trades_h5`; `completion = none` is sequential reading. -/
def loadTrades (sortIdx : List (OutTrade K) → List (OutTrade K)) (st : Store κ K) (key : Option κ)
    (start stop : Option Int) (completion : Option (List κ)) : Except String (List (OutTrade K)) :=
  match keysToLoad st key start stop with
  | .error e => .error e
  | .ok ks =>
    finishLoad sortIdx (match completion with
      | none => loadSequential (loadGroup st start stop) ks
      | some c => loadParallel (loadGroup st start stop) c ks)

/-- `bar/data_model.py:171-173, 771-772`: the object `load_trades_h5` returns.  It is built without preprocessing, so the integrity
fields have their initial values. -/
def loadedFrame (rows : List (OutTrade K)) : Frame K := ⟨rows, none, 0, []⟩

/-- Load (`key`, `start`, `stop` as in `loadTrades`) and save the result back with `save_h5(month_key=monthKey)`. -/
def resave (sortIdx : List (OutTrade K) → List (OutTrade K)) (monthOf : Int → κ) (st : Store κ K) (key : Option κ)
    (start stop : Option Int) (monthKey : Option κ) (completion : Option (List κ)) : Store κ K × Option String :=
  match loadTrades sortIdx st key start stop completion with
  | .error e => (st, some e)
  | .ok rows => saveH5 monthOf monthKey true st (loadedFrame rows)

/-! ## Ingestion -/

/-- What a worker returns for one archive, `scripts/binance2h5.py:195-214`: an exception, nothing (skipped), or
trades. -/
inductive TaskResult (K : Type)
  | raised
  | skipped
  | trades (f : Frame K)

/-- `scripts/binance2h5.py:240-262`: callbacks put the trades on the queue in completion order. -/
def enqueued (completion : List (TaskResult K)) : List (Frame K) :=
  completion.filterMap (fun r => match r with | .trades f => some f | _ => none)

/-- `scripts/binance2h5.py:217-227`: the writer thread; an exception from `save_h5` ends the thread, the remaining
items are never written. -/
def writer (monthOf : Int → κ) (st : Store κ K) : List (Frame K) → Store κ K
  | [] => st
  | f :: fs =>
    match saveH5 monthOf none true st f with
    | (st', none) => writer monthOf st' fs
    | (st', some _) => st'

/-- `scripts/binance2h5.py:230-267` `process_all`. -/
def processAll (monthOf : Int → κ) (st : Store κ K) (completion : List (TaskResult K)) : Store κ K :=
  writer monthOf st (enqueued completion)

end FinML
