/-
Model of `H5Inspector` (`finmlkit/bar/io.py:13-308`) and of the view range of `TradesData`
(`finmlkit/bar/data_model.py:213-250`), over the trade store of `Verif.Model.Store`.
-/
import Verif.Model.Store
import Verif.Model.Indexers

namespace FinML

variable {K : Type} [Field K] [LinearOrder K] {κ : Type} [LinearOrder κ]

/-- `bar/io.py:22-31`: index entries whose difference to the previous entry exceeds `max_gap`, with that
difference.  The first difference is NaT and never exceeds. -/
def findGaps (maxGap : Int) : List Int → List (Int × Int)
  | a :: b :: l => if b - a > maxGap then (b, b - a) :: findGaps maxGap (b :: l) else findGaps maxGap (b :: l)
  | _ => []

/-- `bar/io.py:106-108` `list_keys`. -/
def listKeys (st : Store κ K) : List κ := st.trades.map (·.1)

/-- `bar/io.py:200-223` `inspect_gaps`: one entry per trade group.  The worker pool returns results in the order of
the keys, whatever the schedule. -/
def inspectGaps (maxGap : Int) (st : Store κ K) : List (κ × List (Int × Int)) :=
  (listKeys st).map (fun k => (k, findGaps maxGap (((aget k st.trades).getD []).map (·.ts))))

/-- `bar/io.py:131-135` `get_metadata`. -/
def getMetadata (st : Store κ K) (k : κ) : Except String (Meta K) :=
  if (aget k st.trades).isNone then .error "KeyError"
  else match aget k st.metas with
    | none => .error "KeyError"
    | some m => .ok m

/-- `bar/io.py:156-168` `get_integrity_info`. -/
def getIntegrityInfo (st : Store κ K) (k : κ) : Except String (Option (List Discontinuity)) :=
  if (aget k st.trades).isNone then .error "KeyError" else .ok (aget k st.integrity)

/-- The dictionary returned by `get_statistics`, `bar/io.py:192-198`. -/
structure Stats (K : Type) where
  recordCount : Nat
  firstTs : Int
  lastTs : Int
  priceRange : K × K
  amountRange : K × K
deriving DecidableEq

/-- `bar/io.py:170-198` `get_statistics`; `Series.min` and `Series.max` of a non-empty column (a stored month has rows:
pandas writes no table for an empty frame). -/
def getStatistics (st : Store κ K) (k : κ) : Except String (Stats K) :=
  match aget k st.trades with
  | none => .error "KeyError"
  | some [] => .error "empty"
  | some (r :: rs) => .ok
    { recordCount := (r :: rs).length
      firstTs := (rs.map (·.ts)).foldl min r.ts
      lastTs := (rs.map (·.ts)).foldl max r.ts
      priceRange := ((rs.map (·.price)).foldl min r.price, (rs.map (·.price)).foldl max r.price)
      amountRange := ((rs.map (·.amount)).foldl min r.amount, (rs.map (·.amount)).foldl max r.amount) }

/-- One value of the dictionary built at `bar/io.py:265-275`. -/
structure Issue (K : Type) where
  metadata : Meta K
  discontinuities : Option (List Discontinuity)
deriving DecidableEq

/-- `bar/io.py:255-275`: the entry of one group, if it is flagged (`is False`: a flag `None` is not reported). -/
def issueOf (st : Store κ K) (k : κ) : Option (Issue K) :=
  match aget k st.metas with
  | none => none
  | some m => if m.dataOk = some false then some ⟨m, aget k st.integrity⟩ else none

/-- `bar/io.py:225-308` `get_integrity_summary`, without the printing. -/
def integritySummary (st : Store κ K) : Option (List (κ × Issue K)) :=
  if (listKeys st).isEmpty then none
  else
    let result := (listKeys st).filterMap (fun k => (issueOf st k).map (fun i => (k, i)))
    if result.isEmpty then none else some result

/-- The view of a `TradesData` object: `none` or the two bounds, `bar/data_model.py:211-233`. -/
abbrev ViewRange := Option (Int × Int)

/-- `bar/data_model.py:212-229` `set_view_range`. -/
def setViewRange (start stop : Int) : Except String ViewRange :=
  if start ≥ stop then .error "Start timestamp must be before end timestamp." else .ok (some (start, stop))

/-- `bar/data_model.py:231-243` `data`: label slicing of an ascending time index takes both bounds. -/
def viewData (v : ViewRange) (rows : List (OutTrade K)) : List (OutTrade K) :=
  match v with
  | none => rows
  | some (s, e) =>
    let idx := rows.map (·.ts)
    (rows.take (searchRight idx e)).drop (searchLeft idx s)

end FinML
