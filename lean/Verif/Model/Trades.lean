/-
Model of the trade pre-processing pipeline: `finmlkit/bar/utils.py` (`comp_trade_side_vector`,
`merge_split_trades`, `median3`, `check_timestamps_order`) and `finmlkit/bar/data_model.py:121-418` (`TradesData`).
-/
import Verif.Model.Bars

namespace FinML

variable {K : Type} [Field K] [LinearOrder K]

/-! ## Tick rule -/

/-- `np.sign` as an integer. -/
def signK (x : K) : Int := if 0 < x then 1 else if x < 0 then -1 else 0

/-- `bar/utils.py:11-23` `comp_trade_side`; `eps` is the literal `1e-12`. -/
def tradeSide (eps price prevPrice : K) (prevTick : Int) : Int :=
  let dp := price - prevPrice
  if |dp| > eps then signK dp else prevTick

/-- `bar/utils.py:40-44`: the loop over trades `1 … n-1`. -/
def tradeSideLoop (eps : K) (prevPrice : K) (prevTick : Int) : List K → List Int
  | [] => []
  | p :: ps =>
    let s := tradeSide eps p prevPrice prevTick
    s :: tradeSideLoop eps p s ps

/-- `bar/utils.py:27-46` `comp_trade_side_vector` (on an empty array the code reads out of bounds; the model
returns an empty list). -/
def tradeSideVector (eps : K) : List K → List Int
  | [] => []
  | p :: ps => 0 :: tradeSideLoop eps p 0 ps

/-! ## Merging split trades -/

/-- One input trade of `merge_split_trades`. -/
structure RawTrade (K : Type) where
  ts : Int
  price : K
  amount : K
  maker : Bool
deriving DecidableEq

/-- One output trade of `merge_split_trades`; `side` is meaningless when side information is absent. -/
structure MTrade (K : Type) where
  ts : Int
  price : K
  amount : K
  side : Int
deriving DecidableEq

/-- `bar/utils.py:297,317`: -1 if the buyer is the maker, else 1. -/
def makerSide (m : Bool) : Int := if m then -1 else 1

/-- `bar/utils.py:293-297,313-317`: a new output trade. -/
def MTrade.start (withSide : Bool) (t : RawTrade K) : MTrade K :=
  ⟨t.ts, t.price, t.amount, if withSide then makerSide t.maker else 0⟩

/-- `bar/utils.py:301-305`: may `t` be merged into `cur`?  `tol` is the literal `1e-8`. -/
def sameTrade (tol : K) (withSide : Bool) (cur : MTrade K) (t : RawTrade K) : Bool :=
  decide (t.ts = cur.ts) && decide (|t.price - cur.price| < tol) &&
    (!withSide || (t.maker == decide (cur.side = -1)))

/-- `bar/utils.py:299-317`: the main loop, carrying the output trade being built. -/
def mergeLoop (tol : K) (withSide : Bool) (cur : MTrade K) : List (RawTrade K) → List (MTrade K)
  | [] => [cur]
  | t :: ts =>
    if sameTrade tol withSide cur t then
      mergeLoop tol withSide { cur with amount := cur.amount + t.amount } ts
    else cur :: mergeLoop tol withSide (MTrade.start withSide t) ts

/-- `bar/utils.py:264-329` `merge_split_trades` (on empty input the code reads out of bounds; the model returns an
empty list; amounts are exact instead of `float32`). -/
def mergeSplitTrades (tol : K) (withSide : Bool) : List (RawTrade K) → List (MTrade K)
  | [] => []
  | t :: ts => mergeLoop tol withSide (MTrade.start withSide t) ts

/-! ## Timestamps -/

/-- `bar/data_model.py:356-361,381`: nanoseconds per unit. -/
def unitFactor : String → Option Int
  | "s" => some 1000000000
  | "ms" => some 1000000
  | "us" => some 1000
  | "ns" => some 1
  | _ => none

/-- `bar/data_model.py:399-418` `_infer_timestamp_unit`, given the maximum timestamp (the comparison is exact
instead of in float64). -/
def inferUnit (maxTs : Int) : String :=
  if maxTs > 1000000000000000000 then "ns"
  else if maxTs > 1000000000000000 then "us"
  else if maxTs > 1000000000000 then "ms"
  else "s"

/-- Two's complement wrap-around of `int64` arithmetic. -/
def wrap64 (x : Int) : Int := (x + 9223372036854775808) % 18446744073709551616 - 9223372036854775808

/-- `bar/data_model.py:346-368` `_convert_timestamps_to_ns`. -/
def convertToNs (unit : String) (ts : List Int) : Except String (List Int) :=
  match unitFactor unit with
  | none => .error "Invalid timestamp format!"
  | some f => .ok (ts.map (fun t => wrap64 (t * f)))

/-- `bar/data_model.py:370-388` `_apply_timestamp_resolution`. -/
def applyResolution (procRes : Option String) (origUnit : String) (ts : List Int) : Except String (List Int) :=
  match procRes with
  | none => .ok ts
  | some r =>
    if r = "" ∨ r = origUnit then .ok ts
    else match unitFactor r with
      | none => .error "Invalid processing resolution"
      | some f => .ok (ts.map (fun t => t / f * f))

/-! ## Sorting and integrity checks -/

/-- One row of the trades frame. -/
structure TradeRow (K : Type) where
  ts : Int
  price : K
  amount : K
  id : Int
deriving DecidableEq

/-- pandas `drop_duplicates(subset='id', keep='first')`. -/
def dropDupIds : List Int → List (TradeRow K) → List (TradeRow K)
  | _, [] => []
  | seen, r :: rs => if r.id ∈ seen then dropDupIds seen rs else r :: dropDupIds (r.id :: seen) rs

/-- The order of `sort_values(by=['timestamp', 'id'])`. -/
def tsIdLe (a b : TradeRow K) : Prop := a.ts < b.ts ∨ (a.ts = b.ts ∧ a.id ≤ b.id)

instance : DecidableRel (tsIdLe : TradeRow K → TradeRow K → Prop) :=
  fun a b => by unfold tsIdLe; infer_instance

/-- `Series.is_monotonic_increasing` on the timestamps. -/
def tsMonotone : List (TradeRow K) → Bool
  | [] => true
  | [_] => true
  | a :: b :: l => decide (a.ts ≤ b.ts) && tsMonotone (b :: l)

/-- `bar/data_model.py:294-324` `_sort_trades` (the part that changes the data).  `sortId` is the result of
`sort_values(by=['id'])`, which is not stable: any sorted permutation. -/
def sortTrades (sortId : List (TradeRow K) → List (TradeRow K)) (rows : List (TradeRow K)) : List (TradeRow K) :=
  let d := dropDupIds [] (sortId rows)
  if tsMonotone d then d else d.insertionSort tsIdLe

/-- A discontinuity record, `bar/data_model.py:282-289`. -/
structure Discontinuity where
  startId : Int
  endId : Int
  missing : Int
  timeInterval : Int
deriving DecidableEq

/-- State of `_validate_data`: total gap size, records. -/
structure IntegrityReport where
  cumGap : Int
  discontinuities : List Discontinuity
deriving DecidableEq

/-- `bar/data_model.py:259-289`: the loop over the gaps of the id-sorted rows (one step per consecutive pair). -/
def validateLoop (rep : IntegrityReport) : List (TradeRow K) → IntegrityReport
  | [] => rep
  | [_] => rep
  | a :: b :: l =>
    let rep :=
      if b.id - a.id > 1 then
        let gap := b.id - a.id - 1
        let dt := b.ts - a.ts
        { cumGap := rep.cumGap + gap,
          discontinuities := if dt > 60000000000 then rep.discontinuities ++ [⟨a.id, b.id, gap, dt⟩]
            else rep.discontinuities }
      else rep
    validateLoop rep (b :: l)

/-- `bar/data_model.py:292`: `missing_pct`. -/
def missingPct (rows : List (TradeRow K)) : K :=
  ((validateLoop ⟨0, []⟩ rows).cumGap : K) / (rows.length : K) * 100

/-- `bar/data_model.py:299-313` (`_sort_trades`) and `:280` (`_validate_data`): the `data_ok` flag. -/
def dataOk (sortId : List (TradeRow K) → List (TradeRow K)) (rows : List (TradeRow K)) : Bool :=
  let d := dropDupIds [] (sortId rows)
  decide (d.length = rows.length) && (validateLoop ⟨0, []⟩ d).discontinuities.isEmpty

/-! ## The pipeline -/

/-- A row of the final frame. -/
structure OutTrade (K : Type) where
  ts : Int
  price : K
  amount : K
  side : Int
deriving DecidableEq

/-- `bar/data_model.py:326-344` `_merge_trades`: `is_buyer_maker` is read by position; it was not sorted along with
the rows. -/
def mergeTrades (tol : K) (rows : List (TradeRow K)) (makers : Option (List Bool)) : List (MTrade K) :=
  match makers with
  | none => mergeSplitTrades tol false (rows.map (fun r => ⟨r.ts, r.price, r.amount, false⟩))
  | some ms => mergeSplitTrades tol true
      (rows.mapIdx (fun i r => ⟨r.ts, r.price, r.amount, ms.getD i false⟩))

/-- `bar/data_model.py:162-183`: the pre-processing branch of `TradesData.__init__`; `unit` is the given or
inferred unit. -/
def preprocess (tol eps : K) (sortId : List (TradeRow K) → List (TradeRow K)) (unit : Option String)
    (procRes : Option String) (rows : List (TradeRow K)) (makers : Option (List Bool)) :
    Except String (List (OutTrade K)) :=
  let u := match unit with
    | some u => if u = "" then inferUnit ((rows.map (·.ts)).foldl max (rows.headD ⟨0, 0, 0, 0⟩).ts) else u
    | none => inferUnit ((rows.map (·.ts)).foldl max (rows.headD ⟨0, 0, 0, 0⟩).ts)
  match convertToNs u (rows.map (·.ts)) with
  | .error e => .error e
  | .ok ts =>
    let rows := List.zipWith (fun (r : TradeRow K) t => { r with ts := t }) rows ts
    let merged := mergeTrades tol (sortTrades sortId rows) makers
    match applyResolution procRes u (merged.map (·.ts)) with
    | .error e => .error e
    | .ok ts' =>
      let sides := match makers with
        | some _ => merged.map (·.side)
        | none => tradeSideVector eps (merged.map (·.price))
      .ok (List.zipWith (fun (m : MTrade K) (p : Int × Int) => ⟨p.1, m.price, m.amount, p.2⟩) merged (ts'.zip sides))

/-- `bar/utils.py:240-260` `fast_sort_trades`: the same index vector is applied to every column.  `idxs` is the result
of `np.argsort` (quicksort, not stable). -/
def fastSortTrades (idxs : List Nat) (ts : List Int) (px am : List K) (mk : Option (List Bool)) :
    List Int × List K × List K × Option (List Bool) :=
  (idxs.map (fun i => ts.getD i 0), idxs.map (fun i => px.getD i 0), idxs.map (fun i => am.getD i 0),
    mk.map (fun m => idxs.map (fun i => m.getD i false)))

/-! ## Small utilities -/

/-- `bar/utils.py:213-224` `median3`. -/
def median3 (a b c : K) : K :=
  let (a, b) := if a > b then (b, a) else (a, b)
  let (b, _c) := if b > c then (c, b) else (b, c)
  let (_a, b) := if a > b then (b, a) else (a, b)
  b

/-- `bar/utils.py:228-237` `check_timestamps_order`. -/
def checkTimestampsOrder : List Int → Bool
  | [] => true
  | [_] => true
  | a :: b :: l => if b < a then false else checkTimestampsOrder (b :: l)

end FinML
