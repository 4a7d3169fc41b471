/-
Model of the constructor of `TradesData` (`finmlkit/bar/data_model.py:121-191`) with all its optional arguments, as used
by `scripts/binance2h5.py:209-220` (pre-processing) and by `load_trades_h5` (`bar/data_model.py:768-772`).
-/
import Verif.Model.Trades

namespace FinML

variable {K : Type} [Field K] [LinearOrder K]

/-- The arguments of `TradesData(...)`, `bar/data_model.py:121-128`. -/
structure TradesArgs (K : Type) where
  ts : List Int
  px : List K
  qty : List K
  id : Option (List Int)
  maker : Option (List Bool)
  side : Option (List Int)
  dtIndex : Option (List Int)
  unit : Option String
  preprocess : Bool
  procRes : Option String

/-- The resulting object: the columns of `_data` (without the unused `id` column), its time index (nanoseconds) and
`orig_timestamp_unit`. -/
structure TradesObj (K : Type) where
  ts : List Int
  price : List K
  amount : List K
  side : Option (List Int)
  index : List Int
  unit : String
deriving DecidableEq

/-- `bar/data_model.py:167`: the given unit, unless it is missing or empty, else the inferred one. -/
def TradesArgs.unitOf (a : TradesArgs K) : String :=
  match a.unit with
  | some u => if u = "" then inferUnit (a.ts.foldl max (a.ts.headD 0)) else u
  | none => inferUnit (a.ts.foldl max (a.ts.headD 0))

/-- `bar/data_model.py:162`: `pd.DataFrame({...})` raises unless the arrays have one length (a missing `id` is a scalar). -/
def TradesArgs.sameLength (a : TradesArgs K) : Bool :=
  decide (a.px.length = a.ts.length) && decide (a.qty.length = a.ts.length) &&
    match a.id with
    | some i => decide (i.length = a.ts.length)
    | none => true

/-- `bar/data_model.py:165-166`: assigning the side column raises on another length. -/
def TradesArgs.sideFits (a : TradesArgs K) : Bool :=
  match a.side with
  | some s => decide (s.length = a.ts.length)
  | none => true

/-- The rows of the frame, `bar/data_model.py:162`. -/
def frameRows (ts : List Int) (px qty : List K) (ids : List Int) : List (TradeRow K) :=
  List.zipWith (fun (t : Int × K) (q : K × Int) => ⟨t.1, t.2, q.1, q.2⟩) (ts.zip px) (qty.zip ids)

/-- `bar/data_model.py:186-191`: the index.  `set_index` raises if the given index has another length. -/
def finishTrades (dtIndex : Option (List Int)) (ts : List Int) (price amount : List K) (side : Option (List Int))
    (unit : String) : Except String (TradesObj K) :=
  match dtIndex with
  | none => .ok ⟨ts, price, amount, side, ts, unit⟩
  | some d => if d.length = ts.length then .ok ⟨ts, price, amount, side, d, unit⟩ else .error "Length mismatch"

/-- `bar/data_model.py:121-191` `TradesData.__init__`.  The pre-processing replaces the frame (`:338-344`), so a side column
given as an argument is lost. -/
def tradesInit (tol eps : K) (sortId : List (TradeRow K) → List (TradeRow K)) (a : TradesArgs K) :
    Except String (TradesObj K) :=
  if !a.sameLength then .error "All arrays must be of the same length"
  else if !a.sideFits then .error "Length of values does not match length of index"
  else if a.preprocess then
    match a.id with
    | none => .error "id is required if preprocess is True"
    | some ids =>
      match preprocess tol eps sortId (some a.unitOf) a.procRes (frameRows a.ts a.px a.qty ids) a.maker with
      | .error e => .error e
      | .ok out => finishTrades a.dtIndex (out.map (·.ts)) (out.map (·.price)) (out.map (·.amount))
          (some (out.map (·.side))) a.unitOf
  else finishTrades a.dtIndex a.ts a.px a.qty a.side a.unitOf

end FinML
