/-
The element type of the timestamp column of `finmlkit/bar/data_model.py`: the conversion to nanoseconds computes in
`int64` and writes the result back into the column that was handed in.
-/
import Verif.Model.Trades
import Verif.Model.FixedWidth

namespace FinML

variable {K : Type} [Field K] [LinearOrder K]

/-- The element type of the array `ts` (documented as "numeric", `bar/data_model.py:65`); the frame keeps it (`:162`). -/
inductive TsDtype where
  | sint (bits : Nat)
  | uint (bits : Nat)
  | float
deriving DecidableEq

/-- Assigning an `int64` to an element of an integer column keeps the low bits (numpy's `a[:] = b` casts unsafely). -/
def TsDtype.store : TsDtype → Int → Int
  | .sint b, x => storeInt b x
  | .uint b, x => x % 2 ^ b
  | .float, x => x

/-- `bar/data_model.py:346-368` `_convert_timestamps_to_ns` on a column of a given type.  The unit is checked first; then
`np.multiply(..., dtype=np.int64)` refuses a float operand (casting rule `same_kind`); the products go back into the column. -/
def convertColumn (d : TsDtype) (unit : String) (ts : List Int) : Except String (List Int) :=
  match convertToNs unit ts with
  | .error e => .error e
  | .ok out => if d = .float then .error "Cannot cast ufunc 'multiply' input 0" else .ok (out.map d.store)

/-- `bar/data_model.py:167-183`: `preprocess` on a timestamp column of a given type; `u` is the given or inferred unit. -/
def preprocessTyped (tol eps : K) (sortId : List (TradeRow K) → List (TradeRow K)) (d : TsDtype) (u : String)
    (procRes : Option String) (rows : List (TradeRow K)) (makers : Option (List Bool)) :
    Except String (List (OutTrade K)) :=
  match convertColumn d u (rows.map (·.ts)) with
  | .error e => .error e
  | .ok ts =>
    let rows := List.zipWith (fun (r : TradeRow K) t => { r with ts := t }) rows ts
    let merged := mergeTrades tol (sortTrades sortId rows) makers
    match applyResolution procRes u (merged.map (·.ts)) with
    | .error e => .error e
    | .ok ts' =>
      let sides := match makers with
        | some _ => merged.map (·.side)
        | none => tradeSideVector eps (merged.map (·.price))
      .ok (List.zipWith (fun (m : MTrade K) (p : Int × Int) => ⟨p.1, m.price, m.amount, p.2⟩) merged (ts'.zip sides))

end FinML
