/-
The trade pre-processing kernels in float arithmetic: `comp_trade_side_vector` and `merge_split_trades`
(`finmlkit/bar/utils.py:11-46`, `:264-329`), prices in float64, amounts in float32.
-/
import Verif.Model.Float64Bars
import Verif.Model.Trades

namespace FinML

/-- `bar/utils.py:11-23` `comp_trade_side`. -/
def tradeSide64 (price prevPrice : ℚ) (prevTick : Int) : Int :=
  let dp := f64 (price - prevPrice)
  if |dp| > f64 (1 / 1000000000000) then signK dp else prevTick

/-- `bar/utils.py:40-44`. -/
def tradeSideLoop64 (prevPrice : ℚ) (prevTick : Int) : List ℚ → List Int
  | [] => []
  | p :: ps =>
    let s := tradeSide64 p prevPrice prevTick
    s :: tradeSideLoop64 p s ps

/-- `bar/utils.py:27-46` `comp_trade_side_vector`. -/
def tradeSideVector64 : List ℚ → List Int
  | [] => []
  | p :: ps => 0 :: tradeSideLoop64 p 0 ps

/-- `bar/utils.py:293-297,313-317`: a new output trade; the amount is rounded by `astype(np.float32)`
(`bar/data_model.py:335`). -/
def MTrade.start32 (withSide : Bool) (t : RawTrade ℚ) : MTrade ℚ :=
  ⟨t.ts, t.price, f32 t.amount, if withSide then makerSide t.maker else 0⟩

/-- `bar/utils.py:301-305`: the price difference is rounded to float64. -/
def sameTrade64 (withSide : Bool) (cur : MTrade ℚ) (t : RawTrade ℚ) : Bool :=
  decide (t.ts = cur.ts) && decide (|f64 (t.price - cur.price)| < f64 (1 / 100000000)) &&
    (!withSide || (t.maker == decide (cur.side = -1)))

/-- `bar/utils.py:299-317`: both operands of `merged_amounts[merged_idx] += amounts[i]` are float32. -/
def mergeLoop32 (withSide : Bool) (cur : MTrade ℚ) : List (RawTrade ℚ) → List (MTrade ℚ)
  | [] => [cur]
  | t :: ts =>
    if sameTrade64 withSide cur t then
      mergeLoop32 withSide { cur with amount := f32 (cur.amount + f32 t.amount) } ts
    else cur :: mergeLoop32 withSide (MTrade.start32 withSide t) ts

/-- `bar/data_model.py:332-337` and `bar/utils.py:264-329`. -/
def mergeSplitTrades32 (withSide : Bool) : List (RawTrade ℚ) → List (MTrade ℚ)
  | [] => []
  | t :: ts => mergeLoop32 withSide (MTrade.start32 withSide t) ts

end FinML
