/-
The footprint of a bar with float64 prices and float32 level volumes (`bar/base.py:685-717`).
-/
import Verif.Model.Float64Bars
import Verif.Model.Footprint

namespace FinML

/-- `int(round(price / price_tick_size))` (`bar/base.py:688-689`, `:703`) for a positive tick size: rounded quotient, then the
nearest integer, ties to even. -/
def level64 (tick price : ℚ) : Int := rint (f64 (price / tick))

/-- `volumes_i[idx] += amount` (`bar/base.py:711`, `:714`): the float32 entry is widened, the sum rounded to float64, and the
result stored as float32. -/
def levelAdd32 (v amount : ℚ) : ℚ := f32 (f64 (v + amount))

/-- The volume of one level after the trades with these amounts (`bar/base.py:692-714`). -/
def levelVol32 (amounts : List ℚ) : ℚ := amounts.foldl levelAdd32 0

/-- `bar/base.py:698-717` for one trade, with float levels and float32 volumes. -/
def levelStep64 (tick : ℚ) (low : Int) (n : Nat) (st : Levels ℚ) (t : ℚ × ℚ × Int) : Except String (Levels ℚ) :=
  let idx := level64 tick t.1 - low
  if 0 ≤ idx ∧ idx < n then
    if t.2.2 = 1 then
      .ok { st with buyVol := st.buyVol.modify idx.toNat (fun v => levelAdd32 v t.2.1),
                    buyTicks := st.buyTicks.modify idx.toNat (· + 1) }
    else if t.2.2 = -1 then
      .ok { st with sellVol := st.sellVol.modify idx.toNat (fun v => levelAdd32 v t.2.1),
                    sellTicks := st.sellTicks.modify idx.toNat (· + 1) }
    else .ok st
  else .error "Something went wrong! Invalid price level index!"

/-- `bar/base.py:698-717`: the trades of one bar. -/
def levelLoop64 (tick : ℚ) (low : Int) (n : Nat) : Levels ℚ → List (ℚ × ℚ × Int) → Except String (Levels ℚ)
  | st, [] => .ok st
  | st, t :: ts =>
    match levelStep64 tick low n st t with
    | .ok st' => levelLoop64 tick low n st' ts
    | .error e => .error e

/-- `bar/base.py:687-717`: the levels of one bar with low `lowP` and high `highP`; the first component is the lowest level. -/
def footprint64 (tick lowP highP : ℚ) (ts : List (ℚ × ℚ × Int)) : Except String (Int × Levels ℚ) :=
  let low := level64 tick lowP
  let n := (level64 tick highP - low + 1).toNat
  match levelLoop64 tick low n (Levels.zero n) ts with
  | .ok l => .ok (low, l)
  | .error e => .error e

end FinML
