/-
Model of the footprint kernels of `finmlkit/bar/base.py`.
-/
import Verif.Model.Bars

namespace FinML

variable {K : Type} [Field K] [LinearOrder K]

/-- The per-level arrays of one bar, `bar/base.py:691-695`. -/
structure Levels (K : Type) where
  buyVol : List K
  sellVol : List K
  buyTicks : List Int
  sellTicks : List Int
deriving DecidableEq

/-- `bar/base.py:691-695`: all arrays zero. -/
def Levels.zero (n : Nat) : Levels K :=
  ⟨List.replicate n 0, List.replicate n 0, List.replicate n 0, List.replicate n 0⟩

/-- `bar/base.py:698-717`: one trade.  `rnd price` models `int(round(price / price_tick_size))` for a fixed tick
size; it is a parameter (Python's banker's rounding and the float division are not modelled further). -/
def levelStep (rnd : K → Int) (low : Int) (n : Nat) (st : Levels K) (t : K × K × Int) :
    Except String (Levels K) :=
  let idx := rnd t.1 - low
  if 0 ≤ idx ∧ idx < n then
    if t.2.2 = 1 then
      .ok { st with buyVol := st.buyVol.modify idx.toNat (· + t.2.1),
                    buyTicks := st.buyTicks.modify idx.toNat (· + 1) }
    else if t.2.2 = -1 then
      .ok { st with sellVol := st.sellVol.modify idx.toNat (· + t.2.1),
                    sellTicks := st.sellTicks.modify idx.toNat (· + 1) }
    else .ok st
  else .error "Something went wrong! Invalid price level index!"

/-- `bar/base.py:698-717`: the loop over the trades of one bar. -/
def levelLoop (rnd : K → Int) (low : Int) (n : Nat) : Levels K → List (K × K × Int) → Except String (Levels K)
  | st, [] => .ok st
  | st, t :: ts =>
    match levelStep rnd low n st t with
    | .ok st' => levelLoop rnd low n st' ts
    | .error e => .error e

/-- `bar/base.py:797-800`: flags of the sell side, comparing `sell[l]` with `buy[l+1]`. -/
def sellImbalances (buy sell : List K) (m : K) : List Bool :=
  if buy.length > 1 then
    List.zipWith (fun s b => decide (s > b * m)) sell.dropLast buy.tail ++ [false]
  else List.replicate buy.length false

/-- `bar/base.py:797-800`: flags of the buy side, comparing `buy[l]` with `sell[l-1]`. -/
def buyImbalances (buy sell : List K) (m : K) : List Bool :=
  if buy.length > 1 then
    false :: List.zipWith (fun b s => decide (b > s * m)) buy.tail sell.dropLast
  else List.replicate buy.length false

/-- State of the run scan, `bar/base.py:803-806`. -/
structure RunState where
  maxRun : Nat
  maxSign : Int
  run : Nat
  runSign : Int
deriving DecidableEq

/-- `bar/base.py:809-822`: one level of the run scan. -/
def runStep (s : RunState) (sign : Int) : RunState :=
  let s : RunState :=
    if sign ≠ 0 ∧ sign = s.runSign then { s with run := s.run + 1 }
    else if sign ≠ 0 then { s with run := 1, runSign := sign }
    else { s with run := 0, runSign := 0 }
  if s.run > s.maxRun then { s with maxRun := s.run, maxSign := s.runSign } else s

/-- `bar/base.py:809`: sign of a level; a buy flag wins over a sell flag. -/
def levelSign (b s : Bool) : Int := if b then 1 else if s then -1 else 0

/-- `bar/base.py:803-824`: `imb_max_run_signed` before it is stored as `int16`. -/
def maxRunSigned (signs : List Int) : Int :=
  let s := signs.foldl runStep ⟨0, 0, 0, 0⟩
  s.maxRun * s.maxSign

/-- `np.argmax`: the first index of the maximum (0 on an empty array, where NumPy raises). -/
def argmaxLoop (best : K) (bestIdx : Nat) : Nat → List K → Nat
  | _, [] => bestIdx
  | i, x :: xs => if best < x then argmaxLoop x i (i + 1) xs else argmaxLoop best bestIdx (i + 1) xs

/-- `np.argmax` on a list. -/
def argmax : List K → Nat
  | [] => 0
  | x :: xs => argmaxLoop x 0 1 xs

/-- Output of `comp_footprint_features`, `bar/base.py:755-850`. -/
structure FootprintStats (K : Type) where
  buyImb : List Bool
  sellImb : List Bool
  maxRunSigned : Int
  cot : Int
  vpSkew : K
  vpGini : K
deriving DecidableEq

/-- `bar/base.py:826-848`: `(vp_skew, vp_gini)`. -/
def profileStats (levels : List Int) (total : List K) : K × K :=
  let sum := total.sum
  if sum > 0 ∧ levels.length > 0 then
    let vwap := (List.zipWith (fun (p : Int) v => (p : K) * v) levels total).sum / sum
    let skew := (List.zipWith (fun (p : Int) v => ((p : K) - vwap) * v) levels total).sum / sum
    let gini := 1 - (total.map (fun v => (v / sum) ^ 2)).sum
    (skew, gini)
  else (0, 0)

/-- `bar/base.py:755-850` `comp_footprint_features`. -/
def footprintFeatures (levels : List Int) (buy sell : List K) (m : K) : FootprintStats K :=
  let bi := buyImbalances buy sell m
  let si := sellImbalances buy sell m
  let total := List.zipWith (· + ·) buy sell
  { buyImb := bi, sellImb := si,
    maxRunSigned := maxRunSigned (List.zipWith levelSign bi si),
    cot := levels.getD (argmax total) 0,
    vpSkew := (profileStats levels total).1,
    vpGini := (profileStats levels total).2 }

/-- One bar's entry in the outputs of `comp_bar_footprints`. -/
structure Footprint (K : Type) where
  priceLevels : List Int
  lv : Levels K
  stats : FootprintStats K
  /-- `np.sum(…, dtype=np.uint16)` -/
  buyImbSum : Nat
  sellImbSum : Nat
deriving DecidableEq

/-- `bar/base.py:680-741`: one iteration of the outer loop, for a bar with the given trades
(price, amount, side) and its low and high. -/
def footprintBar (rnd : K → Int) (m : K) (barLow barHigh : K) (ts : List (K × K × Int)) :
    Except String (Footprint K) :=
  let low := rnd barLow
  let high := rnd barHigh
  let n := (high - low + 1).toNat
  match levelLoop rnd low n (Levels.zero n) ts with
  | .error e => .error e
  | .ok lv =>
    let levels := (List.range n).map (fun k : Nat => low + (k : Int))
    let st := footprintFeatures levels lv.buyVol lv.sellVol m
    .ok { priceLevels := levels, lv := lv, stats := st,
          buyImbSum := (st.buyImb.count true) % 65536,
          sellImbSum := (st.sellImb.count true) % 65536 }

/-- `bar/base.py:680-741`: the trades (price, amount, side) read by the loop `for j in range(start, end+1)`. -/
def footprintTrades (prices amounts : List K) (sides : List Int) (a b : Int) : List (K × K × Int) :=
  (idxRange (a + 1) b).map (fun j => (pyGet prices 0 j, pyGet amounts 0 j, pyGet sides 0 j))

end FinML
