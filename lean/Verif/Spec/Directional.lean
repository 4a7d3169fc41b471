/-
Specification vocabulary for directional (buy/sell) bar features.
-/
import Verif.Prelude

namespace FinML

variable {K : Type} [Field K] [LinearOrder K]

/-- A trade as seen by the directional features: side (+1 buy, -1 sell), price, volume. -/
structure SidedTrade (K : Type) where
  side : Int
  price : K
  vol : K

/-- The trades given by three parallel arrays. -/
def sidedTrades (sides : List Int) (prices volumes : List K) : List (SidedTrade K) :=
  (sides.zip (prices.zip volumes)).map (fun t => ⟨t.1, t.2.1, t.2.2⟩)

/-- `c + x₀, c + x₀ + x₁, …` -/
def prefixSums {M : Type} [Add M] : M → List M → List M
  | _, [] => []
  | c, x :: l => (c + x) :: prefixSums (c + x) l

/-- The values `q` of the trades with side `±1`, negated for sells, in order. -/
def signedValues {M : Type} [Neg M] (q : SidedTrade K → M) (l : List (SidedTrade K)) : List M :=
  l.filterMap (fun t => if t.side = 1 then some (q t) else if t.side = -1 then some (-(q t)) else none)

/-- The path of the running imbalance within a bar: one value after each signed trade, starting from 0. -/
def imbalancePath {M : Type} [AddMonoid M] [Neg M] (q : SidedTrade K → M) (l : List (SidedTrade K)) : List M :=
  prefixSums 0 (signedValues q l)

/-- The trades of side `s`. -/
def ofSide (s : Int) (l : List (SidedTrade K)) : List (SidedTrade K) := l.filter (fun t => decide (t.side = s))

/-- The absolute price moves at the side switches of a sequence of trades, given the side and price of the
trade before it. -/
def switchMoves (prevSide : Int) (prevPrice : K) : List (SidedTrade K) → List K
  | [] => []
  | t :: l =>
    if t.side ≠ prevSide then |t.price - prevPrice| :: switchMoves t.side t.price l
    else switchMoves t.side t.price l

end FinML
