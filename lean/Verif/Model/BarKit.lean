/-
Model of the bar builders `finmlkit/bar/base.py:24-304` (`BarBuilderBase`) and `finmlkit/bar/kit.py:13-183`
(`TimeBarKit`, `TickBarKit`, `VolumeBarKit`, `DollarBarKit`, `CUSUMBarKit`) as a state machine: the builder caches
the bar closes and the bar highs and lows between calls.

Simplified: logging and `__str__` are left out, and `build_footprints` receives the price-level function of the tick
size (`rndOf`, the expression `int(round(p / tick))` of `base.py:686,704`) and the tick estimator (`inferTick`,
`bar/utils.py:50-81`) as parameters.
-/
import Verif.Model.Indexers
import Verif.Model.Bars
import Verif.Model.Footprint
import Verif.Model.TradeSize

namespace FinML

variable {K : Type} [Field K] [LinearOrder K]

/-- The columns of `trades.data` that a builder reads (`bar/base.py:71`). -/
structure KitTrades (K : Type) where
  ts : List Int
  prices : List K
  amounts : List K
  sides : List Int

/-- The builder classes with their parameters (`bar/kit.py:18-28`, `43-55`, `72-84`, `103-115`, `136-160`); the time
interval is in nanoseconds. -/
inductive KitKind (K : Type) where
  | time (interval : Int)
  | tick (thr : Int)
  | volume (thr : K)
  | dollar (thr : K)
  | cusum (sigma : List (Option K)) (floor mult : K)

/-- `timestamps[close_indices]` (`bar/kit.py:65`, `97`, `130`, `173`): out-of-range indices raise. -/
def takeAt (ts : List Int) : List Nat → Except String (List Int)
  | [] => .ok []
  | i :: is =>
    match ts[i]? with
    | none => .error "IndexError"
    | some t =>
      match takeAt ts is with
      | .error e => .error e
      | .ok r => .ok (t :: r)

/-- `bar/kit.py:63-67` and its copies: close timestamps and indices of a threshold builder. -/
def closesAt (ts : List Int) (idx : List Nat) : Except String (List Int × List Int) :=
  match takeAt ts idx with
  | .error e => .error e
  | .ok c => .ok (c, idx.map (fun i : Nat => (i : Int)))

/-- `_comp_bar_close` of every builder (`bar/kit.py:30-36`, `57-67`, `86-99`, `117-132`, `162-175`). -/
def compBarClose (log : K → K) (tr : KitTrades K) : KitKind K → Except String (List Int × List Int)
  | .time I => .ok (timeBarIndexer tr.ts I)
  | .tick T => closesAt tr.ts (tickBarIndexer tr.ts T)
  | .volume T => closesAt tr.ts (volumeBarIndexer tr.amounts T)
  | .dollar T => closesAt tr.ts (dollarBarIndexer (tr.prices.zip tr.amounts) T)
  | .cusum sigma floor mult =>
    match cusumBarIndexer log tr.ts tr.prices sigma floor mult with
    | .error e => .error e
    | .ok idx => closesAt tr.ts idx

/-- The cached members `_close_ts`, `_close_indices`, `_highs`, `_lows` (`bar/base.py:73-76`). -/
structure BuilderState (K : Type) where
  closeTs : Option (List Int)
  closeIdx : Option (List Int)
  highs : Option (List K)
  lows : Option (List K)

/-- A new builder (`bar/base.py:65-76`). -/
def BuilderState.fresh : BuilderState K := ⟨none, none, none, none⟩

/-- `_set_bar_close` (`bar/base.py:100-106`). -/
def setBarClose (log : K → K) (tr : KitTrades K) (kind : KitKind K) (s : BuilderState K) :
    BuilderState K × Except String Unit :=
  if s.closeTs = none ∧ s.closeIdx = none then
    match compBarClose log tr kind with
    | .error e => (s, .error e)
    | .ok c => ({ s with closeTs := some c.1, closeIdx := some c.2 }, .ok ())
  else (s, .ok ())

/-- A table with one row per bar, indexed by bar close timestamp.  `pd.DataFrame` raises on columns of different
lengths (`bar/base.py:146-156`, `190-206`, `233-239`). -/
def asTable {α : Type} (closeTs : List Int) (rows : List α) : Except String (List (Int × α)) :=
  if closeTs.tail.length ≠ rows.length then .error "All arrays must be of the same length"
  else .ok (closeTs.tail.zip rows)

/-- Adjacent labels all differ by `I`: what pandas checks when a frequency is assigned (`bar/base.py:164-165`). -/
def regularIndex (I : Int) : List Int → Bool
  | a :: b :: l => decide (b = a + I) && regularIndex I (b :: l)
  | _ => true

/-- `bar/base.py:164-165`: the frequency assignment of time bars. -/
def freqOk (kind : KitKind K) (table : List (Int × Ohlcv K)) : Bool :=
  match kind with
  | .time I => regularIndex I (table.map Prod.fst)
  | _ => true

/-- `build_ohlcv` (`bar/base.py:131-167`).  The highs and lows are stored before the table is assembled. -/
def buildOhlcv (log : K → K) (tr : KitTrades K) (kind : KitKind K) (s : BuilderState K) :
    BuilderState K × Except String (List (Int × Ohlcv K)) :=
  match setBarClose log tr kind s with
  | (s, .error e) => (s, .error e)
  | (s, .ok ()) =>
    match compBarOhlcv tr.prices tr.amounts (s.closeIdx.getD []) with
    | .error e => (s, .error e)
    | .ok bars =>
      let s := { s with highs := some (bars.map (·.high)), lows := some (bars.map (·.low)) }
      match asTable (s.closeTs.getD []) bars with
      | .error e => (s, .error e)
      | .ok t => if freqOk kind t then (s, .ok t) else (s, .error "Inferred frequency does not conform")

/-- `build_directional_features` (`bar/base.py:169-212`). -/
def buildDirectional (log : K → K) (tr : KitTrades K) (kind : KitKind K) (s : BuilderState K) :
    BuilderState K × Except String (List (Int × DirBar K)) :=
  match setBarClose log tr kind s with
  | (s, .error e) => (s, .error e)
  | (s, .ok ()) =>
    (s, asTable (s.closeTs.getD []) (compBarDirectional tr.prices tr.amounts tr.sides (s.closeIdx.getD [])))

/-- `build_trade_size_features` (`bar/base.py:214-247`). -/
def buildTradeSize (log log1p : K → K) (tr : KitTrades K) (kind : KitKind K) (theta : List (Option K)) (mult : K)
    (s : BuilderState K) : BuilderState K × Except String (List (Int × SizeBar K)) :=
  match setBarClose log tr kind s with
  | (s, .error e) => (s, .error e)
  | (s, .ok ()) =>
    match compBarTradeSize log1p tr.amounts theta (s.closeIdx.getD []) mult with
    | .error e => (s, .error e)
    | .ok rows => (s, asTable (s.closeTs.getD []) rows)

/-- `comp_bar_footprints` (`bar/base.py:615-751`): one footprint per pair of closes, with that bar's low and high. -/
def compBarFootprints (rnd : K → Int) (m : K) (tr : KitTrades K) : List (Int × Int) → List K → List K →
    Except String (List (Footprint K))
  | c :: cs, lo :: los, hi :: his =>
    match footprintBar rnd m lo hi (footprintTrades tr.prices tr.amounts tr.sides c.1 c.2) with
    | .error e => .error e
    | .ok fp =>
      match compBarFootprints rnd m tr cs los his with
      | .error e => .error e
      | .ok fps => .ok (fp :: fps)
  | _, _, _ => .ok []

/-- `bar/base.py:259-261`: the highs and lows are computed by `build_ohlcv` when they are missing. -/
def ensureHighs (log : K → K) (tr : KitTrades K) (kind : KitKind K) (s : BuilderState K) :
    BuilderState K × Except String Unit :=
  if s.highs = none ∨ s.lows = none then
    match buildOhlcv log tr kind s with
    | (s, .error e) => (s, .error e)
    | (s, .ok _) => (s, .ok ())
  else (s, .ok ())

/-- The tick size used by `build_footprints` (`bar/base.py:263-265`). -/
def chosenTick (inferTick : List K → Except String K) (tr : KitTrades K) : Option K → Except String K
  | some t => .ok t
  | none => inferTick tr.prices

/-- `build_footprints` (`bar/base.py:249-304`): a container with the bar timestamps, the tick size and the bars.  The
container's constructor does not compare lengths. -/
def buildFootprints (log : K → K) (rndOf : K → K → Int) (inferTick : List K → Except String K) (tr : KitTrades K)
    (kind : KitKind K) (tick : Option K) (m : K) (s : BuilderState K) :
    BuilderState K × Except String (List Int × K × List (Footprint K)) :=
  match setBarClose log tr kind s with
  | (s, .error e) => (s, .error e)
  | (s, .ok ()) =>
    match ensureHighs log tr kind s with
    | (s, .error e) => (s, .error e)
    | (s, .ok ()) =>
      match chosenTick inferTick tr tick with
      | .error e => (s, .error e)
      | .ok t =>
        match compBarFootprints (rndOf t) m tr (closePairs (s.closeIdx.getD [])) (s.lows.getD []) (s.highs.getD []) with
        | .error e => (s, .error e)
        | .ok fps => (s, .ok ((s.closeTs.getD []).tail, t, fps))

/-- The public calls of a builder. -/
inductive KitCall (K : Type) where
  | closeIndices
  | closeTimestamps
  | ohlcv
  | directional
  | tradeSize (theta : List (Option K)) (mult : K)
  | footprints (tick : Option K) (m : K)

/-- What a call returns. -/
inductive KitOut (K : Type) where
  | ints (l : List Int)
  | bars (t : List (Int × Ohlcv K))
  | dirs (t : List (Int × DirBar K))
  | sizes (t : List (Int × SizeBar K))
  | fps (ts : List Int) (tick : K) (l : List (Footprint K))

/-- Tag a result. -/
def tagOut {α : Type} (f : α → KitOut K) (r : BuilderState K × Except String α) :
    BuilderState K × Except String (KitOut K) :=
  match r with
  | (s, .error e) => (s, .error e)
  | (s, .ok a) => (s, .ok (f a))

/-- One public call.  The two properties are `bar/base.py:108-128`: they compute the closes when their own member is
unset. -/
def kitCall (log log1p : K → K) (rndOf : K → K → Int) (inferTick : List K → Except String K) (tr : KitTrades K)
    (kind : KitKind K) (s : BuilderState K) : KitCall K → BuilderState K × Except String (KitOut K)
  | .closeIndices =>
    match (if s.closeIdx = none then setBarClose log tr kind s else (s, .ok ())) with
    | (s, .error e) => (s, .error e)
    | (s, .ok ()) => (s, .ok (.ints (s.closeIdx.getD []).tail))
  | .closeTimestamps =>
    match (if s.closeTs = none then setBarClose log tr kind s else (s, .ok ())) with
    | (s, .error e) => (s, .error e)
    | (s, .ok ()) => (s, .ok (.ints (s.closeTs.getD []).tail))
  | .ohlcv => tagOut .bars (buildOhlcv log tr kind s)
  | .directional => tagOut .dirs (buildDirectional log tr kind s)
  | .tradeSize theta mult => tagOut .sizes (buildTradeSize log log1p tr kind theta mult s)
  | .footprints tick m => tagOut (fun r => .fps r.1 r.2.1 r.2.2) (buildFootprints log rndOf inferTick tr kind tick m s)

/-- A builder after a sequence of calls, ignoring their results (a failed call leaves the state it had reached). -/
def kitAfter (log log1p : K → K) (rndOf : K → K → Int) (inferTick : List K → Except String K) (tr : KitTrades K)
    (kind : KitKind K) : List (KitCall K) → BuilderState K
  | calls => calls.foldl (fun s c => (kitCall log log1p rndOf inferTick tr kind s c).1) BuilderState.fresh

/-- `bar/logic.py:186-189`: the volatility array after `_cusum_bar_indexer` ran on `n` trades.  The compiled function
receives a reference to the caller's array, so the forward fill is visible to the caller.  (If no entry is a number, the
only write copies the last entry, a NaN, over the first.) -/
def sigmaAfter (n : Nat) (sigma : List (Option K)) : List (Option K) :=
  forwardFill none (sigma.take n) ++ sigma.drop n

/-- `CUSUMBarKit._comp_bar_close` (`bar/kit.py:162-175`) with its effect on the caller's array.  The length check comes
before the fill, reading the close timestamps after it. -/
def cusumClose (log : K → K) (tr : KitTrades K) (floor mult : K) (mem : List (Option K)) :
    List (Option K) × Except String (List Int × List Int) :=
  (match cusumBarIndexer log tr.ts tr.prices mem floor mult with
    | .error _ => mem
    | .ok _ => sigmaAfter tr.prices.length mem,
   compBarClose log tr (.cusum mem floor mult))

/-- `cusumClose` of a builder that was given the view `sigma[a : a + n]` of the caller's array, `n` its number of
trades. -/
def cusumCloseAt (log : K → K) (tr : KitTrades K) (floor mult : K) (a : Nat) (mem : List (Option K)) :
    List (Option K) × Except String (List Int × List Int) :=
  let n := tr.prices.length
  let r := cusumClose log tr floor mult ((mem.drop a).take n)
  (mem.take a ++ r.1 ++ mem.drop (a + n), r.2)

/-- `CUSUMBarKit.get_sigma` (`bar/kit.py:178-183`): the volatility array at the bar closes.  Computing the closes has
filled the array by the time it is read. -/
def getSigma (log : K → K) (tr : KitTrades K) (sigma : List (Option K)) (floor mult : K) :
    Except String (List (Option K)) :=
  match cusumClose log tr floor mult sigma with
  | (_, .error e) => .error e
  | (mem, .ok c) => .ok (c.2.tail.map (fun i => pyGet mem none i))

end FinML
