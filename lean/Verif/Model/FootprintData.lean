/-
Model of the footprint container `FootprintData` (`finmlkit/bar/data_model.py:776-1058`) and of
`footprint_to_dataframe` (`finmlkit/bar/utils.py:129-209`).

Simplified: `__repr__` and `memory_usage` are left out, the casts between NumPy object arrays and Numba lists
(`data_model.py:994-1016`) are the identity (`Model/FootprintCast` has them), and a date label is the pair of the first and
the last nanosecond that it denotes (equal for a `datetime`, a whole day for `'2024-01-01'`).
-/
import Mathlib.Data.List.Sort
import Verif.Model.Footprint

namespace FinML

variable {K : Type} [Field K] [LinearOrder K]

/-- The data attributes of `FootprintData` (`bar/data_model.py:797-815`). -/
structure FpData (K : Type) where
  ts : List Int
  tick : K
  levels : List (List Int)
  buyVol : List (List K)
  sellVol : List (List K)
  buyTicks : List (List Int)
  sellTicks : List (List Int)
  buyImb : List (List Bool)
  sellImb : List (List Bool)
  cot : Option (List Int)
  sellSum : Option (List Nat)
  buySum : Option (List Nat)
  run : Option (List Int)
  skew : Option (List K)
  gini : Option (List K)
deriving DecidableEq

/-- What `fp[i]` stores with an integer `i`: one entry of every column (`bar/data_model.py:886-902`). -/
structure FpEntry (K : Type) where
  ts : Int
  tick : K
  levels : List Int
  buyVol : List K
  sellVol : List K
  buyTicks : List Int
  sellTicks : List Int
  buyImb : List Bool
  sellImb : List Bool
  cot : Option Int
  sellSum : Option Nat
  buySum : Option Nat
  run : Option Int
  skew : Option K
  gini : Option K
deriving DecidableEq

/-- `is_valid` (`bar/data_model.py:1044-1058`). -/
def FpData.isValid (d : FpData K) : Bool :=
  d.levels.length == d.ts.length && d.buyVol.length == d.ts.length && d.sellVol.length == d.ts.length &&
  d.buyTicks.length == d.ts.length && d.sellTicks.length == d.ts.length &&
  d.buyImb.length == d.ts.length && d.sellImb.length == d.ts.length

/-- Bound of a Python slice on a sequence of length `n` (`slice.indices`). -/
def sliceBound (n dflt : Nat) : Option Int → Nat
  | none => dflt
  | some i => if i < 0 then (i + n).toNat else min i.toNat n

/-- `xs[a:b]`. -/
def pySlice {α : Type} (a b : Option Int) (xs : List α) : List α :=
  (xs.take (sliceBound xs.length xs.length b)).drop (sliceBound xs.length 0 a)

/-- `xs[i]` with Python's negative indices. -/
def pyItem {α : Type} (i : Int) (xs : List α) : Except String α :=
  match (if i < 0 then (if i + xs.length < 0 then none else xs[(i + xs.length).toNat]?) else xs[i.toNat]?) with
  | none => .error "IndexError"
  | some x => .ok x

/-- `xs[i] if xs is not None else None` (`bar/data_model.py:896-901`). -/
def pyItemOpt {α : Type} (i : Int) : Option (List α) → Except String (Option α)
  | none => .ok none
  | some xs => (pyItem i xs).map some

/-- `bar/data_model.py:886-902` with a slice of integers. -/
def FpData.slice (a b : Option Int) (d : FpData K) : FpData K :=
  { ts := pySlice a b d.ts, tick := d.tick, levels := pySlice a b d.levels,
    buyVol := pySlice a b d.buyVol, sellVol := pySlice a b d.sellVol,
    buyTicks := pySlice a b d.buyTicks, sellTicks := pySlice a b d.sellTicks,
    buyImb := pySlice a b d.buyImb, sellImb := pySlice a b d.sellImb,
    cot := d.cot.map (pySlice a b), sellSum := d.sellSum.map (pySlice a b), buySum := d.buySum.map (pySlice a b),
    run := d.run.map (pySlice a b), skew := d.skew.map (pySlice a b), gini := d.gini.map (pySlice a b) }

/-- `bar/data_model.py:886-902` with an integer. -/
def FpData.entry (i : Int) (d : FpData K) : Except String (FpEntry K) := do
  let ts ← pyItem i d.ts
  let levels ← pyItem i d.levels
  let buyVol ← pyItem i d.buyVol
  let sellVol ← pyItem i d.sellVol
  let buyTicks ← pyItem i d.buyTicks
  let sellTicks ← pyItem i d.sellTicks
  let buyImb ← pyItem i d.buyImb
  let sellImb ← pyItem i d.sellImb
  let cot ← pyItemOpt i d.cot
  let sellSum ← pyItemOpt i d.sellSum
  let buySum ← pyItemOpt i d.buySum
  let run ← pyItemOpt i d.run
  let skew ← pyItemOpt i d.skew
  let gini ← pyItemOpt i d.gini
  return ⟨ts, d.tick, levels, buyVol, sellVol, buyTicks, sellTicks, buyImb, sellImb, cot, sellSum, buySum, run,
    skew, gini⟩

/-- Number of leading labels before `v`: `searchsorted(v, side='left')` on a sorted index. -/
def locLeft (ts : List Int) (v : Int) : Nat := (ts.takeWhile (fun t => decide (t < v))).length

/-- `searchsorted(v, side='right')` on a sorted index. -/
def locRight (ts : List Int) (v : Int) : Nat := (ts.takeWhile (fun t => decide (t ≤ v))).length

/-- A slice key: a plain slice, a slice whose two ends are dates, or one with a date at one end only; or an integer;
or anything else. -/
inductive FpKey where
  | idx (i : Int)
  | slice (a b : Option Int)
  | dates (a b : Int × Int)
  | halfDates (a b : Option (Int × Int))
  | other

/-- `len(index) - index[::-1].searchsorted(v, side='right')` on a descending index: the number of labels after `v`. -/
def locLeftDesc (ts : List Int) (v : Int) : Nat := (ts.takeWhile (fun t => decide (v < t))).length

/-- `len(index) - index[::-1].searchsorted(v, side='left')` on a descending index. -/
def locRightDesc (ts : List Int) (v : Int) : Nat := (ts.takeWhile (fun t => decide (v ≤ t))).length

/-- `__getitem__` (`bar/data_model.py:872-904`).  A date slice is turned into positions by `slice_locs` (on an
ascending index: first label not before the start of `a`, first label after the end of `b`; on a descending index the
same search from the other end; any other index is rejected here, although pandas also accepts labels that it finds in
it).  A date at one end only is passed on to NumPy, which rejects it. -/
def FpData.get (d : FpData K) : FpKey → Except String (FpData K ⊕ FpEntry K)
  | .idx i => (d.entry i).map Sum.inr
  | .slice a b => .ok (.inl (d.slice a b))
  | .dates a b =>
    if d.ts.Pairwise (· ≤ ·) then
      .ok (.inl (d.slice (some (locLeft d.ts a.1 : Int)) (some (locRight d.ts b.2 : Int))))
    else if d.ts.Pairwise (fun x y => y ≤ x) then
      .ok (.inl (d.slice (some (locLeftDesc d.ts a.1 : Int)) (some (locRightDesc d.ts b.2 : Int))))
    else .error "KeyError"
  | .halfDates _ _ => .error "TypeError: slice indices must be integers"
  | .other => .error "Invalid argument type. Expected a slice or integer index."

/-- First position of a slice with step `s` on a sequence of length `n` (`slice.indices`). -/
def stepStart (n : Nat) (s : Int) : Option Int → Int
  | none => if s < 0 then n - 1 else 0
  | some i =>
    let j := if i < 0 then i + n else i
    if s < 0 then max (-1) (min j (n - 1)) else max 0 (min j n)

/-- The bound that a slice with step `s` does not reach (`slice.indices`). -/
def stepStop (n : Nat) (s : Int) : Option Int → Int
  | none => if s < 0 then -1 else n
  | some i =>
    let j := if i < 0 then i + n else i
    if s < 0 then max (-1) (min j (n - 1)) else max 0 (min j n)

/-- `range(start, stop, s)`, all of whose members are positions of the sequence. -/
def stepPositions (n : Nat) (a b : Option Int) (s : Int) : List Nat :=
  let start := stepStart n s a
  let stop := stepStop n s b
  let count := if s < 0 then (start - stop + (-s) - 1) / (-s) else (stop - start + s - 1) / s
  (List.range count.toNat).map (fun k : Nat => (start + k * s).toNat)

/-- `xs[a:b:s]`. -/
def pySliceStep {α : Type} (a b : Option Int) (s : Int) (xs : List α) : List α :=
  (stepPositions xs.length a b s).filterMap (fun p => xs[p]?)

/-- `bar/data_model.py:886-902` with a slice of integers that has a step. -/
def FpData.sliceStep (a b : Option Int) (s : Int) (d : FpData K) : FpData K :=
  { ts := pySliceStep a b s d.ts, tick := d.tick, levels := pySliceStep a b s d.levels,
    buyVol := pySliceStep a b s d.buyVol, sellVol := pySliceStep a b s d.sellVol,
    buyTicks := pySliceStep a b s d.buyTicks, sellTicks := pySliceStep a b s d.sellTicks,
    buyImb := pySliceStep a b s d.buyImb, sellImb := pySliceStep a b s d.sellImb,
    cot := d.cot.map (pySliceStep a b s), sellSum := d.sellSum.map (pySliceStep a b s),
    buySum := d.buySum.map (pySliceStep a b s), run := d.run.map (pySliceStep a b s),
    skew := d.skew.map (pySliceStep a b s), gini := d.gini.map (pySliceStep a b s) }

/-- `__getitem__` with a key that has a step (`bar/data_model.py:872-904`).  The branch of the dates does not read
`key.step`. -/
def FpData.getStep (d : FpData K) (s : Int) : FpKey → Except String (FpData K ⊕ FpEntry K)
  | .slice a b => if s = 0 then .error "ValueError: slice step cannot be zero" else .ok (.inl (d.sliceStep a b s))
  | k => d.get k

/-- `__len__` (`bar/data_model.py:822-827`): a scalar timestamp has no length. -/
def fpLen : FpData K ⊕ FpEntry K → Except String Nat
  | .inl d => .ok d.ts.length
  | .inr _ => .error "TypeError: object of type 'numpy.int64' has no len()"

/-- One item of a tuple of footprint arrays. -/
inductive FpItem (K : Type) where
  | ints (l : List Int)
  | intRows (l : List (List Int))
  | realRows (l : List (List K))
  | boolRows (l : List (List Bool))
  | counts (l : List Nat)
  | reals (l : List K)

/-- The tuple returned by `comp_bar_footprints` (`bar/base.py:744-751`). -/
def footprintTuple (fps : List (Footprint K)) : List (FpItem K) :=
  [.intRows (fps.map (·.priceLevels)),
   .realRows (fps.map (·.lv.buyVol)), .realRows (fps.map (·.lv.sellVol)),
   .intRows (fps.map (·.lv.buyTicks)), .intRows (fps.map (·.lv.sellTicks)),
   .boolRows (fps.map (·.stats.buyImb)), .boolRows (fps.map (·.stats.sellImb)),
   .counts (fps.map (·.buyImbSum)), .counts (fps.map (·.sellImbSum)), .ints (fps.map (·.stats.cot)),
   .ints (fps.map (·.stats.maxRunSigned)), .reals (fps.map (·.stats.vpSkew)), .reals (fps.map (·.stats.vpGini))]

/-- `from_numba` (`bar/data_model.py:907-936`): items 0 to 13 of the tuple.  Items beyond are ignored. -/
def fromNumba (tick : K) : List (FpItem K) → Except String (FpData K)
  | .ints ts :: .intRows levels :: .realRows buyVol :: .realRows sellVol :: .intRows buyTicks :: .intRows sellTicks ::
      .boolRows buyImb :: .boolRows sellImb :: .counts buySum :: .counts sellSum :: .ints cot :: .ints run ::
      .reals skew :: .reals gini :: _ =>
    let d : FpData K :=
      { ts := ts, tick := tick, levels := levels, buyVol := buyVol, sellVol := sellVol, buyTicks := buyTicks,
        sellTicks := sellTicks, buyImb := buyImb, sellImb := sellImb, cot := some cot, sellSum := some sellSum,
        buySum := some buySum, run := some run, skew := some skew, gini := some gini }
    if d.isValid then .ok d else .error "Inconsistent data length in the FootprintData container!"
  | _ => .error "IndexError or conversion error"

/-- The container that `build_footprints` creates from the tuple (`bar/base.py:280-296`). -/
def fpContainer (ts : List Int) (tick : K) (fps : List (Footprint K)) : FpData K :=
  { ts := ts, tick := tick, levels := fps.map (·.priceLevels), buyVol := fps.map (·.lv.buyVol),
    sellVol := fps.map (·.lv.sellVol), buyTicks := fps.map (·.lv.buyTicks), sellTicks := fps.map (·.lv.sellTicks),
    buyImb := fps.map (·.stats.buyImb), sellImb := fps.map (·.stats.sellImb), cot := some (fps.map (·.stats.cot)),
    sellSum := some (fps.map (·.sellImbSum)), buySum := some (fps.map (·.buyImbSum)),
    run := some (fps.map (·.stats.maxRunSigned)), skew := some (fps.map (·.stats.vpSkew)),
    gini := some (fps.map (·.stats.vpGini)) }

/-- One row of the table (`bar/utils.py:176-197`): the two index levels and the columns. -/
structure FpRow (K : Type) where
  bar : Nat
  time : Int
  price : K
  sellTicks : Int
  buyTicks : Int
  sellVol : K
  buyVol : K
  sellImb : Bool
  buyImb : Bool
deriving DecidableEq

/-- The rows `col[0]`, …, `col[n-1]` one after the other (`bar/utils.py:156-168`). -/
def flatCol {α : Type} (n : Nat) (col : List (List α)) : Except String (List α) :=
  if col.length < n then .error "IndexError" else .ok (col.take n).flatten

/-- `bar/utils.py:156-160`: index columns, each bar repeated once per level. -/
def repeatBars (ts : List Int) (levels : List (List Int)) : List (Nat × Int) :=
  (List.zipWith (fun (b : Nat × Int) (l : List Int) => List.replicate l.length b)
    ((List.range ts.length).zip ts) levels).flatten

/-- The columns of a row before the index is attached. -/
structure FpCells (K : Type) where
  level : Int
  sellTicks : Int
  buyTicks : Int
  sellVol : K
  buyVol : K
  sellImb : Bool
  buyImb : Bool
deriving DecidableEq

/-- Reading seven columns of equal length row by row. -/
def zipCells : List Int → List Int → List Int → List K → List K → List Bool → List Bool → List (FpCells K)
  | l :: ls, st :: sts, bt :: bts, sv :: svs, bv :: bvs, si :: sis, bi :: bis =>
    ⟨l, st, bt, sv, bv, si, bi⟩ :: zipCells ls sts bts svs bvs sis bis
  | _, _, _, _, _, _, _ => []

/-- `bar/utils.py:200`: the price of a level. -/
def cellRow (tick : K) (b : Nat × Int) (c : FpCells K) : FpRow K :=
  ⟨b.1, b.2, (c.level : K) * tick, c.sellTicks, c.buyTicks, c.sellVol, c.buyVol, c.sellImb, c.buyImb⟩

/-- The order of `sort_values` by bar time ascending and price descending (`bar/utils.py:203`). -/
def rowLe (a b : FpRow K) : Prop := a.time < b.time ∨ (a.time = b.time ∧ b.price ≤ a.price)

instance : DecidableRel (rowLe : FpRow K → FpRow K → Prop) :=
  fun a b => inferInstanceAs (Decidable (a.time < b.time ∨ (a.time = b.time ∧ b.price ≤ a.price)))

/-- `footprint_to_dataframe` (`bar/utils.py:129-205`, called at `bar/data_model.py:976-992`).  The table constructor
rejects columns of different lengths; sorting by several keys is stable. -/
def footprintTable (d : FpData K) : Except String (List (FpRow K)) := do
  let n := d.ts.length
  let levels ← flatCol n d.levels
  let buyVol ← flatCol n d.buyVol
  let sellVol ← flatCol n d.sellVol
  let buyTicks ← flatCol n d.buyTicks
  let sellTicks ← flatCol n d.sellTicks
  let buyImb ← flatCol n d.buyImb
  let sellImb ← flatCol n d.sellImb
  let m := levels.length
  if buyVol.length = m ∧ sellVol.length = m ∧ buyTicks.length = m ∧ sellTicks.length = m ∧
      buyImb.length = m ∧ sellImb.length = m then
    return (List.zipWith (cellRow d.tick) (repeatBars d.ts d.levels)
      (zipCells levels sellTicks buyTicks sellVol buyVol sellImb buyImb)).insertionSort rowLe
  else .error "All arrays must be of the same length"

end FinML
