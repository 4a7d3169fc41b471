/-
Model of the volume profile kernels of `finmlkit/feature/core/volume.py`.

Prices are integer tick counts once `aggregate_footprint` has converted them.  Volumes live in an ordered
field (the code stores float32).  Numba raises on nothing here except `np.min`/`np.max` of an empty array.
-/
import Verif.Model.Indicators
import Verif.Model.Bars
import Verif.Model.Indexers

namespace FinML

variable {K : Type} [Field K] [LinearOrder K]

/-- `np.min` of a non-empty integer array. -/
def intMin (l : List Int) : Int := l.tail.foldl min (l.headD 0)

/-- `np.max` of a non-empty integer array. -/
def intMax (l : List Int) : Int := l.tail.foldl max (l.headD 0)

/-! ### Aggregating footprints -/

/-- `a[idx] = v` with an index array: one write after the other, writes outside the array are dropped
(used at `volume.py:200-201`). -/
def putAll (a : List K) (idx : List Nat) (v : List K) : List K :=
  (idx.zip v).foldl (fun acc p => acc.set p.1 p.2) a

/-- `a[idx] += v` with an index array, `volume.py:200-201`, `:539-540`: the old values are gathered first, the
sums are written back afterwards. -/
def fancyAdd (a : List K) (idx : List Nat) (v : List K) : List K :=
  putAll a idx (List.zipWith (fun k x => a.getD k 0 + x) idx v)

/-- One footprint bar: price levels in ticks with buy and sell volumes, plus the bar's high and low price. -/
structure FpBar (K : Type) where
  ts : Int
  high : K
  low : K
  levels : List Int
  buy : List K
  sell : List K
deriving DecidableEq

/-- `volume.py:194-201`, `:537-540`: one bar is added to the aligned volumes. -/
def alignStep (grid : List Int) (acc : List K × List K) (b : FpBar K) : List K × List K :=
  let idx := b.levels.map (searchLeft grid)
  (fancyAdd acc.1 idx b.buy, fancyAdd acc.2 idx b.sell)

/-- `volume.py:180-186`, `:524-533`: the complete tick grid of a window.  `rnd p` models
`int(round(p / price_tick))` for a fixed tick size. -/
def tickGrid (rnd : K → Int) (bars : List (FpBar K)) : List Int :=
  let lo := rnd (npMin (bars.map FpBar.low))
  let hi := rnd (npMax (bars.map FpBar.high))
  arange lo (hi + 1) 1

/-- `volume.py:160-172`: the bars selected by the two timestamps. -/
def fpWindow (bars : List (FpBar K)) (startTs endTs : Int) : List (FpBar K) :=
  let ts := bars.map FpBar.ts
  let s := searchLeft ts startTs
  let e := searchRight ts endTs
  let s' := if s = e then s - 1 else s
  (bars.take e).drop s'

/-- `volume.py:186-203`: grid and aligned volumes of the selected bars. -/
def alignBars (rnd : K → Int) (bars : List (FpBar K)) : List Int × List K × List K :=
  let grid := tickGrid rnd bars
  let z : List K := List.replicate grid.length 0
  (grid, bars.foldl (alignStep grid) (z, z))

/-- `volume.py:133-203` `aggregate_footprint`. -/
def aggregateFootprint (rnd : K → Int) (bars : List (FpBar K)) (startTs endTs : Int) :
    Except String (List Int × List K × List K) :=
  match fpWindow bars startTs endTs with
  | [] => .error "zero-size array to reduction operation not possible"
  | b :: bs => .ok (alignBars rnd (b :: bs))

/-! ### Bucketing -/

/-- `volume.py:227-233`: odd bucket width of at least one tick. -/
def bucketWidth (range nBins : Int) : Int :=
  let bw := max 1 (range / nBins)
  if bw % 2 = 0 then bw + 1 else bw

/-- `volume.py:256-269`: add each volume to its bucket, indices outside `[0, n]` are only reported.  `n` is the
number of regular buckets, `out` has `n` or `n + 1` entries. -/
def bucketAdd (n : Int) (out : List K) (idx : List Int) (vols : List K) : List K :=
  (idx.zip vols).foldl (fun acc p => if 0 ≤ p.1 ∧ p.1 ≤ n then acc.modify p.1.toNat (· + p.2) else acc) out

/-- `volume.py:206-274` `bucket_price_levels`.  When the profile has a single level the edges are replaced but the
number of buckets stays 0 (`:235-240`); the assignment of one midpoint to an empty slice at `:254` is taken to
broadcast to nothing. -/
def bucketPriceLevels (levels : List Int) (vols : List K) (nBins : Int) : Except String (List Int × List K) :=
  if levels = [] then .error "zero-size array to reduction operation not possible"
  else if nBins = 0 then .error "ZeroDivisionError"
  else
    let mn := intMin levels
    let mx := intMax levels
    let bw := bucketWidth (mx - mn) nBins
    let edges0 := arange mn (mx + bw) bw
    let n : Nat := edges0.length - 1
    let edges := if edges0.length < 2 then [mn, mx + 1] else edges0
    let idx := levels.map (fun p => (searchRight edges p : Int) - 1)
    let leftover := idx.getLastD 0 = (n : Int)
    let mids := (List.zipWith (fun a b => (a + b - 1) / 2) edges.dropLast edges.tail).take n
    if leftover then
      .ok (mids ++ [mx], bucketAdd n (List.replicate (n + 1) 0) idx vols)
    else
      .ok (mids, bucketAdd n (List.replicate n 0) idx vols)

/-! ### Point of control and value area -/

/-- First index of the maximum (`np.argmax`, `volume.py:296`). -/
def argMaxFrom : K → Nat → Nat → List K → Nat
  | _, best, _, [] => best
  | m, best, i, x :: xs => if x > m then argMaxFrom x i (i + 1) xs else argMaxFrom m best (i + 1) xs

/-- `np.argmax` of a non-empty array. -/
def argMax : List K → Nat
  | [] => 0
  | x :: xs => argMaxFrom x 0 1 xs

/-- `volume.py:310-313`, `:327-330`: volume of the next two levels upwards, `e` when there is none. -/
def pairUp (vols : List K) (e : K) (up : Nat) : K :=
  if up < vols.length then
    if up + 1 < vols.length then vols.getD up 0 + vols.getD (up + 1) 0 else vols.getD up 0
  else e

/-- `volume.py:315-318`, `:337-340`: volume of the next two levels downwards, `e` when there is none. -/
def pairDown (vols : List K) (e : K) (down : Int) : K :=
  if 0 ≤ down then
    if 0 ≤ down - 1 then vols.getD down.toNat 0 + vols.getD (down - 1).toNat 0 else vols.getD down.toNat 0
  else e

/-- Loop state of `volume.py:298-318`. -/
structure VaState (K : Type) where
  cum : K
  hva : Int
  lva : Int
  up : Nat
  down : Int
  cu : K
  cd : K
deriving DecidableEq

/-- `volume.py:300-318`: the state before the loop. -/
def vaInit (levels : List Int) (vols : List K) : VaState K :=
  let p := argMax vols
  { cum := vols.getD p 0, hva := levels.getD p 0, lva := levels.getD p 0, up := p + 1, down := (p : Int) - 1,
    cu := pairUp vols 0 (p + 1), cd := pairDown vols 0 ((p : Int) - 1) }

/-- `volume.py:323-330`: extend upwards. -/
def vaUp (levels : List Int) (vols : List K) (s : VaState K) : VaState K :=
  { s with cum := s.cum + s.cu, hva := levels.getD (min (s.up + 1) (levels.length - 1)) 0,
           up := s.up + 2, cu := pairUp vols (-1) (s.up + 2) }

/-- `volume.py:332-340`: extend downwards. -/
def vaDown (levels : List Int) (vols : List K) (s : VaState K) : VaState K :=
  { s with cum := s.cum + s.cd, lva := levels.getD (max (s.down - 1) 0).toNat 0,
           down := s.down - 2, cd := pairDown vols (-1) (s.down - 2) }

/-- `volume.py:341-357`: extend both ways on a tie. -/
def vaBoth (levels : List Int) (vols : List K) (s : VaState K) : VaState K :=
  { cum := s.cum + (s.cu + s.cd), hva := levels.getD (min (s.up + 1) (levels.length - 1)) 0,
    lva := levels.getD (max (s.down - 1) 0).toNat 0, up := s.up + 2, down := s.down - 2,
    cu := pairUp vols (-1) (s.up + 2), cd := pairDown vols (-1) (s.down - 2) }

/-- `volume.py:322-360`: one pass of the loop body; `none` is the `break` at `:360`. -/
def vaStep (levels : List Int) (vols : List K) (s : VaState K) : Option (VaState K) :=
  if s.cu > s.cd then some (vaUp levels vols s)
  else if s.cu < s.cd then some (vaDown levels vols s)
  else if s.cd ≠ -1 then some (vaBoth levels vols s)
  else none

/-- `volume.py:321-360`: the `while` loop with a bound on the number of passes (the theorems show that the bound
used below is never reached). -/
def vaLoop (levels : List Int) (vols : List K) (thr : K) : Nat → VaState K → VaState K
  | 0, s => s
  | f + 1, s =>
    if s.cum < thr then
      match vaStep levels vols s with
      | some s' => vaLoop levels vols thr f s'
      | none => s
    else s

/-- `volume.py:277-364` `comp_poc_hva_lva`, result `(poc, hva, lva)`. -/
def compPocHvaLva (levels : List Int) (vols : List K) (pct : K) : Int × Int × Int :=
  let thr := vols.sum * (pct / 100)
  let s := vaLoop levels vols thr (vols.length + 2) (vaInit levels vols)
  (levels.getD (argMax vols) 0, s.hva, s.lva)

/-- `volume.py:367-390` `calc_volume_percentage_above_poc`. -/
def pctAbovePoc (levels : List Int) (vols : List K) (poc : Int) : K :=
  let total := vols.sum
  if total ≤ 0 then 0
  else
    let above := (levels.zip vols).foldl (fun acc p => if p.1 > poc then acc + p.2 else acc) 0
    if above ≤ 0 then 0 else above / total

/-! ### Rolling and developing profiles -/

/-- The four outputs for one bar. -/
structure VpOut (K : Type) where
  poc : Int
  hva : Int
  lva : Int
  above : K
deriving DecidableEq

/-- `volume.py:435-454`: profile of one window.  `nBins = none` skips the bucketing. -/
def profileOf (levels : List Int) (vols : List K) (nBins : Option Int) (pct : K) : Except String (VpOut K) :=
  match nBins with
  | none =>
    let r := compPocHvaLva levels vols pct
    .ok ⟨r.1, r.2.1, r.2.2, pctAbovePoc levels vols r.1⟩
  | some n =>
    match bucketPriceLevels levels vols n with
    | .error e => .error e
    | .ok (l, v) =>
      let r := compPocHvaLva l v pct
      .ok ⟨r.1, r.2.1, r.2.2, pctAbovePoc l v r.1⟩

/-- `volume.py:421-454`: the value written by iteration `i` of the parallel loop. -/
def rollingAt (rnd : K → Int) (bars : List (FpBar K)) (windowNs : Int) (nBins : Option Int) (pct : K) (i : Nat) :
    Except String (VpOut K) :=
  let endTs := (bars.map FpBar.ts).getD i 0
  match aggregateFootprint rnd bars (endTs - windowNs) endTs with
  | .error e => .error e
  | .ok (levels, buy, sell) => profileOf levels (List.zipWith (· + ·) buy sell) nBins pct

/-- `volume.py:393-456` `volume_profile_rolling`: zeros before the first complete window.  Iterations only write
their own position, so the parallel loop is a map. -/
def volumeProfileRolling (rnd : K → Int) (bars : List (FpBar K)) (windowNs : Int) (nBins : Option Int) (pct : K) :
    List (Except String (VpOut K)) :=
  let ts := bars.map FpBar.ts
  let first := searchLeft ts (ts.headD 0 + windowNs)
  tabulate bars.length (fun i => if i < first then .ok ⟨0, 0, 0, 0⟩ else rollingAt rnd bars windowNs nBins pct i)

/-- `volume.py:75-86`: scaling by the tick size and replacing zeros by NaN. -/
def vpPrice (tick : K) (p : Int) : Option K := if (p : K) * tick = 0 then none else some ((p : K) * tick)

/-- `volume.py:462-489` `trim_trailing_zeros`, `r8` models `np.round(·, 8)`. -/
def trimZeros (r8 : K → K) (levels : List Int) (vols : List K) : List Int × List K :=
  let v := vols.map r8
  let z := levels.zip v
  let kept := ((z.dropWhile (fun p => decide (p.2 = 0))).reverse.dropWhile (fun p => decide (p.2 = 0))).reverse
  (kept.map Prod.fst, kept.map Prod.snd)

/-- `volume.py:536-565`: profile after the bars up to and including `t` of the selected range. -/
def developingAt (rnd : K → Int) (r8 : K → K) (sel : List (FpBar K)) (nBins : Option Int) (pct : K) (t : Nat) :
    Except String (Int × Int × Int) :=
  let grid := tickGrid rnd sel
  let z : List K := List.replicate grid.length 0
  let acc := (sel.take (t + 1)).foldl (alignStep grid) (z, z)
  let total := List.zipWith (· + ·) acc.1 acc.2
  match nBins with
  | none => .ok (compPocHvaLva grid total pct)
  | some n =>
    let tr := trimZeros r8 grid total
    match bucketPriceLevels tr.1 tr.2 n with
    | .error e => .error e
    | .ok (l, v) => .ok (compPocHvaLva l v pct)

/-- Write `v` at index `i` of an array, `none` when the index is outside (memory corruption under Numba). -/
def writeAt {A : Type} (a : List A) (i : Nat) (v : A) : Option (List A) :=
  if i < a.length then some (a.set i v) else none

/-- A sequence of writes, `none` as soon as one of them is out of bounds. -/
def writeAll {A : Type} : List A → List (Nat × A) → Option (List A)
  | a, [] => some a
  | a, (i, v) :: ws =>
    match writeAt a i v with
    | some a' => writeAll a' ws
    | none => none

/-- `volume.py:515-516`: the selected index range. -/
def devRange (bars : List (FpBar K)) (startTs endTs : Int) : Nat × Nat :=
  (searchLeft (bars.map FpBar.ts) startTs, searchRight (bars.map FpBar.ts) endTs)

/-- `volume.py:536`, `:565-567`: the writes of `volume_profile_developing`: position `t` of the bar sequence, not
its offset in the selected range. -/
def developingWrites (rnd : K → Int) (r8 : K → K) (bars : List (FpBar K)) (startTs endTs : Int)
    (nBins : Option Int) (pct : K) : List (Nat × Except String (Int × Int × Int)) :=
  let r := devRange bars startTs endTs
  let sel := (bars.take r.2).drop r.1
  (List.range (r.2 - r.1)).map (fun k => (r.1 + k, developingAt rnd r8 sel nBins pct k))

/-- `volume.py:519-521`, `:536-567`: the arrays of length `end_idx - start_idx` and the writes into them; `none` is an
out-of-bounds write. -/
def developingFill (rnd : K → Int) (r8 : K → K) (bars : List (FpBar K)) (startTs endTs : Int)
    (nBins : Option Int) (pct : K) : Option (List (Except String (Int × Int × Int))) :=
  let r := devRange bars startTs endTs
  writeAll (List.replicate (r.2 - r.1) (.ok (0, 0, 0))) (developingWrites rnd r8 bars startTs endTs nBins pct)

/-- `volume.py:492-569` `volume_profile_developing`: without a selected bar the minimum of an empty slice raises (`:524`;
when the end lies before the start already the negative array size raises, `:519`). -/
def volumeProfileDeveloping (rnd : K → Int) (r8 : K → K) (bars : List (FpBar K)) (startTs endTs : Int)
    (nBins : Option Int) (pct : K) : Except String (List (Except String (Int × Int × Int))) :=
  let r := devRange bars startTs endTs
  if r.2 ≤ r.1 then .error "empty range"
  else match developingFill rnd r8 bars startTs endTs nBins pct with
    | some out => .ok out
    | none => .error "out of bounds"

end FinML
