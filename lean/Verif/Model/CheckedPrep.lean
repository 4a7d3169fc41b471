/-
The compiled helpers of the trade preparation, the structural-break test and the volume profile with every array access checked, as
`Model/Checked` does for the bars.  A slot of an `np.empty` array is `none` until it is written; reading it before ends the run.
-/
import Verif.Model.CheckedFeatures
import Verif.Model.Trades
import Verif.Model.CusumTest
import Verif.Model.VolumeProfile

namespace FinML

variable {K : Type} [Field K] [LinearOrder K]

/-! ## `bar/utils.py` -/

/-- `bar/utils.py:41-44`: one iteration; the state holds `prev_price` and `prev_tick_sign`. -/
def tradeSideStepChk (eps : K) (prices : List K) (_ : List (Option Int)) (i : Nat) (s : K × Int) : Option (Int × (K × Int)) :=
  (rd prices (i : Int)).map (fun p => (tradeSide eps p s.1 s.2, (p, tradeSide eps p s.1 s.2)))

/-- `bar/utils.py:26-46` `comp_trade_side_vector`: the output starts with zeros. -/
def tradeSideVectorChk (eps : K) (prices : List K) : Option (List (Option Int)) := do
  let p0 ← rd prices 0
  fillLoop (tradeSideStepChk eps prices) (List.range' 1 (prices.length - 1)) (p0, 0) (List.replicate prices.length (some 0))

/-- `bar/utils.py:234-237`: the remaining iterations, with the early return. -/
def orderLoopChk (ts : List Int) : List Nat → Option Bool
  | [] => some true
  | i :: is => do
    let a ← rd ts (i : Int)
    let b ← rd ts ((i : Int) - 1)
    if a < b then some false else orderLoopChk ts is

/-- `bar/utils.py:227-237` `check_timestamps_order`. -/
def checkTimestampsOrderChk (ts : List Int) : Option Bool := orderLoopChk ts (List.range' 1 (ts.length - 1))

/-- `xs[i]` of an array of `np.empty`: the slot must have been written. -/
def rdSet {α : Type} (xs : List (Option α)) (i : Int) : Option α := (rd xs i).join

/-- The working arrays of `merge_split_trades` and `merged_idx`, `bar/utils.py:284-299`.  `side` is unused without side information. -/
structure MergeRun (K : Type) where
  ts : List (Option Int)
  px : List (Option K)
  am : List (Option K)
  side : List (Option Int)
  idx : Int

/-- `bar/utils.py:293-297`, `:313-317`: a new output trade from input `i` at position `idx`. -/
def mergeStartChk (ts : List Int) (px am : List K) (mk : Option (List Bool)) (s : MergeRun K) (i : Nat) (idx : Int) : Option (MergeRun K) := do
  let t ← rd ts (i : Int)
  let ots ← wr s.ts idx (some t)
  let p ← rd px (i : Int)
  let opx ← wr s.px idx (some p)
  let a ← rd am (i : Int)
  let oam ← wr s.am idx (some a)
  match mk with
  | some mk => do
    let m ← rd mk (i : Int)
    let oside ← wr s.side idx (some (makerSide m))
    some ⟨ots, opx, oam, oside, idx⟩
  | none => some ⟨ots, opx, oam, s.side, idx⟩

/-- `bar/utils.py:301-302`: same time and price; the price is only compared when the times agree. -/
def samePriceChk (tol : K) (ts : List Int) (px : List K) (s : MergeRun K) (i : Nat) : Option Bool := do
  let t ← rd ts (i : Int)
  let t0 ← rdSet s.ts s.idx
  if t = t0 then do
    let p ← rd px (i : Int)
    let p0 ← rdSet s.px s.idx
    some (decide (|p - p0| < tol))
  else some false

/-- `bar/utils.py:301-305`: same trade. -/
def sameTradeChk (tol : K) (ts : List Int) (px : List K) (mk : Option (List Bool)) (s : MergeRun K) (i : Nat) : Option Bool := do
  let same ← samePriceChk tol ts px s i
  match mk with
  | some mk => do
    let m ← rd mk (i : Int)
    let d ← rdSet s.side s.idx
    some (same && (m == decide (d = -1)))
  | none => some same

/-- `bar/utils.py:301-317`: one trade. -/
def mergeStepChk (tol : K) (ts : List Int) (px am : List K) (mk : Option (List Bool)) (s : MergeRun K) (i : Nat) : Option (MergeRun K) := do
  let same ← sameTradeChk tol ts px mk s i
  if same then do
    let a ← rd am (i : Int)
    let a0 ← rdSet s.am s.idx
    let oam ← wr s.am s.idx (some (a0 + a))
    some { s with am := oam }
  else mergeStartChk ts px am mk s i (s.idx + 1)

/-- `bar/utils.py:284-290`: the empty working arrays. -/
def mergeEmpty (n : Nat) (withSide : Bool) : MergeRun K :=
  ⟨List.replicate n none, List.replicate n none, List.replicate n none, if withSide then List.replicate n none else [], 0⟩

/-- The four arrays returned by `merge_split_trades`; entries never written are `none`. -/
structure MergeOut (K : Type) where
  ts : List (Option Int)
  px : List (Option K)
  am : List (Option K)
  side : List (Option Int)
deriving DecidableEq

/-- `bar/utils.py:320-329`: truncation to `merged_idx + 1` entries. -/
def mergeCut (s : MergeRun K) : MergeOut K :=
  let k := (s.idx + 1).toNat
  ⟨s.ts.take k, s.px.take k, s.am.take k, s.side.take k⟩

/-- `bar/utils.py:263-329` `merge_split_trades`. -/
def mergeSplitTradesChk (tol : K) (ts : List Int) (px am : List K) (mk : Option (List Bool)) : Option (MergeOut K) := do
  let s ← mergeStartChk ts px am mk (mergeEmpty ts.length mk.isSome) 0 0
  let s ← (List.range' 1 (ts.length - 1)).foldlM (mergeStepChk tol ts px am mk) s
  some (mergeCut s)

/-! ## `structural_break/cusum.py` -/

/-- `cusum.py:42-59`: one start index. -/
def sntStepChk (lg sq : K → K) (y : List K) (t : Nat) (sigma : K) (s : Snt K) (n : Nat) : Option (Snt K) := do
  let yt ← rd y (t : Int)
  let yn ← rd y (n : Int)
  let dyn := yt - yn
  let den := sigma * sq ((t - n : Nat) : K)
  if den ≤ 1 / 10 ^ 16 then some s
  else
    let u := max 0 dyn / den
    let d := -(min 0 dyn) / den
    let s1 := if u > s.up then { s with up := u, critUp := sq (46 / 10 + lg ((t - n : Nat) : K)) } else s
    some (if d > s1.down then { s1 with down := d, critDown := sq (46 / 10 + lg ((t - n : Nat) : K)) } else s1)

/-- `cusum.py:11-66` `_comp_max_s_nt`. -/
def compMaxSntChk (lg sq : K → K) (y : List K) (t : Nat) (sigma : K) : Option (Snt K) :=
  if t < 1 ∨ sigma ≤ 0 then some sntInit
  else ((List.range (t - 2)).map (· + 1)).foldlM (sntStepChk lg sq y t sigma) sntInit

/-- `cusum.py:112`, `:159`: the array `np.cumsum(np.diff(y) ** 2)`, one entry shorter than `y`. -/
def cumSqDiffs (y : List K) : List K := tabulate (y.length - 1) (cumSqDiff y)

/-- `cusum.py:115-121`, `:162-169`: the statistic at index `t`; a division by `t - 1 = 0` raises. -/
def sntAtChk (lg sq : K → K) (y : List K) (t : Int) : Option (Except String (Snt K)) := do
  let c ← rd (cumSqDiffs y) (t - 1)
  if t - 1 = 0 then some (.error "ZeroDivisionError")
  else (compMaxSntChk lg sq y t.toNat (sq (c / ((t - 1 : Int) : K)))).map .ok

/-- `cusum.py:114-126`: the loop; an exception ends it. -/
def devLoopChk (lg sq : K → K) (y : List K) : List Nat → List (Option (Snt K)) → Option (Except String (List (Option (Snt K))))
  | [], out => some (.ok out)
  | t :: is, out => do
    let r ← sntAtChk lg sq y (t : Int)
    match r with
    | .error e => some (.error e)
    | .ok v => do
      let out ← wr out (t : Int) (some v)
      devLoopChk lg sq y is out

/-- `cusum.py:69-133` `cusum_test_developing`: the outputs start with NaN. -/
def cusumDevelopingChk (lg sq : K → K) (prices : List K) (warmup : Nat) : Option (Except String (List (Option (Snt K)))) :=
  devLoopChk lg sq (prices.map lg) (List.range' warmup (prices.length - warmup)) (List.replicate prices.length none)

/-- `cusum.py:136-176` `cusum_test_last`. -/
def cusumLastChk (lg sq : K → K) (prices : List K) : Option (Except String (Snt K)) :=
  sntAtChk lg sq (prices.map lg) ((prices.length : Int) - 1)

/-! ## `feature/core/volume.py` -/

/-- `volume.py:310-313`, `:329-332`: volume of the next two levels upwards; the bound is the number of levels. -/
def pairUpChk (nLevels : Nat) (vols : List K) (e : K) (up : Nat) : Option K :=
  if up < nLevels then do
    let a ← rd vols (up : Int)
    if up + 1 < nLevels then do
      let b ← rd vols ((up : Int) + 1)
      some (a + b)
    else some a
  else some e

/-- `volume.py:315-318`, `:339-342`: volume of the next two levels downwards. -/
def pairDownChk (vols : List K) (e : K) (down : Int) : Option K :=
  if 0 ≤ down then do
    let a ← rd vols down
    if 0 ≤ down - 1 then do
      let b ← rd vols (down - 1)
      some (a + b)
    else some a
  else some e

/-- `volume.py:296-318`: the state before the loop. -/
def vaInitChk (levels : List Int) (vols : List K) : Option (VaState K) := do
  let p := argMax vols
  let price ← rd levels (p : Int)
  let v ← rd vols (p : Int)
  let cu ← pairUpChk levels.length vols 0 (p + 1)
  let cd ← pairDownChk vols 0 ((p : Int) - 1)
  some { cum := v, hva := price, lva := price, up := p + 1, down := (p : Int) - 1, cu := cu, cd := cd }

/-- `volume.py:321-362`: one pass; the inner `none` is the `break`. -/
def vaStepChk (levels : List Int) (vols : List K) (s : VaState K) : Option (Option (VaState K)) :=
  if s.cu > s.cd then do
    let h ← rd levels (min ((s.up : Int) + 1) ((levels.length : Int) - 1))
    let cu ← pairUpChk levels.length vols (-1) (s.up + 2)
    some (some { s with cum := s.cum + s.cu, hva := h, up := s.up + 2, cu := cu })
  else if s.cu < s.cd then do
    let l ← rd levels (max (s.down - 1) 0)
    let cd ← pairDownChk vols (-1) (s.down - 2)
    some (some { s with cum := s.cum + s.cd, lva := l, down := s.down - 2, cd := cd })
  else if s.cd ≠ -1 then do
    let h ← rd levels (min ((s.up : Int) + 1) ((levels.length : Int) - 1))
    let l ← rd levels (max (s.down - 1) 0)
    let cu ← pairUpChk levels.length vols (-1) (s.up + 2)
    let cd ← pairDownChk vols (-1) (s.down - 2)
    some (some { cum := s.cum + (s.cu + s.cd), hva := h, lva := l, up := s.up + 2, down := s.down - 2, cu := cu, cd := cd })
  else some none

/-- `volume.py:321-362`: the loop with a bound on the passes. -/
def vaLoopChk (levels : List Int) (vols : List K) (thr : K) : Nat → VaState K → Option (VaState K)
  | 0, s => some s
  | f + 1, s =>
    if s.cum < thr then
      match vaStepChk levels vols s with
      | none => none
      | some none => some s
      | some (some s') => vaLoopChk levels vols thr f s'
    else some s

/-- `volume.py:277-364` `comp_poc_hva_lva`. -/
def compPocHvaLvaChk (levels : List Int) (vols : List K) (pct : K) : Option (Int × Int × Int) := do
  let s0 ← vaInitChk levels vols
  let s ← vaLoopChk levels vols (vols.sum * (pct / 100)) (vols.length + 2) s0
  let poc ← rd levels (argMax vols : Int)
  some (poc, s.hva, s.lva)

/-- `volume.py:382-384`: one level. -/
def aboveStepChk (levels : List Int) (vols : List K) (poc : Int) (acc : K) (i : Nat) : Option K := do
  let l ← rd levels (i : Int)
  if l > poc then do
    let v ← rd vols (i : Int)
    some (acc + v)
  else some acc

/-- `volume.py:367-390` `calc_volume_percentage_above_poc`. -/
def pctAbovePocChk (levels : List Int) (vols : List K) (poc : Int) : Option K :=
  if vols.sum ≤ 0 then some 0
  else do
    let above ← (List.range levels.length).foldlM (aboveStepChk levels vols poc) 0
    some (if above ≤ 0 then 0 else above / vols.sum)

/-- `volume.py:263-272`: one level; both branches write to the entry of the bucket. -/
def bucketStepChk (n : Int) (idx : List Int) (vols : List K) (out : List K) (i : Nat) : Option (List K) := do
  let b ← rd idx (i : Int)
  if 0 ≤ b ∧ b ≤ n then do
    let v ← rd vols (i : Int)
    let a ← rd out b
    wr out b (a + v)
  else some out

/-- `volume.py:262-272`: the loop over the levels. -/
def bucketAddChk (n : Int) (out : List K) (idx : List Int) (vols : List K) : Option (List K) :=
  (List.range idx.length).foldlM (bucketStepChk n idx vols) out

/-- `volume.py:206-274` `bucket_price_levels`. -/
def bucketPriceLevelsChk (levels : List Int) (vols : List K) (nBins : Int) : Option (Except String (List Int × List K)) :=
  if levels = [] then some (.error "zero-size array to reduction operation not possible")
  else if nBins = 0 then some (.error "ZeroDivisionError")
  else
    let mn := intMin levels
    let mx := intMax levels
    let bw := bucketWidth (mx - mn) nBins
    let edges0 := arange mn (mx + bw) bw
    let n : Nat := edges0.length - 1
    let edges := if edges0.length < 2 then [mn, mx + 1] else edges0
    let idx := levels.map (fun p => (searchRight edges p : Int) - 1)
    let mids := (List.zipWith (fun a b => (a + b - 1) / 2) edges.dropLast edges.tail).take n
    if idx.getLastD 0 = (n : Int) then
      (bucketAddChk n (List.replicate (n + 1) 0) idx vols).map (fun v => .ok (mids ++ [mx], v))
    else
      (bucketAddChk n (List.replicate n 0) idx vols).map (fun v => .ok (mids, v))

/-- `a[idx] += v`, `volume.py:200-201`, `:541-542`: all entries are read, then all sums are written. -/
def fancyAddChk (a : List K) (idx : List Nat) (v : List K) : Option (List K) := do
  let sums ← (idx.zip v).mapM (fun p => (rd a (p.1 : Int)).map (fun x => x + p.2))
  (idx.zip sums).foldlM (fun acc p => wr acc (p.1 : Int) p.2) a

/-- `volume.py:195-201`: one bar. -/
def alignStepChk (grid : List Int) (acc : List K × List K) (b : FpBar K) : Option (List K × List K) := do
  let idx := b.levels.map (searchLeft grid)
  let buy ← fancyAddChk acc.1 idx b.buy
  let sell ← fancyAddChk acc.2 idx b.sell
  some (buy, sell)

/-- `volume.py:134-203` `aggregate_footprint`. -/
def aggregateFootprintChk (rnd : K → Int) (bars : List (FpBar K)) (startTs endTs : Int) :
    Option (Except String (List Int × List K × List K)) :=
  match fpWindow bars startTs endTs with
  | [] => some (.error "zero-size array to reduction operation not possible")
  | b :: bs =>
    let grid := tickGrid rnd (b :: bs)
    let z : List K := List.replicate grid.length 0
    ((b :: bs).foldlM (alignStepChk grid) (z, z)).map (fun r => .ok (grid, r))

/-- `volume.py:478-479`: the first loop, `k` levels left. -/
def trimLeftChk (vols : List K) (right : Int) : Nat → Int → Option Int
  | 0, left => some left
  | k + 1, left =>
    if left ≤ right then do
      let v ← rd vols left
      if v = 0 then trimLeftChk vols right k (left + 1) else some left
    else some left

/-- `volume.py:482-483`: the second loop. -/
def trimRightChk (vols : List K) (left : Int) : Nat → Int → Option Int
  | 0, right => some right
  | k + 1, right =>
    if right ≥ left then do
      let v ← rd vols right
      if v = 0 then trimRightChk vols left k (right - 1) else some right
    else some right

/-- `volume.py:462-489` `trim_trailing_zeros`. -/
def trimZerosChk (r8 : K → K) (levels : List Int) (vols : List K) : Option (List Int × List K) := do
  let v := vols.map r8
  let left ← trimLeftChk v ((levels.length : Int) - 1) levels.length 0
  let right ← trimRightChk v left levels.length ((levels.length : Int) - 1)
  some ((levels.take (right + 1).toNat).drop left.toNat, (v.take (right + 1).toNat).drop left.toNat)

end FinML
