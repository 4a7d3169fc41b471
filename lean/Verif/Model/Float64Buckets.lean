/-
The aligned and the bucketed volumes of a volume profile in the arithmetic of the code
(`finmlkit/feature/core/volume.py:133-274`, `:393-569`): the arrays are float32, every `+=` on an entry is a float32 addition.
The point of control, the value area and the share above the point of control are those of `Model/Float64Profile`.
-/
import Verif.Model.Float64Profile

namespace FinML

/-- `volume.py:200-201`, `:539-540`: `a[idx] += v` on a float32 array. -/
def fancyAdd32 (a : List ℚ) (idx : List Nat) (v : List ℚ) : List ℚ :=
  putAll a idx (List.zipWith (fun k x => f32 (a.getD k 0 + x)) idx v)

/-- `volume.py:194-201`, `:537-540`: one bar is added to the aligned volumes. -/
def alignStep32 (grid : List Int) (acc : List ℚ × List ℚ) (b : FpBar ℚ) : List ℚ × List ℚ :=
  let idx := b.levels.map (searchLeft grid)
  (fancyAdd32 acc.1 idx b.buy, fancyAdd32 acc.2 idx b.sell)

/-- `volume.py:186-203`: grid and aligned volumes of the selected bars. -/
def alignBars32 (rnd : ℚ → Int) (bars : List (FpBar ℚ)) : List Int × List ℚ × List ℚ :=
  let grid := tickGrid rnd bars
  let z : List ℚ := List.replicate grid.length 0
  (grid, bars.foldl (alignStep32 grid) (z, z))

/-- `volume.py:133-203` `aggregate_footprint`. -/
def aggregateFootprint32 (rnd : ℚ → Int) (bars : List (FpBar ℚ)) (startTs endTs : Int) : Except String (List Int × List ℚ × List ℚ) :=
  match fpWindow bars startTs endTs with
  | [] => .error "zero-size array to reduction operation not possible"
  | b :: bs => .ok (alignBars32 rnd (b :: bs))

/-- `volume.py:256-269`: add each volume to its bucket. -/
def bucketAdd32 (n : Int) (out : List ℚ) (idx : List Int) (vols : List ℚ) : List ℚ :=
  (idx.zip vols).foldl (fun acc p => if 0 ≤ p.1 ∧ p.1 ≤ n then acc.modify p.1.toNat (fun a => f32 (a + p.2)) else acc) out

/-- `volume.py:206-274` `bucket_price_levels`; the buckets are those of `bucketPriceLevels`. -/
def bucketPriceLevels32 (levels : List Int) (vols : List ℚ) (nBins : Int) : Except String (List Int × List ℚ) :=
  if levels = [] then .error "zero-size array to reduction operation not possible"
  else if nBins = 0 then .error "ZeroDivisionError"
  else
    let mn := intMin levels
    let mx := intMax levels
    let bw := bucketWidth (mx - mn) nBins
    let edges0 := arange mn (mx + bw) bw
    let n : Nat := edges0.length - 1
    let edges := if edges0.length < 2 then [mn, mx + 1] else edges0
    let idx := levels.map (fun p => (searchRight edges p : Int) - 1)
    let leftover := idx.getLastD 0 = (n : Int)
    let mids := (List.zipWith (fun a b => (a + b - 1) / 2) edges.dropLast edges.tail).take n
    if leftover then
      .ok (mids ++ [mx], bucketAdd32 n (List.replicate (n + 1) 0) idx vols)
    else
      .ok (mids, bucketAdd32 n (List.replicate n 0) idx vols)

/-- `volume.py:435-454`: profile of one window. -/
def profileOf32 (levels : List Int) (vols : List ℚ) (nBins : Option Int) (pct : ℚ) : Except String (VpOut ℚ) :=
  match nBins with
  | none =>
    let r := compPocHvaLva32 levels vols pct
    .ok ⟨r.1, r.2.1, r.2.2, pctAbovePoc32 levels vols r.1⟩
  | some n =>
    match bucketPriceLevels32 levels vols n with
    | .error e => .error e
    | .ok (l, v) =>
      let r := compPocHvaLva32 l v pct
      .ok ⟨r.1, r.2.1, r.2.2, pctAbovePoc32 l v r.1⟩

/-- `volume.py:421-454`: the value written by iteration `i` of the parallel loop; the total of a level is a float32 sum (`:435`). -/
def rollingAt32 (rnd : ℚ → Int) (bars : List (FpBar ℚ)) (windowNs : Int) (nBins : Option Int) (pct : ℚ) (i : Nat) : Except String (VpOut ℚ) :=
  let endTs := (bars.map FpBar.ts).getD i 0
  match aggregateFootprint32 rnd bars (endTs - windowNs) endTs with
  | .error e => .error e
  | .ok (levels, buy, sell) => profileOf32 levels (List.zipWith (fun a b => f32 (a + b)) buy sell) nBins pct

/-- `volume.py:393-456` `volume_profile_rolling`. -/
def volumeProfileRolling32 (rnd : ℚ → Int) (bars : List (FpBar ℚ)) (windowNs : Int) (nBins : Option Int) (pct : ℚ) : List (Except String (VpOut ℚ)) :=
  let ts := bars.map FpBar.ts
  let first := searchLeft ts (ts.headD 0 + windowNs)
  tabulate bars.length (fun i => if i < first then .ok ⟨0, 0, 0, 0⟩ else rollingAt32 rnd bars windowNs nBins pct i)

/-- `volume.py:536-565`: the aligned volumes of `volume_profile_developing` after the bars up to and including `t` of the selected range. -/
def developingTotal32 (rnd : ℚ → Int) (sel : List (FpBar ℚ)) (t : Nat) : List ℚ :=
  let grid := tickGrid rnd sel
  let z : List ℚ := List.replicate grid.length 0
  let acc := (sel.take (t + 1)).foldl (alignStep32 grid) (z, z)
  List.zipWith (fun a b => f32 (a + b)) acc.1 acc.2

end FinML
