/-
The statistics of one footprint in the arithmetic of the compiled code (`finmlkit/bar/base.py:755-850`): level volumes are
float32, the imbalance factor is float64; Numba computes an operation between an integer array and a float32 array in float32
(its ufunc resolution lets every integer type be cast to the floating type of the other operand), and sums in order.
-/
import Verif.Model.Float64Profile
import Verif.Model.Footprint

namespace FinML

/-- `bar/base.py:797`: the product with the float64 factor is float64. -/
def sellImbalances64 (buy sell : List ℚ) (m : ℚ) : List Bool :=
  if buy.length > 1 then
    List.zipWith (fun s b => decide (s > f64 (b * m))) sell.dropLast buy.tail ++ [false]
  else List.replicate buy.length false

/-- `bar/base.py:798`. -/
def buyImbalances64 (buy sell : List ℚ) (m : ℚ) : List Bool :=
  if buy.length > 1 then
    false :: List.zipWith (fun b s => decide (b > f64 (s * m))) buy.tail sell.dropLast
  else List.replicate buy.length false

/-- `bar/base.py:825`. -/
def total32 (buy sell : List ℚ) : List ℚ := List.zipWith (fun b s => f32 (b + s)) buy sell

/-- `bar/base.py:838`: volume-weighted mean level; levels are cast to float32. -/
def levelMean32 (levels : List Int) (total : List ℚ) : ℚ :=
  f32 (npSum32 (List.zipWith (fun (p : Int) v => f32 (f32 p * v)) levels total) / npSum32 total)

/-- `bar/base.py:842-843`.  The order of the sum in `np.dot` (BLAS) is not specified; it is taken in order here, and only
used where products and sums are exact. -/
def profileSkew32 (levels : List Int) (total : List ℚ) : ℚ :=
  if npSum32 total > 0 ∧ levels.length > 0 then
    let c := levelMean32 levels total
    f32 (npSum32 (List.zipWith (fun (p : Int) v => f32 (f32 (f32 p - c) * v)) levels total) / npSum32 total)
  else 0

/-- `bar/base.py:847-848`: squares of the float32 proportions (`powf(x, 2)` taken as the rounded square), float32 sum; `1.0 -` is
float64. -/
def profileGini32 (levels : List Int) (total : List ℚ) : ℚ :=
  if npSum32 total > 0 ∧ levels.length > 0 then
    f64 (1 - npSum32 (total.map (fun v => f32 (f32 (v / npSum32 total) ^ 2))))
  else 0

/-- `bar/base.py:755-850` `comp_footprint_features`. -/
def footprintFeatures32 (levels : List Int) (buy sell : List ℚ) (m : ℚ) : FootprintStats ℚ :=
  let bi := buyImbalances64 buy sell m
  let si := sellImbalances64 buy sell m
  let total := total32 buy sell
  { buyImb := bi, sellImb := si,
    maxRunSigned := maxRunSigned (List.zipWith levelSign bi si),
    cot := levels.getD (argmax total) 0,
    vpSkew := profileSkew32 levels total,
    vpGini := profileGini32 levels total }

end FinML
