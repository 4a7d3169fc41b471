/-
Fixed-width integer storage of the footprint arrays of `finmlkit/bar/base.py` (two's complement wrap on store).
-/
import Verif.Model.Footprint

namespace FinML

variable {K : Type} [Field K] [LinearOrder K]

/-- Storing an `int64` in a signed array of `b` bits keeps the low bits (`bar/base.py:677-678`, `693-697`). -/
def storeInt (b : Nat) (x : Int) : Int := (x + 2 ^ (b - 1)) % 2 ^ b - 2 ^ (b - 1)

/-- The integer arrays of one bar as stored by `comp_bar_footprints`. -/
structure StoredFootprint where
  priceLevels : List Int
  buyTicks : List Int
  sellTicks : List Int
  buyImbSum : Nat
  sellImbSum : Nat
  cot : Int
  maxRun : Int
deriving DecidableEq

/-- `bar/base.py:693-741`: levels, tick counts and COT level are `int32`, the run is `int16`, the flag counts
`uint16` (already reduced in `footprintBar`).  The COT level is read from the stored levels. -/
def storeFootprint (fp : Footprint K) : StoredFootprint :=
  let levels := fp.priceLevels.map (storeInt 32)
  { priceLevels := levels,
    buyTicks := fp.lv.buyTicks.map (storeInt 32),
    sellTicks := fp.lv.sellTicks.map (storeInt 32),
    buyImbSum := fp.buyImbSum,
    sellImbSum := fp.sellImbSum,
    cot := levels.getD (argmax (List.zipWith (· + ·) fp.lv.buyVol fp.lv.sellVol)) 0,
    maxRun := storeInt 16 fp.stats.maxRunSigned }

end FinML
