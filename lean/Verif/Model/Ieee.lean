/-
IEEE 754 binary arithmetic with its bounded exponent range: gradual underflow and overflow to infinity.  The other float models
round with an unbounded exponent (`rndBits`); the programs below are those of `Model/Float64Bars` with
the bounded one, to state when that makes no difference.
-/
import Verif.Model.Float64Bars

namespace FinML

/-- Storing a number in a binary format of precision `p` with exponents from `emin` to `emax` (what the hardware does after each
operation of `bar/base.py:368-398`): nearest, ties to even, spacing `2 ^ (emin - p + 1)` below `2 ^ emin`.  `none`: infinity. -/
def ieee (p : Nat) (emin emax : Int) (x : ℚ) : Option ℚ :=
  let e := max (Int.log 2 |x|) emin - ((p : Int) - 1)
  let r := (rint (x / 2 ^ e) : ℚ) * 2 ^ e
  if |r| < 2 ^ (emax + 1) then some r else none

/-- `np.float64` (the type of the accumulators, `bar/base.py:368-369`). -/
def ieee64 (x : ℚ) : Option ℚ := ieee 53 (-1022) 1023 x

/-- `np.float32` (the type of the stored columns, `bar/base.py:342`). -/
def ieee32 (x : ℚ) : Option ℚ := ieee 24 (-126) 127 x

/-- `total_volume` of one bar (`bar/base.py:368-390`). -/
def sumIeee (l : List ℚ) : Option ℚ := l.foldlM (fun s v => ieee64 (s + v)) 0

/-- `total_dollar` of one bar (`bar/base.py:391`). -/
def dollarIeee (l : List (ℚ × ℚ)) : Option ℚ := l.foldlM (fun s t => (ieee64 (t.1 * t.2)).bind (fun d => ieee64 (s + d))) 0

/-- `bar_vwap[i]` (`bar/base.py:398`). -/
def vwapIeee (l : List (ℚ × ℚ)) : Option ℚ :=
  (sumIeee (l.map Prod.snd)).bind (fun v => (dollarIeee l).bind (fun d => if 0 < v then ieee64 (d / v) else some 0))

/-- `bar_volume[i]`, stored as float32 (`bar/base.py:342`, `:397`). -/
def volumeIeee (l : List ℚ) : Option ℚ := (sumIeee l).bind ieee32

/-- `bar/logic.py:109-113`. -/
def volumeLoopIeee (threshold : ℚ) : Nat → ℚ → List ℚ → Option (List Nat)
  | _, _, [] => some []
  | i, cum, v :: rest =>
    (ieee64 (cum + v)).bind (fun cum =>
      if cum ≥ threshold then (volumeLoopIeee threshold (i + 1) 0 rest).map (i :: ·)
      else volumeLoopIeee threshold (i + 1) cum rest)

/-- `bar/logic.py:87-115` `_volume_bar_indexer`. -/
def volumeBarIndexerIeee (volumes : List ℚ) (threshold : ℚ) : Option (List Nat) :=
  (volumeLoopIeee threshold 1 (volumes.headD 0) volumes.tail).map (0 :: ·)

/-- `bar/logic.py:143-147`. -/
def dollarLoopIeee (threshold : ℚ) : Nat → ℚ → List (ℚ × ℚ) → Option (List Nat × ℚ)
  | _, cum, [] => some ([], cum)
  | i, cum, (p, v) :: rest =>
    (ieee64 (p * v)).bind (fun d => (ieee64 (cum + d)).bind (fun cum =>
      if cum ≥ threshold then
        (ieee64 (cum - threshold)).bind (fun c => (dollarLoopIeee threshold (i + 1) c rest).map (fun r => (i :: r.1, r.2)))
      else dollarLoopIeee threshold (i + 1) cum rest))

/-- `bar/logic.py:118-149` `_dollar_bar_indexer`. -/
def dollarBarIndexerIeee (trades : List (ℚ × ℚ)) (threshold : ℚ) : Option (List Nat) :=
  (ieee64 ((trades.headD (0, 0)).1 * (trades.headD (0, 0)).2)).bind (fun d =>
    (dollarLoopIeee threshold 1 d trades.tail).map (fun r => 0 :: r.1))

end FinML
