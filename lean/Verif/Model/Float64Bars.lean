/-
Bar aggregation and threshold bars with float64 accumulators: `bar/base.py:342-401` (`comp_bar_ohlcv`), `bar/logic.py:87-149`.
Every addition, multiplication and division is rounded; Numba does not fuse or reorder them (no `fastmath`).
-/
import Verif.Model.Float64

namespace FinML

/-- `total_volume` of one bar (`bar/base.py:368-390`). -/
def sum64 (l : List ℚ) : ℚ := l.foldl (fun s v => f64 (s + v)) 0

/-- `total_dollar` of one bar (`bar/base.py:391`); trades are (price, volume). -/
def dollar64 (l : List (ℚ × ℚ)) : ℚ := l.foldl (fun s t => f64 (s + f64 (t.1 * t.2))) 0

/-- `bar_vwap[i]` (`bar/base.py:398`). -/
def vwap64 (l : List (ℚ × ℚ)) : ℚ :=
  if 0 < sum64 (l.map Prod.snd) then f64 (dollar64 l / sum64 (l.map Prod.snd)) else 0

/-- `bar_volume[i]`, stored as float32 (`bar/base.py:342`, `:397`). -/
def volume32 (l : List ℚ) : ℚ := f32 (sum64 l)

/-- `bar/logic.py:109-113`. -/
def volumeLoop64 (threshold : ℚ) : Nat → ℚ → List ℚ → List Nat
  | _, _, [] => []
  | i, cum, v :: rest =>
    let cum := f64 (cum + v)
    if cum ≥ threshold then i :: volumeLoop64 threshold (i + 1) 0 rest
    else volumeLoop64 threshold (i + 1) cum rest

/-- `bar/logic.py:87-115` `_volume_bar_indexer`. -/
def volumeBarIndexer64 (volumes : List ℚ) (threshold : ℚ) : List Nat :=
  0 :: volumeLoop64 threshold 1 (volumes.headD 0) volumes.tail

/-- `bar/logic.py:143-147`: close indices and the final accumulator. -/
def dollarLoop64 (threshold : ℚ) : Nat → ℚ → List (ℚ × ℚ) → List Nat × ℚ
  | _, cum, [] => ([], cum)
  | i, cum, (p, v) :: rest =>
    let cum := f64 (cum + f64 (p * v))
    if cum ≥ threshold then
      let r := dollarLoop64 threshold (i + 1) (f64 (cum - threshold)) rest
      (i :: r.1, r.2)
    else dollarLoop64 threshold (i + 1) cum rest

/-- `bar/logic.py:118-149` `_dollar_bar_indexer`. -/
def dollarBarIndexer64 (trades : List (ℚ × ℚ)) (threshold : ℚ) : List Nat :=
  0 :: (dollarLoop64 threshold 1 (f64 ((trades.headD (0, 0)).1 * (trades.headD (0, 0)).2)) trades.tail).1

end FinML
