/-
The casts between Numba lists and NumPy object arrays of `FootprintData` (`finmlkit/bar/data_model.py:994-1016`).

`np.array(rows, dtype=object)` gives a one-dimensional array of arrays only if the rows have different lengths: rows of
one length are stacked into a two-dimensional array of Python objects, whose rows Numba cannot type.
-/
import Verif.Model.FootprintData

namespace FinML

variable {K : Type} [Field K] [LinearOrder K]

/-- A per-level column: a Numba list of typed arrays, a NumPy array of typed arrays, or a two-dimensional object array. -/
inductive FpColumn (α : Type) where
  | numba (rows : List (List α))
  | arrays (rows : List (List α))
  | stacked (rows : List (List α))
deriving DecidableEq

/-- The rows of a column, whatever holds them. -/
def FpColumn.rows {α : Type} : FpColumn α → List (List α)
  | .numba r => r
  | .arrays r => r
  | .stacked r => r

/-- Do all rows have the length of the first one? -/
def sameWidth {α : Type} : List (List α) → Bool
  | [] => false
  | r :: rs => rs.all (fun s => s.length == r.length)

/-- `np.array(column, dtype=object)` (`bar/data_model.py:1010-1016`); an array is copied as it is. -/
def FpColumn.toNumpy {α : Type} : FpColumn α → FpColumn α
  | .numba r => if sameWidth r then .stacked r else .arrays r
  | c => c

/-- `NumbaList(column)` (`bar/data_model.py:998-1004`): appends the rows; a row of Python objects has no Numba type. -/
def FpColumn.toNumba {α : Type} : FpColumn α → Except String (FpColumn α)
  | .stacked [] => .ok (.numba [])
  | .stacked _ => .error "cannot determine Numba type of an object array"
  | c => .ok (.numba c.rows)

/-- `column[a:b]` (`bar/data_model.py:888-895`): the kind of the column stays. -/
def FpColumn.slice {α : Type} (a b : Option Int) : FpColumn α → FpColumn α
  | .numba r => .numba (pySlice a b r)
  | .arrays r => .arrays (pySlice a b r)
  | .stacked r => .stacked (pySlice a b r)

/-- The seven per-level columns of a container. -/
structure FpColumns (K : Type) where
  levels : FpColumn Int
  buyVol : FpColumn K
  sellVol : FpColumn K
  buyTicks : FpColumn Int
  sellTicks : FpColumn Int
  buyImb : FpColumn Bool
  sellImb : FpColumn Bool
deriving DecidableEq

/-- The columns that `build_footprints` hands out (`bar/base.py:280-297`). -/
def FpData.columns (d : FpData K) : FpColumns K :=
  ⟨.numba d.levels, .numba d.buyVol, .numba d.sellVol, .numba d.buyTicks, .numba d.sellTicks, .numba d.buyImb,
    .numba d.sellImb⟩

/-- `cast_to_numpy` (`bar/data_model.py:1006-1016`). -/
def FpColumns.castToNumpy (c : FpColumns K) : FpColumns K :=
  ⟨c.levels.toNumpy, c.buyVol.toNumpy, c.sellVol.toNumpy, c.buyTicks.toNumpy, c.sellTicks.toNumpy, c.buyImb.toNumpy,
    c.sellImb.toNumpy⟩

/-- `cast_to_numba_list` (`bar/data_model.py:994-1004`). -/
def FpColumns.castToNumba (c : FpColumns K) : Except String (FpColumns K) := do
  let levels ← c.levels.toNumba
  let buyVol ← c.buyVol.toNumba
  let sellVol ← c.sellVol.toNumba
  let buyTicks ← c.buyTicks.toNumba
  let sellTicks ← c.sellTicks.toNumba
  let buyImb ← c.buyImb.toNumba
  let sellImb ← c.sellImb.toNumba
  return ⟨levels, buyVol, sellVol, buyTicks, sellTicks, buyImb, sellImb⟩

/-- Slicing all columns (`bar/data_model.py:886-902`). -/
def FpColumns.slice (a b : Option Int) (c : FpColumns K) : FpColumns K :=
  ⟨c.levels.slice a b, c.buyVol.slice a b, c.sellVol.slice a b, c.buyTicks.slice a b, c.sellTicks.slice a b,
    c.buyImb.slice a b, c.sellImb.slice a b⟩

end FinML
