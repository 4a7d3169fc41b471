/-
C152: casting a footprint container to NumPy and back.
`finmlkit/bar/data_model.py:FootprintData.cast_to_numpy`, `cast_to_numba_list`.
-/
import Verif.Model.FootprintCast
import Verif.Props.FootprintData

set_option linter.unusedSectionVars false

namespace FinML

variable {K : Type} [Field K] [LinearOrder K] [IsStrictOrderedRing K]

/-! ## Specification -/

/-- There is a bar, and all bars have the same number of price levels. -/
def UniformLevels (d : FpData K) : Prop :=
  ∃ k, d.levels ≠ [] ∧ ∀ l ∈ d.levels, l.length = k

theorem sameWidth_iff {α : Type} (rows : List (List α)) :
    sameWidth rows = true ↔ ∃ k, rows ≠ [] ∧ ∀ l ∈ rows, l.length = k := by
  cases rows with
  | nil => simp [sameWidth]
  | cons r rs =>
    simp only [sameWidth, List.all_eq_true, beq_iff_eq, ne_eq, reduceCtorEq, not_false_eq_true, true_and,
      List.mem_cons, forall_eq_or_imp]
    exact ⟨fun h => ⟨_, rfl, h⟩, fun ⟨k, h1, h2⟩ s hs => by rw [h1, h2 s hs]⟩

/-- Two columns with the same row lengths are stacked together. -/
theorem sameWidth_congr {α β : Type} (a : List (List α)) (b : List (List β))
    (h : a.map List.length = b.map List.length) : sameWidth a = sameWidth b := by
  have key : ∀ {γ : Type} (c : List (List γ)), sameWidth c = true ↔
      ∃ k, c.map List.length ≠ [] ∧ ∀ l ∈ c.map List.length, l = k := by
    intro γ c
    rw [sameWidth_iff]
    simp
  rw [Bool.eq_iff_iff, key, key, h]

theorem column_roundTrip {α : Type} (r : List (List α)) :
    (FpColumn.numba r).toNumpy.toNumba = if sameWidth r then .error "cannot determine Numba type of an object array"
      else .ok (.numba r) := by
  cases r with
  | nil => rfl
  | cons x xs =>
    unfold FpColumn.toNumpy
    dsimp only
    split_ifs <;> rfl

/-! ## C152 -/

/-- **C152 (contents).** Neither cast changes a value: the rows of every column stay. -/
theorem C152_contents {α : Type} (c : FpColumn α) :
    c.toNumpy.rows = c.rows ∧ (∀ c', c.toNumba = .ok c' → c' = .numba c.rows) ∧
    (∀ a b, (c.slice a b).rows = pySlice a b c.rows) := by
  refine ⟨?_, ?_, ?_⟩
  · cases c with
    | numba r => unfold FpColumn.toNumpy; dsimp only; split_ifs <;> rfl
    | arrays r => rfl
    | stacked r => rfl
  · intro c' h
    cases c with
    | numba r => exact (Except.ok.inj h).symm
    | arrays r => exact (Except.ok.inj h).symm
    | stacked r =>
      cases r with
      | nil => exact (Except.ok.inj h).symm
      | cons x xs => cases h
  · intro a b; cases c <;> rfl

/-- **C152 (fresh container).** Casting the container of `build_footprints` to Numba lists changes nothing, before and
after slicing. -/
theorem C152_fresh (d : FpData K) (a b : Option Int) :
    d.columns.castToNumba = .ok d.columns ∧ (d.columns.slice a b).castToNumba = .ok (d.slice a b).columns := ⟨rfl, rfl⟩

/-- **C152 (round trip).** For a container whose columns agree on the number of levels of every bar, casting to NumPy and
back succeeds, with the container unchanged, exactly when two bars have different numbers of levels or there is no bar. -/
theorem C152_round_trip (d : FpData K) (hlev : d.buyVol.map List.length = d.levels.map List.length ∧
      d.sellVol.map List.length = d.levels.map List.length ∧ d.buyTicks.map List.length = d.levels.map List.length ∧
      d.sellTicks.map List.length = d.levels.map List.length ∧ d.buyImb.map List.length = d.levels.map List.length ∧
      d.sellImb.map List.length = d.levels.map List.length) :
    (UniformLevels d → ∃ e, d.columns.castToNumpy.castToNumba = .error e) ∧
    (¬ UniformLevels d → d.columns.castToNumpy.castToNumba = .ok d.columns) := by
  obtain ⟨h1, h2, h3, h4, h5, h6⟩ := hlev
  have hu : sameWidth d.levels = true ↔ UniformLevels d := sameWidth_iff _
  have e : d.columns.castToNumpy.castToNumba = if sameWidth d.levels then
      .error "cannot determine Numba type of an object array" else .ok d.columns := by
    unfold FpColumns.castToNumba FpColumns.castToNumpy FpData.columns
    dsimp only
    rw [column_roundTrip, column_roundTrip, column_roundTrip, column_roundTrip, column_roundTrip, column_roundTrip,
      column_roundTrip, sameWidth_congr _ _ h1, sameWidth_congr _ _ h2, sameWidth_congr _ _ h3, sameWidth_congr _ _ h4,
      sameWidth_congr _ _ h5, sameWidth_congr _ _ h6]
    split_ifs <;> rfl
  rw [e]
  constructor
  · intro h; rw [if_pos (hu.mpr h)]; exact ⟨_, rfl⟩
  · intro h; rw [if_neg (fun hh => h (hu.mp hh))]

theorem lengths_of_getD {α β : Type} (a : List (List α)) (b : List (List β)) (hl : a.length = b.length)
    (h : ∀ i, (a.getD i []).length = (b.getD i []).length) : a.map List.length = b.map List.length := by
  apply List.ext_getElem
  · simpa using hl
  · intro i h1 h2
    simp only [List.length_map] at h1 h2
    have := h i
    rw [List.getD_eq_getElem _ _ h1, List.getD_eq_getElem _ _ h2] at this
    simpa using this

/-- **C152 (builder).** The footprints of every builder call, on any trades: casting them to NumPy and back succeeds
exactly when two bars have different numbers of levels or there is no bar. -/
theorem C152_builder (log log1p : K → K) (rndOf : K → K → Int) (inferTick : List K → Except String K)
    (tr : KitTrades K) (kind : KitKind K) (tick : Option K) (t m : K) (stamps : List Int) (fps : List (Footprint K))
    (h : (kitCall log log1p rndOf inferTick tr kind BuilderState.fresh (.footprints tick m)).2 = .ok (.fps stamps t fps)) :
    (UniformLevels (fpContainer stamps t fps) →
      ∃ e, (fpContainer stamps t fps).columns.castToNumpy.castToNumba = .error e) ∧
    (¬ UniformLevels (fpContainer stamps t fps) → (fpContainer stamps t fps).columns.castToNumpy.castToNumba =
      .ok (fpContainer stamps t fps).columns) := by
  obtain ⟨hla, _⟩ := builder_footprints_aligned log log1p rndOf inferTick tr kind tick m t stamps fps h
  apply C152_round_trip
  refine ⟨lengths_of_getD _ _ ?_ (fun i => (hla i).1), lengths_of_getD _ _ ?_ (fun i => (hla i).2.1),
    lengths_of_getD _ _ ?_ (fun i => (hla i).2.2.1), lengths_of_getD _ _ ?_ (fun i => (hla i).2.2.2.1),
    lengths_of_getD _ _ ?_ (fun i => (hla i).2.2.2.2.1), lengths_of_getD _ _ ?_ (fun i => (hla i).2.2.2.2.2)⟩ <;>
    simp [fpContainer]

/-- **C152 (one bar).** So the round trip fails for every container of a single bar. -/
theorem C152_one_bar (d : FpData K) (l : List Int) (h : d.levels = [l]) : UniformLevels d :=
  ⟨l.length, by simp [h], by simp [h]⟩

/-- **C152 (order of slicing).** Whether a selection can be cast back depends on when the slice was taken: slicing the
NumPy form of a container with uneven bars always works, slicing that of an even one works only if nothing is selected. -/
theorem C152_slice_after (d : FpData K) (hlev : d.buyVol.map List.length = d.levels.map List.length ∧
      d.sellVol.map List.length = d.levels.map List.length ∧ d.buyTicks.map List.length = d.levels.map List.length ∧
      d.sellTicks.map List.length = d.levels.map List.length ∧ d.buyImb.map List.length = d.levels.map List.length ∧
      d.sellImb.map List.length = d.levels.map List.length) (a b : Option Int) :
    (¬ UniformLevels d → (d.columns.castToNumpy.slice a b).castToNumba = .ok (d.slice a b).columns) ∧
    (UniformLevels d → (d.slice a b).levels ≠ [] →
      ∃ e, (d.columns.castToNumpy.slice a b).castToNumba = .error e) := by
  obtain ⟨h1, h2, h3, h4, h5, h6⟩ := hlev
  have hu : sameWidth d.levels = true ↔ UniformLevels d := sameWidth_iff _
  constructor
  · intro h
    have hf : sameWidth d.levels = false := by rw [Bool.eq_false_iff]; exact fun hh => h (hu.mp hh)
    simp only [FpColumns.castToNumpy, FpData.columns, FpColumn.toNumpy, hf, sameWidth_congr _ _ h1,
      sameWidth_congr _ _ h2, sameWidth_congr _ _ h3, sameWidth_congr _ _ h4, sameWidth_congr _ _ h5,
      sameWidth_congr _ _ h6, Bool.false_eq_true, if_false]
    rfl
  · intro h hne
    have ht := hu.mpr h
    simp only [FpColumns.castToNumpy, FpData.columns, FpColumn.toNumpy, ht, sameWidth_congr _ _ h1,
      sameWidth_congr _ _ h2, sameWidth_congr _ _ h3, sameWidth_congr _ _ h4, sameWidth_congr _ _ h5,
      sameWidth_congr _ _ h6, if_true]
    refine ⟨"cannot determine Numba type of an object array", ?_⟩
    unfold FpColumns.castToNumba FpColumns.slice FpColumn.slice
    dsimp only
    have hne' : pySlice a b d.levels ≠ [] := hne
    cases hs : pySlice a b d.levels with
    | nil => exact absurd hs hne'
    | cons x xs => rfl

/-- A container of two bars with two levels each, and one whose bars have one and two levels. -/
def evenBars : FpData ℚ :=
  { ts := [0, 1], tick := 1, levels := [[5, 6], [7, 8]], buyVol := [[1, 2], [3, 4]], sellVol := [[0, 0], [1, 1]],
    buyTicks := [[1, 1], [1, 1]], sellTicks := [[0, 0], [1, 1]], buyImb := [[false, true], [false, true]],
    sellImb := [[false, false], [false, false]], cot := none, sellSum := none, buySum := none, run := none, skew := none,
    gini := none }

/-- See `evenBars`. -/
def unevenBars : FpData ℚ :=
  { evenBars with
    levels := [[5], [7, 8]], buyVol := [[1], [3, 4]], sellVol := [[0], [1, 1]], buyTicks := [[1], [1, 1]],
    sellTicks := [[0], [1, 1]], buyImb := [[true], [false, true]], sellImb := [[false], [false, false]] }

example : UniformLevels evenBars ∧ evenBars.buyVol.map List.length = evenBars.levels.map List.length :=
  ⟨⟨2, by decide, by decide⟩, rfl⟩

example : ¬ UniformLevels unevenBars ∧ unevenBars.buyVol.map List.length = unevenBars.levels.map List.length := by
  refine ⟨?_, rfl⟩
  rintro ⟨k, -, h⟩
  have h1 := h [5] (by decide)
  have h2 := h [7, 8] (by decide)
  simp at h1 h2
  omega

/-- **C152 (witness).** The second bar alone: taken from the NumPy form of the uneven container it can be cast back; cast
to NumPy by itself it cannot. -/
theorem C152_witness :
    (unevenBars.columns.castToNumpy.slice (some 1) none).castToNumba.toOption = some (unevenBars.slice (some 1) none).columns ∧
    ((unevenBars.columns.slice (some 1) none).castToNumpy.castToNumba).toOption = none := by
  decide +kernel

end FinML
