/-
C36: lagged returns (`finmlkit/feature/core/utils.py` `comp_lagged_returns`).
-/
import Verif.Lemmas.Indicators
import Verif.Lemmas.Search

set_option linter.unusedSectionVars false

namespace FinML

variable {K : Type} [Field K] [LinearOrder K] [IsStrictOrderedRing K]

/-- The return of `c` against base price `b`: inf for a zero base. -/
def returnOf (log : K → K) (isLog : Bool) (b c : K) : Ext K :=
  if b ≠ 0 then .fin (if isLog then log (c / b) else c / b - 1) else .pinf

/-- **C36.**  A non-positive window is rejected. -/
theorem C36_bad_window (log : K → K) (ts : List Int) (close : List K) (w : Int) (isLog : Bool) (h : w ≤ 0) :
    ∃ e, laggedReturns log ts close w isLog = .error e := ⟨_, by unfold laggedReturns; rw [if_pos h]⟩

example : (-5 : Int) ≤ 0 := by decide

/-- The value at position `i`. -/
theorem laggedReturns_get (log : K → K) (ts : List Int) (close : List K) (w : Int) (isLog : Bool) (hw : 0 < w) :
    ∃ out, laggedReturns log ts close w isLog = .ok out ∧ out.length = close.length ∧
      ∀ i, i < close.length → out[i]? = some (
        if i < searchLeft ts (ts.getD 0 0 + w) then .nan
        else
          let lag : Int := (searchRight ts (ts.getD i 0 - w) : Int) - 1
          if 0 ≤ lag ∧ lag < (i : Int) then returnOf log isLog (close.getD lag.toNat 0) (close.getD i 0) else .nan) := by
  refine ⟨_, by unfold laggedReturns; rw [if_neg (by omega)], length_tabulate _ _, ?_⟩
  intro i hi
  rw [tabulate_get?, if_pos hi]
  rfl

/-- **C36.**  For ascending timestamps, the return at `i` is taken against the last sample at least one window old. -/
theorem C36_uses_last_old_sample (log : K → K) (ts : List Int) (close : List K) (w : Int) (isLog : Bool) (hw : 0 < w)
    (hs : ts.Pairwise (· ≤ ·)) (hlen : ts.length = close.length) :
    ∃ out, laggedReturns log ts close w isLog = .ok out ∧ out.length = close.length ∧
      ∀ i, i < close.length → ∀ j, j < close.length → ts.getD j 0 ≤ ts.getD i 0 - w →
        (∀ j', j < j' → j' < close.length → ts.getD i 0 - w < ts.getD j' 0) →
        out[i]? = some (returnOf log isLog (close.getD j 0) (close.getD i 0)) := by
  obtain ⟨out, h1, h2, h3⟩ := laggedReturns_get log ts close w isLog hw
  refine ⟨out, h1, h2, ?_⟩
  intro i hi j hj hle hgt
  rw [h3 i hi]
  have gi : ts.getD i 0 = ts[i]'(by omega) := List.getD_eq_getElem _ _ _
  have gj : ts.getD j 0 = ts[j]'(by omega) := List.getD_eq_getElem _ _ _
  have g0 : ts.getD 0 0 = ts[0]'(by omega) := List.getD_eq_getElem _ _ _
  have h0j : ts[0]'(by omega) ≤ ts[j]'(by omega) := sorted_get_le hs _ _ (by omega)
  rw [if_neg (by rw [lt_searchLeft hs _ i (by omega), g0]; omega)]
  have hsr : searchRight ts (ts.getD i 0 - w) = j + 1 := by
    have a := (lt_searchRight hs (ts.getD i 0 - w) j (by omega)).mpr (by omega)
    have b := searchRight_le_length ts (ts.getD i 0 - w)
    by_contra hne
    have hj1 : j + 1 < searchRight ts (ts.getD i 0 - w) := by omega
    have c := (lt_searchRight hs (ts.getD i 0 - w) (j + 1) (by omega)).mp hj1
    have d := hgt (j + 1) (by omega) (by omega)
    rw [List.getD_eq_getElem _ _ (by omega : j + 1 < ts.length)] at d
    omega
  have hji : j < i := by
    by_contra hc
    have := sorted_get_le hs (by omega : i < ts.length) (by omega : j < ts.length) (by omega)
    omega
  rw [hsr]
  simp only
  rw [if_pos (by omega)]
  congr 3
  omega

example : ([0, 4, 10, 13] : List Int).Pairwise (· ≤ ·) ∧ (laggedReturns id [0, 4, 10, 13] ([1, 2, 4, 6] : List ℚ) 5 false).isOk = true := by
  decide +kernel

/-- **C36.**  It is missing exactly when no sample is old enough. -/
theorem C36_missing_when_none_old (log : K → K) (ts : List Int) (close : List K) (w : Int) (isLog : Bool) (hw : 0 < w)
    (hs : ts.Pairwise (· ≤ ·)) (hlen : ts.length = close.length) :
    ∃ out, laggedReturns log ts close w isLog = .ok out ∧
      ∀ i, i < close.length → (out[i]? = some .nan ↔ ∀ j, j < close.length → ts.getD i 0 - w < ts.getD j 0) := by
  obtain ⟨out, h1, h2, h3⟩ := laggedReturns_get log ts close w isLog hw
  refine ⟨out, h1, ?_⟩
  intro i hi
  constructor
  · intro h j hj
    by_contra hc
    push Not at hc
    -- the last old sample exists
    obtain ⟨out', e1, -, e3⟩ := C36_uses_last_old_sample log ts close w isLog hw hs hlen
    rw [h1] at e1
    injection e1 with e1
    subst e1
    have hpos : j < searchRight ts (ts.getD i 0 - w) := by
      rw [lt_searchRight hs _ j (by omega), ← List.getD_eq_getElem ts 0 (by omega : j < ts.length)]; exact hc
    have hle := searchRight_le_length ts (ts.getD i 0 - w)
    have := e3 i hi (searchRight ts (ts.getD i 0 - w) - 1) (by omega) (by
        rw [List.getD_eq_getElem _ _ (by omega : searchRight ts (ts.getD i 0 - w) - 1 < ts.length)]
        exact (lt_searchRight hs (ts.getD i 0 - w) _ (by omega)).mp (by omega)) (by
        intro j' hj' hl
        rw [List.getD_eq_getElem ts _ (by omega : j' < ts.length)]
        by_contra hcc
        have := (lt_searchRight hs (ts.getD i 0 - w) j' (by omega)).mpr (by omega)
        omega)
    rw [h] at this
    unfold returnOf at this
    split at this <;> simp at this
  · intro h
    rw [h3 i hi]
    congr 1
    split
    · rfl
    · have : searchRight ts (ts.getD i 0 - w) = 0 := by
        by_contra hc
        have hl := searchRight_le_length ts (ts.getD i 0 - w)
        have := (lt_searchRight hs (ts.getD i 0 - w) 0 (by omega)).mp (by omega)
        have h' := h 0 (by omega)
        rw [List.getD_eq_getElem ts _ (by omega : 0 < ts.length)] at h'
        omega
      rw [this]
      simp

example : laggedReturns (K := ℚ) (fun x => x) [0, 5, 11, 20] [1, 2, 3, 6] 10 false = .ok [.nan, .nan, .fin 2, .fin 2] := by decide +kernel

/-- **C36, C35.**  Later samples do not change earlier returns. -/
theorem C36_causal (log : K → K) (ts : List Int) (close : List K) (w : Int) (isLog : Bool) (hw : 0 < w)
    (hs : ts.Pairwise (· ≤ ·)) (hlen : ts.length = close.length) (k : Nat) (out : List (Ext K))
    (h : laggedReturns log ts close w isLog = .ok out) :
    laggedReturns log (ts.take k) (close.take k) w isLog = .ok (out.take k) := by
  have hs' : (ts.take k).Pairwise (· ≤ ·) := hs.sublist (List.take_sublist k ts)
  obtain ⟨o1, a1, a2, a3⟩ := C36_uses_last_old_sample log ts close w isLog hw hs hlen
  obtain ⟨o1', b1, b3⟩ := C36_missing_when_none_old log ts close w isLog hw hs hlen
  obtain ⟨o2, c1, c2, c3⟩ := C36_uses_last_old_sample log (ts.take k) (close.take k) w isLog hw hs' (by simp [hlen])
  obtain ⟨o2', d1, d3⟩ := C36_missing_when_none_old log (ts.take k) (close.take k) w isLog hw hs' (by simp [hlen])
  rw [h] at a1 b1; injection a1 with a1; injection b1 with b1; subst a1; subst b1
  rw [c1] at d1; injection d1 with d1; subst d1
  rw [c1]
  congr 1
  apply List.ext_getElem?
  intro i
  rw [List.getElem?_take]
  by_cases hk : i < k
  · rw [if_pos hk]
    by_cases hi : i < close.length
    · have hik : i < (close.take k).length := by rw [List.length_take]; omega
      by_cases hall : ∀ j, j < close.length → ts.getD i 0 - w < ts.getD j 0
      · rw [(b3 i hi).mpr hall]
        refine (d3 i hik).mpr ?_
        intro j hj
        rw [List.length_take] at hj
        rw [getD_take_lt _ _ _ _ hk, getD_take_lt _ _ _ _ (by omega)]
        exact hall j (by omega)
      · push Not at hall
        obtain ⟨j0, hj0, hj0'⟩ := hall
        -- greatest such index
        have hpos : j0 < searchRight ts (ts.getD i 0 - w) := by
          rw [lt_searchRight hs _ j0 (by omega), ← List.getD_eq_getElem ts 0 (by omega : j0 < ts.length)]; exact hj0'
        have hle := searchRight_le_length ts (ts.getD i 0 - w)
        obtain ⟨j, hj⟩ : ∃ j, searchRight ts (ts.getD i 0 - w) = j + 1 := ⟨_, (by omega : _ = searchRight ts (ts.getD i 0 - w) - 1 + 1)⟩
        have hjle : ts.getD j 0 ≤ ts.getD i 0 - w := by
          rw [List.getD_eq_getElem ts 0 (by omega : j < ts.length)]
          exact (lt_searchRight hs (ts.getD i 0 - w) j (by omega)).mp (by omega)
        have hjgt : ∀ j', j < j' → j' < close.length → ts.getD i 0 - w < ts.getD j' 0 := by
          intro j' h1 h2
          rw [List.getD_eq_getElem ts 0 (by omega : j' < ts.length)]
          by_contra hc
          have := (lt_searchRight hs (ts.getD i 0 - w) j' (by omega)).mpr (by omega)
          omega
        have hji : j < i := by
          by_contra hc
          have := sorted_get_le hs (by omega : i < ts.length) (by omega : j < ts.length) (by omega)
          rw [List.getD_eq_getElem ts 0 (by omega : j < ts.length), List.getD_eq_getElem ts 0 (by omega : i < ts.length)] at hjle
          omega
        rw [a3 i hi j (by omega) hjle hjgt]
        have := c3 i hik j (by rw [List.length_take]; omega)
          (by rw [getD_take_lt _ _ _ _ hk, getD_take_lt _ _ _ _ (by omega)]; exact hjle)
          (by intro j' h1 h2
              rw [List.length_take] at h2
              rw [getD_take_lt _ _ _ _ hk, getD_take_lt _ _ _ _ (by omega)]; exact hjgt j' h1 (by omega))
        rw [this, getD_take_lt _ _ _ _ hk, getD_take_lt _ _ _ _ (by omega)]
    · rw [List.getElem?_eq_none (by rw [c2, List.length_take]; omega), List.getElem?_eq_none (by omega)]
  · rw [if_neg hk, List.getElem?_eq_none (by rw [c2, List.length_take]; omega)]

example : laggedReturns (K := ℚ) (fun x => x) ([0, 5, 11, 20].take 3) (([1, 2, 3, 6] : List ℚ).take 3) 10 false = .ok [.nan, .nan, .fin 2] := by
  decide +kernel

end FinML
