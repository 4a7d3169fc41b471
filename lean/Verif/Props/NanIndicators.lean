/-
C127: missing values in the indicators that do not test for them.
-/
import Verif.Model.NanIndicators
import Verif.Lemmas.Indicators
import Verif.Props.PandasRolling

set_option linter.unusedSectionVars false

namespace FinML

variable {K : Type} [Field K] [LinearOrder K] [IsStrictOrderedRing K]

@[simp] theorem nan2_some (f : K → K → K) (a b : K) : nan2 f (some a) (some b) = some (f a b) := rfl
@[simp] theorem nan2_none_left (f : K → K → K) (b : Option K) : nan2 f none b = none := by cases b <;> rfl
@[simp] theorem nan2_none_right (f : K → K → K) (a : Option K) : nan2 f a none = none := by cases a <;> rfl
@[simp] theorem nanGt_some (a b : K) : nanGt (some a) (some b) = decide (b < a) := rfl
@[simp] theorem nanGt_none_left (b : Option K) : nanGt none b = false := by cases b <;> rfl
@[simp] theorem nanGt_none_right (a : Option K) : nanGt a none = false := by cases a <;> rfl
@[simp] theorem nanLe_some (a b : K) : nanLe (some a) (some b) = decide (a ≤ b) := rfl
@[simp] theorem nanLe_none_left (b : Option K) : nanLe none b = false := by cases b <;> rfl
@[simp] theorem nanEq_some (a b : K) : nanEq (some a) (some b) = decide (a = b) := rfl
@[simp] theorem nanEq_none_left (b : Option K) : nanEq none b = false := by cases b <;> rfl
@[simp] theorem nanEq_none_right (a : Option K) : nanEq a none = false := by cases a <;> rfl
@[simp] theorem pyMax_none_left (a : Option K) : pyMax none a = none := by unfold pyMax; simp
@[simp] theorem pyMax_none_right (a : Option K) : pyMax a none = a := by unfold pyMax; simp
@[simp] theorem pyMin_none_left (a : Option K) : pyMin none a = none := by unfold pyMin; simp
@[simp] theorem pyMin_none_right (a : Option K) : pyMin a none = a := by unfold pyMin; simp
@[simp] theorem pyMax_some (a b : K) : pyMax (some a) (some b) = some (max a b) := by
  unfold pyMax
  rw [nanGt_some]
  by_cases h : a < b
  · rw [if_pos (by simpa using h), max_eq_right h.le]
  · rw [if_neg (by simpa using h), max_eq_left (not_lt.mp h)]
@[simp] theorem pyMin_some (a b : K) : pyMin (some a) (some b) = some (min a b) := by
  unfold pyMin
  rw [nanGt_some]
  by_cases h : b < a
  · rw [if_pos (by simpa using h), min_eq_right h.le]
  · rw [if_neg (by simpa using h), min_eq_left (not_lt.mp h)]

theorem nanSum_some (l : List K) : nanSum (l.map some) = some l.sum := by
  have gen : ∀ (l : List K) (a : K), (l.map some).foldl (nan2 (· + ·)) (some a) = some (a + l.sum) := by
    intro l
    induction l with
    | nil => intro a; simp
    | cons x l ih => intro a; simp only [List.map_cons, List.foldl_cons, nan2_some, List.sum_cons]; rw [ih]; congr 1; ring
  unfold nanSum
  rw [gen, zero_add]

theorem nanSum_none (l : List (Option K)) (h : none ∈ l) : nanSum l = none := by
  have fix : ∀ l : List (Option K), l.foldl (nan2 (· + ·)) none = none := by
    intro l
    induction l with
    | nil => rfl
    | cons x l ih => rw [List.foldl_cons, nan2_none_left]; exact ih
  have gen : ∀ (l : List (Option K)) (a : Option K), none ∈ l → l.foldl (nan2 (· + ·)) a = none := by
    intro l
    induction l with
    | nil => intro a h; simp at h
    | cons x l ih =>
      intro a h
      rw [List.foldl_cons]
      rcases List.mem_cons.mp h with h | h
      · rw [← h, nan2_none_right, fix]
      · exact ih _ h
  exact gen l _ h

theorem allSome_none_iff {α : Type} (l : List (Option α)) : allSome l = none ↔ none ∈ l := by
  induction l with
  | nil => simp [allSome]
  | cons x l ih =>
    cases x with
    | none => simp [allSome]
    | some a => simp [allSome, ih]

/-- The sum of the values `x j`, all present. -/
theorem nanSum_range (x : Nat → Option K) (f : Nat → K) (l : List Nat) (h : ∀ j ∈ l, x j = some (f j)) :
    nanSum (l.map x) = some (l.map f).sum := by
  rw [← nanSum_some, List.map_map]
  congr 1
  exact List.map_congr_left h

/-! ### Functions of a window: a missing value leaves with the window -/

theorem window_some (xs : List (Option K)) (w i : Nat) (hi : i < xs.length) (hw : w ≤ i + 1)
    (h : ∀ j, i + 1 - w ≤ j → j ≤ i → xs.getD j none ≠ none) : ∃ l : List K, window xs w i = l.map some := by
  cases ha : allSome (window xs w i) with
  | some l => exact ⟨l, (allSome_eq_some _ _).mp ha⟩
  | none =>
    rw [allSome_none_iff, mem_window xs none w i hi hw] at ha
    obtain ⟨j, h1, h2, h3⟩ := ha
    exact absurd h3 (h j h1 h2)

/-- **C127.** Moving average: the average of the window, missing exactly when a value of the window is missing. -/
theorem C127_sma (xs : List (Option K)) (w i : Nat) (hi : i < xs.length) (hw : w ≤ i + 1) :
    (∀ l : List K, window xs w i = l.map some → (smaNan xs w)[i]? = some (some (1 / (w : K) * l.sum))) ∧
    ((∃ j, i + 1 - w ≤ j ∧ j ≤ i ∧ xs.getD j none = none) → (smaNan xs w)[i]? = some none) := by
  unfold smaNan
  rw [rolling_get? _ _ _ _ hi, if_neg (by omega)]
  constructor
  · intro l hl
    rw [hl, nanSum_some]; rfl
  · intro h
    rw [nanSum_none _ ((mem_window xs none w i hi hw none).mpr h)]; rfl

example : let xs : List (Option ℚ) := [some 1, none, some 3, some 5]
    window xs 2 3 = [3, 5].map some ∧ xs.getD 1 none = none ∧ (smaNan xs 2)[3]? = some (some 4) ∧ (smaNan xs 2)[2]? = some none := by
  decide +kernel

/-- **C127.** z-score: the score in the window, missing when a value of the window is missing. -/
theorem C127_zscore (sqrt : K → K) (xs : List (Option K)) (w ddof i : Nat) (hi : i < xs.length) (hw : w ≤ i + 1) (h0 : 0 < w) :
    (∀ l : List K, window xs w i = l.map some → (zscoreNan sqrt xs w ddof)[i]? = some (zscoreWin sqrt ddof l)) ∧
    ((∃ j, i + 1 - w ≤ j ∧ j ≤ i ∧ xs.getD j none = none) → (zscoreNan sqrt xs w ddof)[i]? = some none) := by
  unfold zscoreNan
  rw [rolling_get? _ _ _ _ hi, if_neg (by omega)]
  constructor
  · intro l hl
    have hlen : l.length = w := by
      have := window_length xs w i hi hw
      rw [hl, List.length_map] at this; exact this
    have hne : l ≠ [] := by rintro rfl; simp at hlen; omega
    have hlast : (l.map some).getLastD none = some (l.getLastD 0) := by
      rw [List.getLastD_eq_getLast?, List.getLastD_eq_getLast?, List.getLast?_map, List.getLast?_eq_some_getLast hne]; rfl
    rw [hl]
    unfold zscoreWinNan zscoreWin
    simp only [nanSum_some, Option.map_some, List.length_map, List.map_map]
    have hv : nanSum (l.map ((fun x => (nan2 (· - ·) x (some (l.sum / (l.length : K)))).map (· ^ 2)) ∘ some)) =
        some (l.map (fun x => (x - l.sum / (l.length : K)) ^ 2)).sum := by
      rw [← nanSum_some, List.map_map]; rfl
    rw [hv, hlast]
    simp only [Option.map_some, nanEq_some, nan2_some]
    by_cases hz : sqrt ((l.map (fun x => (x - l.sum / (l.length : K)) ^ 2)).sum / ((l.length : K) - (ddof : K))) = 0
    · simp [hz]
    · simp [hz]
  · intro h
    have hm := (mem_window xs none w i hi hw none).mpr h
    unfold zscoreWinNan
    simp [nanSum_none _ hm]

example : let xs : List (Option ℚ) := [some 1, none, some 3, some 5]
    window xs 2 3 = [3, 5].map some ∧ xs.getD 1 none = none ∧ (zscoreNan id xs 2 0)[3]? = some (some 1) ∧
    (zscoreNan id xs 2 0)[2]? = some none := by decide +kernel

/-- **C127.** Percentage change and rate of change: missing exactly when one of the two prices is missing (or the earlier price is not
positive, for the percentage change). -/
theorem C127_changes (xs : List (Option K)) (p i : Nat) (hi : i < xs.length) (hp : p ≤ i) :
    (∀ a b, xs.getD i none = some a → xs.getD (i - p) none = some b →
      (pctChangeNan xs p)[i]? = some (if b > 0 then some ((a - b) / b) else none) ∧
      (rocNan xs p)[i]? = some (some ((a - b) / b * 100))) ∧
    (xs.getD i none = none ∨ xs.getD (i - p) none = none → (pctChangeNan xs p)[i]? = some none ∧ (rocNan xs p)[i]? = some none) := by
  unfold pctChangeNan rocNan
  simp only [tabulate_get?, if_pos hi]
  rw [if_neg (Nat.not_lt.mpr hp), if_neg (Nat.not_lt.mpr hp)]
  constructor
  · intro a b ha hb
    rw [ha, hb]
    simp
  · intro h
    rcases h with h | h <;> rw [h] <;> simp

example : let xs : List (Option ℚ) := [some 2, some 3, none, some 4]
    xs.getD 1 none = some 3 ∧ xs.getD 0 none = some 2 ∧ pctChangeNan xs 1 = [none, some (1 / 2), none, none] := by decide +kernel

theorem C127_parkinson (log : K → K) (high low : List (Option K)) (i : Nat) (hi : i < high.length) :
    (∀ h l, high.getD i none = some h → low.getD i none = some l →
      (parkinsonNan log high low)[i]? = some (some (log (h / l) ^ 2 / (log 2 * 4)))) ∧
    (high.getD i none = none ∨ low.getD i none = none → (parkinsonNan log high low)[i]? = some none) := by
  unfold parkinsonNan
  rw [tabulate_get?, if_pos hi]
  constructor
  · intro h l h1 h2; rw [h1, h2]; rfl
  · intro h; rcases h with h | h <;> rw [h] <;> simp

example : parkinsonNan (fun x => x) [some (4 : ℚ), none, some 6] [some 2, some 1, some 2] = [some (1 / 2), none, some (9 / 8)] := by
  decide +kernel

/-! ### Functions that accumulate: a missing value stays -/

theorem cumNan_none (v : List (Option K)) (k : Nat) (hk : v.getD k none = none) (n : Nat) (h : k < n) : cumNan v n = none := by
  induction n with
  | zero => omega
  | succ n ih =>
    unfold cumNan
    rcases Nat.lt_or_ge k n with h' | h'
    · rw [ih h', nan2_none_left]
    · obtain rfl : k = n := by omega
      rw [hk, nan2_none_right]

theorem cumNan_some (v : List (Option K)) (l : List K) (n : Nat) (h : ∀ j < n, v.getD j none = some (l.getD j 0)) :
    cumNan v n = some (cumAt (fun i => l.getD i 0) n) := by
  induction n with
  | zero => rfl
  | succ n ih =>
    unfold cumNan cumAt
    rw [ih (fun j hj => h j (by omega)), h n (by omega)]; rfl

/-- **C127.** Flow acceleration: up to the first missing volume it is computed as usual; from a missing volume on it is missing for
ever, also when the window has passed. -/
theorem C127_flow (log : K → K) (eps : K) (v : List (Option K)) (w r i : Nat) (hi : i < v.length) :
    (∀ l : List K, v.length = l.length → (∀ j ≤ i, v.getD j none = some (l.getD j 0)) →
      (flowNan log eps v w r)[i]? = (flowAcceleration log eps l w r)[i]?) ∧
    (∀ k ≤ i, v.getD k none = none → (flowNan log eps v w r)[i]? = some none) := by
  constructor
  · intro l hl h
    unfold flowNan flowAcceleration
    rw [← hl]
    by_cases hc : v.length < w ∨ r ≥ w
    · rw [if_pos hc, if_pos hc]
    · rw [if_neg hc, if_neg hc]
      simp only
      rw [tabulate_get?, tabulate_get?, if_pos hi, if_pos hi]
      by_cases hw : i + 1 < w
      · rw [if_pos hw, if_pos hw]
      · rw [if_neg hw, if_neg hw, cumNan_some v l (i + 1) (fun j hj => h j (by omega)),
          cumNan_some v l (i + 1 - r) (fun j hj => h j (by omega)), cumNan_some v l (i + 1 - w) (fun j hj => h j (by omega))]
        rfl
  · intro k hk hn
    unfold flowNan
    by_cases hc : v.length < w ∨ r ≥ w
    · rw [if_pos hc, tabulate_get?, if_pos hi]
    · rw [if_neg hc]
      simp only
      rw [tabulate_get?, if_pos hi]
      by_cases hw : i + 1 < w
      · rw [if_pos hw]
      · rw [if_neg hw, cumNan_none v k hn (i + 1) (by omega)]; simp

example : let v : List (Option ℚ) := [some 1, some 2, some 3, none]
    (∀ j ≤ 2, v.getD j none = some (([1, 2, 3, 0] : List ℚ).getD j 0)) ∧ v.getD 3 none = none ∧
    (flowNan id (1 / 10) v 2 1)[3]? = some none ∧ (flowNan id (1 / 10) v 2 1)[2]? = (flowAcceleration id (1 / 10) [1, 2, 3, (0 : ℚ)] 2 1)[2]? := by
  decide +kernel

theorem rollSumNan_none (x : Nat → Option K) (np k : Nat) (hk : x k = none) (m : Nat) (h : k < np + m) : rollSumNan x np m = none := by
  induction m with
  | zero =>
    unfold rollSumNan
    apply nanSum_none
    rw [List.mem_map]
    exact ⟨k, List.mem_range.mpr (by omega), hk⟩
  | succ m ih =>
    unfold rollSumNan
    rcases Nat.lt_or_ge k (np + m) with h' | h'
    · rw [ih h', nan2_none_left]
    · obtain rfl : k = np + m := by omega
      rw [hk]; simp

theorem rollSumNan_some (x : Nat → Option K) (f : Nat → K) (np m : Nat) (h : ∀ j < np + m, x j = some (f j)) :
    rollSumNan x np m = some (rollSumState f np m) := by
  induction m with
  | zero =>
    unfold rollSumNan rollSumState
    exact nanSum_range x f _ (fun j hj => h j (by rw [List.mem_range] at hj; omega))
  | succ m ih =>
    unfold rollSumNan rollSumState
    rw [ih (fun j hj => h j (by omega)), h (np + m) (by omega), h m (by omega)]; rfl

/-- **C127.** Bollinger %B: as usual up to the first missing price, missing for ever from it on. -/
theorem C127_bollinger (sqrt : K → K) (close : List (Option K)) (w : Nat) (numStd : K) (i : Nat) (hi : i < close.length) (hw : w ≤ i + 1) :
    (∀ l : List K, close.length = l.length → (∀ j ≤ i, close.getD j none = some (l.getD j 0)) →
      (bollingerNan sqrt close w numStd)[i]? = (bollingerB sqrt l w numStd)[i]?) ∧
    (∀ k ≤ i, close.getD k none = none → (bollingerNan sqrt close w numStd)[i]? = some none) := by
  unfold bollingerNan
  rw [tabulate_get?, if_pos hi, if_neg (by omega)]
  constructor
  · intro l hl h
    unfold bollingerB
    rw [tabulate_get?, ← hl, if_pos hi, if_neg (by omega), h i le_rfl,
      rollSumNan_some (fun k => close.getD k none) (fun k => l.getD k 0) w _ (fun j hj => h j (by omega)),
      rollSumNan_some (fun k => (close.getD k none).map (· ^ 2)) (fun k => l.getD k 0 ^ 2) w _ (fun j hj => by simp only [h j (by omega)]; rfl)]
  · intro k hk hn
    rw [rollSumNan_none (fun k => close.getD k none) w k hn _ (by omega)]
    cases close.getD i none <;> rfl

example : let v : List (Option ℚ) := [some 1, some 2, some 4, none]
    (∀ j ≤ 2, v.getD j none = some (([1, 2, 4, 0] : List ℚ).getD j 0)) ∧ v.getD 3 none = none ∧
    (bollingerNan id v 2 2)[2]? = (bollingerB id [1, 2, 4, (0 : ℚ)] 2 2)[2]? ∧ (bollingerNan id v 2 2)[3]? = some none := by decide +kernel

/-- **C127.** Bollinger %B is missing until the window is full, whatever the data. -/
theorem C127_bollinger_warmup (sqrt : K → K) (close : List (Option K)) (w : Nat) (numStd : K) (i : Nat) (hi : i < close.length)
    (hw : i + 1 < w) : (bollingerNan sqrt close w numStd)[i]? = some none := by
  unfold bollingerNan
  rw [tabulate_get?, if_pos hi, if_pos hw]

example : (bollingerNan id [some (1 : ℚ), some 2, some 4] 3 2)[1]? = some none ∧
    (bollingerNan id [some (1 : ℚ), some 2, some 4] 3 2)[2]? ≠ some none := by decide +kernel

/-! #### VWAP distance -/

theorem vwapOutNan_some (log : K → K) (close volume : List (Option K)) (c v : List K) (np : Nat) (isLog : Bool) (m : Nat) (h0 : 0 < np)
    (h : ∀ j < np + m, close.getD j none = some (c.getD j 0) ∧ volume.getD j none = some (v.getD j 0)) :
    vwapOutNan log close volume np isLog m = vwapOut log c v np isLog m := by
  have e1 : ∀ m' ≤ m, rollSumNan (fun k => nan2 (· * ·) (close.getD k none) (volume.getD k none)) np m' =
      some (rollSumState (fun k => c.getD k 0 * v.getD k 0) np m') := by
    intro m' hm
    exact rollSumNan_some _ _ _ _ (fun j hj => by simp only [(h j (by omega)).1, (h j (by omega)).2]; rfl)
  have e2 : ∀ m' ≤ m, rollSumNan (fun k => volume.getD k none) np m' = some (rollSumState (fun k => v.getD k 0) np m') := by
    intro m' hm
    exact rollSumNan_some _ _ _ _ (fun j hj => (h j (by omega)).2)
  induction m with
  | zero =>
    unfold vwapOutNan vwapOut
    simp only [e1 0 le_rfl, e2 0 le_rfl, nanGt_some, decide_eq_true_eq, (h (np - 1) (by omega)).1, nan2_some, Option.map_some]
  | succ m ih =>
    unfold vwapOutNan vwapOut
    simp only [e1 (m + 1) le_rfl, e2 (m + 1) le_rfl, nanGt_some, decide_eq_true_eq, (h (np + m) (by omega)).1, nan2_some, Option.map_some]
    rw [ih (fun j hj => h j (by omega)) (fun m' hm => e1 m' (by omega)) (fun m' hm => e2 m' (by omega))]

/-- **C127.** Distance from the VWAP: as usual as long as nothing is missing.  A missing volume after the first window freezes the
output at its last value for ever; a missing volume in the first window makes the whole column missing.  A missing price makes the
output missing for ever, as long as the sum of the volumes is positive. -/
theorem C127_vwap (log : K → K) (close volume : List (Option K)) (np : Nat) (isLog : Bool) (i : Nat) (hi : i < close.length) (h0 : 0 < np) :
    (∀ c v : List K, close.length = c.length → (∀ j ≤ i, close.getD j none = some (c.getD j 0) ∧ volume.getD j none = some (v.getD j 0)) →
      (vwapNan log close volume np isLog)[i]? = (vwapDistance log c v np isLog)[i]?) ∧
    (∀ k, np ≤ k → k ≤ i → volume.getD k none = none →
      (vwapNan log close volume np isLog)[i]? = (vwapNan log close volume np isLog)[k - 1]?) ∧
    (∀ k < np, volume.getD k none = none → (vwapNan log close volume np isLog)[i]? = some none) ∧
    (∀ k ≤ i, np ≤ i + 1 → close.getD k none = none →
      nanGt (rollSumNan (fun k => volume.getD k none) np (i + 1 - np)) (some 0) = true →
      (vwapNan log close volume np isLog)[i]? = some none) := by
  have hget : ∀ i, i < close.length → (vwapNan log close volume np isLog)[i]? =
      some (if i + 1 < np then none else vwapOutNan log close volume np isLog (i + 1 - np)) := by
    intro i hi
    unfold vwapNan
    rw [tabulate_get?, if_pos hi]
  refine ⟨?_, ?_, ?_, ?_⟩
  · intro c v hc h
    rw [hget i hi]
    unfold vwapDistance
    rw [tabulate_get?, ← hc, if_pos hi]
    by_cases hw : i + 1 < np
    · rw [if_pos hw, if_pos hw]
    · rw [if_neg hw, if_neg hw, vwapOutNan_some log close volume c v np isLog _ h0 (fun j hj => h j (by omega))]
  · intro k hk hki hn
    rw [hget i hi, hget (k - 1) (by omega), if_neg (by omega), if_neg (by omega)]
    have gen : ∀ d, vwapOutNan log close volume np isLog (k - np + d) =
        vwapOutNan log close volume np isLog (k - np) := by
      intro d
      induction d with
      | zero => rfl
      | succ d ih =>
        rw [← ih, ← Nat.add_assoc]
        conv_lhs => unfold vwapOutNan
        simp only
        rw [rollSumNan_none (fun k => volume.getD k none) np k hn _ (by omega)]
        simp
    have e1 : i + 1 - np = k - np + (i + 1 - k) := by omega
    have e2 : k - 1 + 1 - np = k - np := by omega
    rw [e1, e2, gen]
  · intro k hk hn
    rw [hget i hi]
    by_cases hw : i + 1 < np
    · rw [if_pos hw]
    · rw [if_neg hw]
      have gen : ∀ d, vwapOutNan log close volume np isLog d = none := by
        intro d
        induction d with
        | zero =>
          unfold vwapOutNan
          simp only
          rw [rollSumNan_none (fun k => volume.getD k none) np k hn _ (by omega)]
          simp
        | succ d ih =>
          unfold vwapOutNan
          simp only
          rw [rollSumNan_none (fun k => volume.getD k none) np k hn _ (by omega)]
          simpa using ih
      rw [gen]
  · intro k hki hw hn hv
    rw [hget i hi, if_neg (by omega)]
    have hx : (fun k => nan2 (· * ·) (close.getD k none) (volume.getD k none)) k = none := by simp only [hn, nan2_none_left]
    have hs := rollSumNan_none (fun k => nan2 (· * ·) (close.getD k none) (volume.getD k none)) np k hx (i + 1 - np) (by omega)
    cases hm : i + 1 - np with
    | zero =>
      rw [hm] at hs hv
      unfold vwapOutNan
      simp only [hs, hv]
      simp
    | succ m =>
      rw [hm] at hs hv
      unfold vwapOutNan
      simp only [hs, hv]
      simp

example : let close : List (Option ℚ) := [some 1, some 2, some 4, some 3]
    let volume : List (Option ℚ) := [some 1, some 1, none, some 2]
    (∀ j ≤ 1, close.getD j none = some (([1, 2, 4, 3] : List ℚ).getD j 0) ∧ volume.getD j none = some (([1, 1, 0, 2] : List ℚ).getD j 0)) ∧
    volume.getD 2 none = none ∧ vwapNan id close volume 2 false = [none, some (1 / 3), some (1 / 3), some (1 / 3)] := by decide +kernel

/-! #### RSI -/

theorem wilderNan_some (x0 x : Nat → Option K) (f : Nat → K) (w m : Nat) (h0 : ∀ j, 1 ≤ j → j ≤ w → x0 j = some (f j))
    (h : ∀ j, w < j → j ≤ w + m → x j = some (f j)) : wilderNan x0 x w m = some (wilderAvg f w m) := by
  induction m with
  | zero =>
    unfold wilderNan wilderAvg
    rw [nanSum_range x0 f _ (fun j hj => by rw [List.mem_range'_1] at hj; exact h0 j (by omega) (by omega))]; rfl
  | succ m ih =>
    unfold wilderNan wilderAvg
    rw [ih (fun j h1 h2 => h j h1 (by omega)), h (w + (m + 1)) (by omega) le_rfl]; rfl

theorem diffNan_some (xs : List (Option K)) (l : List K) (i : Nat) (h : xs.getD i none = some (l.getD i 0))
    (h' : xs.getD (i - 1) none = some (l.getD (i - 1) 0)) : diffNan xs i = some (l.getD i 0 - l.getD (i - 1) 0) := by
  unfold diffNan; rw [h, h']; rfl

theorem gainNan_some (xs : List (Option K)) (l : List K) (i : Nat) (h : diffNan xs i = some (l.getD i 0 - l.getD (i - 1) 0)) :
    gainNan xs i = some (gainAt l i) := by
  unfold gainNan gainAt
  rw [h, nanGt_some]
  by_cases hc : 0 < l.getD i 0 - l.getD (i - 1) 0
  · rw [if_pos (decide_eq_true hc), if_pos hc]
  · rw [if_neg (by rw [decide_eq_true_eq]; exact hc), if_neg hc]

theorem lossNan_some (xs : List (Option K)) (l : List K) (i : Nat) (h : diffNan xs i = some (l.getD i 0 - l.getD (i - 1) 0)) :
    lossNan xs i = some (lossAt l i) := by
  unfold lossNan lossAt
  rw [h, nanGt_some]
  by_cases hc : l.getD i 0 - l.getD (i - 1) 0 < 0
  · rw [if_pos (decide_eq_true hc), if_pos hc]; rfl
  · rw [if_neg (by rw [decide_eq_true_eq]; exact hc), if_neg hc]

theorem lossFirstNan_some (xs : List (Option K)) (l : List K) (i : Nat) (h : diffNan xs i = some (l.getD i 0 - l.getD (i - 1) 0)) :
    lossFirstNan xs i = some (lossAt l i) := by
  unfold lossFirstNan lossAt
  rw [h, nanGt_some]
  by_cases hc : 0 < l.getD i 0 - l.getD (i - 1) 0
  · rw [if_pos (decide_eq_true hc), if_neg (by linarith)]
  · rw [if_neg (by rw [decide_eq_true_eq]; exact hc)]
    rcases lt_or_eq_of_le (not_lt.mp hc) with h1 | h1
    · rw [if_pos h1]; rfl
    · rw [h1, if_neg (lt_irrefl _)]; simp

theorem wilderNan_none (x0 x : Nat → Option K) (w j : Nat) (h1 : 1 ≤ j) (h2 : j ≤ w) (h : x0 j = none) (m : Nat) :
    wilderNan x0 x w m = none := by
  induction m with
  | zero =>
    unfold wilderNan
    rw [nanSum_none _ (List.mem_map.mpr ⟨j, by rw [List.mem_range'_1]; omega, h⟩)]; rfl
  | succ m ih => unfold wilderNan; rw [ih, nan2_none_left]

theorem rsiNan_get (xs : List (Option K)) (w i : Nat) (hi : i < xs.length) (hw : w ≤ i) : (rsiNan xs w)[i]? =
    some (rsiValNan (wilderNan (gainNan xs) (gainNan xs) w (i - w)) (wilderNan (lossFirstNan xs) (lossNan xs) w (i - w))) := by
  unfold rsiNan
  rw [tabulate_get?, if_pos hi, if_neg (by omega)]

theorem rsiValNan_some (g : Option K) (l : K) :
    rsiValNan g (some l) = if 0 < l then nan2 (fun g l => 100 - 100 / (1 + g / l)) g (some l) else none := by
  unfold rsiValNan
  by_cases h : 0 < l <;> simp [h]

theorem rsiVal_zero_step (w : Nat) (hw : 2 ≤ w) (g l : Option K) :
    rsiValNan (nan2 (fun a b => (((w : K) - 1) * a + b) / (w : K)) g (some 0)) (nan2 (fun a b => (((w : K) - 1) * a + b) / (w : K)) l (some 0)) =
    rsiValNan g l := by
  have hw' : (2 : K) ≤ (w : K) := by exact_mod_cast hw
  have hc : 0 < ((w : K) - 1) / (w : K) := div_pos (by linarith) (by linarith)
  cases l with
  | none => unfold rsiValNan; simp
  | some l =>
    have e : ∀ a : K, (((w : K) - 1) * a + 0) / (w : K) = ((w : K) - 1) / (w : K) * a := by intro a; ring
    simp only [nan2_some, rsiValNan_some, e, mul_pos_iff_of_pos_left hc]
    by_cases hl : 0 < l
    · rw [if_pos hl, if_pos hl]
      cases g with
      | none => simp
      | some g =>
        simp only [nan2_some, e]
        rw [mul_div_mul_left _ _ hc.ne']
    · rw [if_neg hl, if_neg hl]

/-- **C127.** RSI: as usual up to the first missing price.  A missing price among the first `w + 1` makes the whole column
missing.  A missing price after them is never seen in the output: the RSI of the position before it is repeated at it and at the
position after it (as if the price had not moved), and the move across the gap is lost. -/
theorem C127_rsi (xs : List (Option K)) (w : Nat) :
    (∀ (l : List K) (i : Nat), xs.length = l.length → i < l.length → (∀ j ≤ i, xs.getD j none = some (l.getD j 0)) →
      (rsiNan xs w)[i]? = (rsiWilder l w)[i]?) ∧
    (∀ k ≤ w, 1 ≤ w → xs.getD k none = none → ∀ i < xs.length, (rsiNan xs w)[i]? = some none) ∧
    (∀ k, 2 ≤ w → w < k → k < xs.length → xs.getD k none = none →
      (rsiNan xs w)[k]? = (rsiNan xs w)[k - 1]? ∧
      (k + 1 < xs.length → (rsiNan xs w)[k + 1]? = (rsiNan xs w)[k - 1]?)) := by
  refine ⟨?_, ?_, ?_⟩
  · intro l i hl hi h
    have hd : ∀ j ≤ i, diffNan xs j = some (l.getD j 0 - l.getD (j - 1) 0) := fun j hj =>
      diffNan_some xs l j (h j hj) (h (j - 1) (by omega))
    unfold rsiNan rsiWilder
    rw [tabulate_get?, tabulate_get?, hl, if_pos hi, if_pos hi]
    by_cases hw : i < w
    · rw [if_pos hw, if_pos hw]
    · rw [if_neg hw, if_neg hw,
        wilderNan_some (gainNan xs) (gainNan xs) (gainAt l) w _ (fun j _ h2 => gainNan_some xs l j (hd j (by omega)))
          (fun j _ h2 => gainNan_some xs l j (hd j (by omega))),
        wilderNan_some (lossFirstNan xs) (lossNan xs) (lossAt l) w _ (fun j _ h2 => lossFirstNan_some xs l j (hd j (by omega)))
          (fun j _ h2 => lossNan_some xs l j (hd j (by omega)))]
      unfold rsiValNan rsiVal
      simp only [nanGt_some, nan2_some, decide_eq_true_eq, gt_iff_lt]
  · intro k hk h1 hn i hi
    unfold rsiNan
    rw [tabulate_get?, if_pos hi]
    by_cases hw : i < w
    · rw [if_pos hw]
    · rw [if_neg hw]
      have hx : ∃ j, 1 ≤ j ∧ j ≤ w ∧ lossFirstNan xs j = none := by
        rcases Nat.eq_zero_or_pos k with rfl | hk0
        · refine ⟨1, le_rfl, h1, ?_⟩
          unfold lossFirstNan diffNan
          rw [hn]; simp
        · refine ⟨k, hk0, hk, ?_⟩
          unfold lossFirstNan diffNan
          rw [hn]; simp
      obtain ⟨j, j1, j2, hj⟩ := hx
      rw [wilderNan_none _ _ w j j1 j2 hj]
      unfold rsiValNan
      simp
  · intro k h2 hk hkl hn
    have key : ∀ p, w ≤ p → p + 1 < xs.length → diffNan xs (p + 1) = none → (rsiNan xs w)[p + 1]? = (rsiNan xs w)[p]? := by
      intro p hp hpl hd
      rw [rsiNan_get xs w (p + 1) hpl (by omega), rsiNan_get xs w p (by omega) hp]
      have e : p + 1 - w = (p - w) + 1 := by omega
      have e' : w + (p - w + 1) = p + 1 := by omega
      have hg : gainNan xs (p + 1) = some 0 := by unfold gainNan; rw [hd]; simp
      have hl : lossNan xs (p + 1) = some 0 := by unfold lossNan; rw [hd]; simp
      rw [e]
      conv_lhs => unfold wilderNan
      rw [e', hg, hl, rsiVal_zero_step w h2]
    have a1 : (rsiNan xs w)[k]? = (rsiNan xs w)[k - 1]? := by
      obtain ⟨p, rfl⟩ : ∃ p, k = p + 1 := ⟨k - 1, by omega⟩
      exact key p (by omega) hkl (by unfold diffNan; rw [hn, nan2_none_left])
    refine ⟨a1, fun hk1 => ?_⟩
    rw [← a1]
    exact key k (by omega) hk1 (by unfold diffNan; simp only [Nat.add_sub_cancel]; rw [hn, nan2_none_right])

/-! #### Stochastic oscillator -/

theorem window_getD_some (xs : List (Option K)) (l : List K) (w i : Nat) (hx : i < xs.length) (hl : i < l.length) (hw : w ≤ i + 1)
    (h : ∀ j ≤ i, xs.getD j none = some (l.getD j 0)) : window xs w i = (window l w i).map some := by
  rw [window_eq_map xs none w i hx hw, window_eq_map l 0 w i hl hw, List.map_map]
  apply List.map_congr_left
  intro j hj
  rw [List.mem_range'_1] at hj
  exact h j (by omega)

theorem allSome_map_some {α : Type} (l : List α) : allSome (l.map some) = some l := (allSome_eq_some _ _).mpr rfl

theorem stochStateNan_some (low high : List (Option K)) (l h : List K) (len m : Nat) (h0 : 0 < len)
    (hl : len + m ≤ low.length) (hl' : len + m ≤ l.length) (hh : len + m ≤ high.length) (hh' : len + m ≤ h.length)
    (e1 : ∀ j < len + m, low.getD j none = some (l.getD j 0)) (e2 : ∀ j < len + m, high.getD j none = some (h.getD j 0)) :
    stochStateNan low high len m = (some (stochState l h len m).1, some (stochState l h len m).2) := by
  induction m with
  | zero =>
    unfold stochStateNan stochState
    rw [window_getD_some low l len (len - 1) (by omega) (by omega) (by omega) (fun j hj => e1 j (by omega)),
      window_getD_some high h len (len - 1) (by omega) (by omega) (by omega) (fun j hj => e2 j (by omega)),
      allSome_map_some, allSome_map_some]; rfl
  | succ m ih =>
    have ih' := ih (by omega) (by omega) (by omega) (by omega) (fun j hj => e1 j (by omega)) (fun j hj => e2 j (by omega))
    unfold stochStateNan stochState
    simp only [ih']
    rw [window_getD_some low l len (len + m) (by omega) (by omega) (by omega) (fun j hj => e1 j (by omega)),
      window_getD_some high h len (len + m) (by omega) (by omega) (by omega) (fun j hj => e2 j (by omega)),
      allSome_map_some, allSome_map_some, e1 (len + m - len) (by omega), e2 (len + m - len) (by omega), e1 (len + m) (by omega),
      e2 (len + m) (by omega), nanEq_some, nanEq_some]
    by_cases hc : l.getD (len + m - len) 0 = (stochState l h len m).1 ∨ h.getD (len + m - len) 0 = (stochState l h len m).2
    · rw [if_pos (by simpa using hc), if_pos hc]; rfl
    · rw [if_neg (by simpa using hc), if_neg hc, pyMin_some, pyMax_some]

/-- **C127.** Stochastic oscillator: as usual as long as nothing is missing; if both the lows and the highs of the first window have a
missing value, the whole column is missing. -/
theorem C127_stoch (close low high : List (Option K)) (len : Nat) (h0 : 0 < len) :
    (∀ (c l h : List K) (i : Nat), close.length = c.length → i < c.length → low.length = l.length → i < l.length →
      high.length = h.length → i < h.length →
      (∀ j ≤ i, close.getD j none = some (c.getD j 0) ∧ low.getD j none = some (l.getD j 0) ∧ high.getD j none = some (h.getD j 0)) →
      (stochNan close low high len)[i]? = (stochK c l h len)[i]?) ∧
    (∀ a < len, ∀ b < len, len ≤ low.length → len ≤ high.length → low.getD a none = none → high.getD b none = none →
      ∀ i < close.length, (stochNan close low high len)[i]? = some none) := by
  constructor
  · intro c l h i hc hi hl hil hh hih e
    unfold stochNan stochK
    rw [tabulate_get?, tabulate_get?, hc, if_pos hi, if_pos hi]
    by_cases hw : i + 1 < len
    · rw [if_pos hw, if_pos hw]
    · rw [if_neg hw, if_neg hw, stochStateNan_some low high l h len _ h0 (by omega) (by omega) (by omega) (by omega)
        (fun j hj => (e j (by omega)).2.1) (fun j hj => (e j (by omega)).2.2), (e i le_rfl).1]
      unfold stochValNan stochVal
      simp only [nanGt_some, nan2_some, Option.map_some, decide_eq_true_eq, gt_iff_lt]
  · intro a ha b hb hl hh na nb i hi
    have wl : allSome (window low len (len - 1)) = none := by
      rw [allSome_none_iff, mem_window low none len (len - 1) (by omega) (by omega)]
      exact ⟨a, by omega, by omega, na⟩
    have wh : allSome (window high len (len - 1)) = none := by
      rw [allSome_none_iff, mem_window high none len (len - 1) (by omega) (by omega)]
      exact ⟨b, by omega, by omega, nb⟩
    have st : ∀ m, stochStateNan low high len m = (none, none) := by
      intro m
      induction m with
      | zero => unfold stochStateNan; rw [wl, wh]; rfl
      | succ m ih => unfold stochStateNan; simp only [ih]; simp
    unfold stochNan
    rw [tabulate_get?, if_pos hi]
    by_cases hw : i + 1 < len
    · rw [if_pos hw]
    · rw [if_neg hw, st]
      unfold stochValNan
      simp

example : stochNan [some (2 : ℚ), some 3, none] [some 1, some 1, some 1] [some 4, some 4, some 5] 2 = [none, some (200 / 3), none] ∧
    stochK [2, 3, (0 : ℚ)] [1, 1, 1] [4, 4, 5] 2 = [none, some (200 / 3), some (-25)] := by decide +kernel

/-- **C127.** The stochastic oscillator is not a function of its window once a low is missing: the last three rows of these two inputs
are the same, one of them missing its low, and the result is a number in one case and missing in the other. -/
theorem C127_stoch_not_window :
    let close : List (Option ℚ) := [some 2, some 2, some 2, some 2]
    let high : List (Option ℚ) := [some 3, some 4, some 4, some 4]
    (stochNan close [some 2, some 1, some 1, none] high 3)[3]? = some (some (100 / 3)) ∧
    (stochNan close [some 0, some 1, some 1, none] high 3)[3]? = some none := by
  intro close high
  exact ⟨by decide +kernel, by decide +kernel⟩

/-! #### ADX -/

theorem trNan_some (high low close : List (Option K)) (h l c : List K) (i : Nat) (e1 : high.getD i none = some (h.getD i 0))
    (e2 : low.getD i none = some (l.getD i 0)) (e3 : close.getD (i - 1) none = some (c.getD (i - 1) 0)) :
    trNan high low close i = some (trAt h l c i) := by
  unfold trNan trAt
  rw [e1, e2, e3]
  simp only [nan2_some, Option.map_some, pyMax_some]

/-- A missing close is ignored: the true range is then the range of the bar. -/
theorem C127_tr_close (high low close : List (Option K)) (i : Nat) (h : close.getD (i - 1) none = none) :
    trNan high low close i = nan2 (· - ·) (high.getD i none) (low.getD i none) := by
  unfold trNan
  rw [h]
  simp

theorem trNan_none (high low close : List (Option K)) (i : Nat) (h : high.getD i none = none ∨ low.getD i none = none) :
    trNan high low close i = none := by
  unfold trNan
  rcases h with h | h <;> rw [h] <;> simp

theorem dm_some (high low : List (Option K)) (h l : List K) (i : Nat) (e1 : high.getD i none = some (h.getD i 0))
    (e2 : low.getD i none = some (l.getD i 0)) (e3 : high.getD (i - 1) none = some (h.getD (i - 1) 0))
    (e4 : low.getD (i - 1) none = some (l.getD (i - 1) 0)) :
    plusDmNan high low i = some (plusDm h l i) ∧ minusDmNan high low i = some (minusDm h l i) := by
  unfold plusDmNan plusDm minusDmNan minusDm
  rw [e1, e2, e3, e4]
  simp only [nan2_some, nanGt_some, Bool.and_eq_true, decide_eq_true_eq, gt_iff_lt]
  constructor
  · split_ifs <;> rfl
  · split_ifs <;> rfl

/-- The directional movements are never missing. -/
theorem dm_number (high low : List (Option K)) (i : Nat) : plusDmNan high low i ≠ none ∧ minusDmNan high low i ≠ none := by
  unfold plusDmNan minusDmNan
  simp only
  cases nan2 (· - ·) (high.getD i none) (high.getD (i - 1) none) with
  | none =>
    cases nan2 (· - ·) (low.getD (i - 1) none) (low.getD i none) <;> simp
  | some a =>
    cases nan2 (· - ·) (low.getD (i - 1) none) (low.getD i none) with
    | none => simp
    | some b =>
      simp only [nanGt_some, Bool.and_eq_true, decide_eq_true_eq]
      constructor <;> split_ifs <;> simp

theorem wilderSumNan_some (x : Nat → Option K) (f : Nat → K) (len m : Nat) (h : ∀ j, 1 ≤ j → j ≤ len + m → x j = some (f j)) :
    wilderSumNan x len m = some (wilderSum f len m) := by
  induction m with
  | zero =>
    unfold wilderSumNan wilderSum
    exact nanSum_range x f _ (fun j hj => by rw [List.mem_range'_1] at hj; exact h j (by omega) (by omega))
  | succ m ih =>
    unfold wilderSumNan wilderSum
    rw [ih (fun j h1 h2 => h j h1 (by omega)), h (len + (m + 1)) (by omega) le_rfl]; rfl

theorem wilderSumNan_none (x : Nat → Option K) (len k : Nat) (h1 : 1 ≤ k) (hk : x k = none) (m : Nat) (h : k ≤ len + m) :
    wilderSumNan x len m = none := by
  induction m with
  | zero =>
    unfold wilderSumNan
    exact nanSum_none _ (List.mem_map.mpr ⟨k, by rw [List.mem_range'_1]; omega, hk⟩)
  | succ m ih =>
    unfold wilderSumNan
    rcases Nat.lt_or_ge (len + m) k with h' | h'
    · obtain rfl : k = len + (m + 1) := by omega
      rw [hk, nan2_none_right]
    · rw [ih h']; simp

theorem wilderSumNan_number (x : Nat → Option K) (hx : ∀ i, x i ≠ none) (len m : Nat) : wilderSumNan x len m ≠ none := by
  have hf : ∃ f : Nat → K, ∀ i, x i = some (f i) := by
    have h := fun i => Option.ne_none_iff_exists'.mp (hx i)
    exact ⟨fun i => (h i).choose, fun i => (h i).choose_spec⟩
  obtain ⟨f, hf⟩ := hf
  rw [wilderSumNan_some x f len m (fun j _ _ => hf j)]
  simp

theorem diNan_some (tr dm : Nat → Option K) (t d : Nat → K) (len m : Nat) (h1 : wilderSumNan tr len m = some (wilderSum t len m))
    (h2 : wilderSumNan dm len m = some (wilderSum d len m)) : diNan tr dm len m = some (diAt t d len m) := by
  unfold diNan diAt
  rw [h1, h2]
  simp only [nanGt_some, decide_eq_true_eq, nan2_some, Option.map_some, gt_iff_lt]
  split_ifs <;> rfl

theorem diNan_number (tr dm : Nat → Option K) (hd : ∀ i, dm i ≠ none) (len m : Nat) : diNan tr dm len m ≠ none := by
  unfold diNan
  cases ht : wilderSumNan tr len m with
  | none => simp
  | some t =>
    cases hm : wilderSumNan dm len m with
    | none => exact absurd hm (wilderSumNan_number dm hd len m)
    | some d => simp only [nan2_some, Option.map_some]; split_ifs <;> simp

theorem dxValNan_some (p m : K) : dxValNan (some p) (some m) = some (dxVal p m) := by
  unfold dxValNan dxVal
  simp only [nan2_some, nanGt_some, decide_eq_true_eq, Option.map_some, gt_iff_lt]
  split_ifs <;> rfl

theorem dxNan_number (high low close : List (Option K)) (len i : Nat) : dxNan high low close len i ≠ none := by
  unfold dxNan
  by_cases h : i < len
  · rw [if_pos h]; simp
  · rw [if_neg h]
    obtain ⟨p, hp⟩ := Option.ne_none_iff_exists'.mp (diNan_number (trNan high low close) (plusDmNan high low)
      (fun i => (dm_number high low i).1) len (i - len))
    obtain ⟨m, hm⟩ := Option.ne_none_iff_exists'.mp (diNan_number (trNan high low close) (minusDmNan high low)
      (fun i => (dm_number high low i).2) len (i - len))
    rw [hp, hm, dxValNan_some]; simp

theorem dxNan_zero (high low close : List (Option K)) (len k i : Nat) (h1 : 1 ≤ k) (hk : k ≤ i)
    (h : high.getD k none = none ∨ low.getD k none = none) : dxNan high low close len i = some 0 := by
  unfold dxNan
  by_cases hi : i < len
  · rw [if_pos hi]
  · rw [if_neg hi]
    have hs := wilderSumNan_none (trNan high low close) len k h1 (trNan_none high low close k h) (i - len) (by omega)
    have e : ∀ dm, diNan (trNan high low close) dm len (i - len) = some 0 := by intro dm; unfold diNan; rw [hs]; simp
    rw [e, e, dxValNan_some]
    unfold dxVal
    simp

theorem adxStateNan_some (dx : Nat → Option K) (f : Nat → K) (len m : Nat) (h : ∀ j, len ≤ j → j < 2 * len + m → dx j = some (f j)) :
    adxStateNan dx len m = some (adxState f len m) := by
  induction m with
  | zero =>
    unfold adxStateNan adxState
    rw [nanSum_range dx f _ (fun j hj => by rw [List.mem_range'_1] at hj; exact h j (by omega) (by omega))]; rfl
  | succ m ih =>
    unfold adxStateNan adxState
    rw [ih (fun j h1 h2 => h j h1 (by omega)), h (2 * len + m) (by omega) (by omega)]; rfl

/-- **C127.** ADX: as usual as long as nothing is missing; never missing; a missing high or low after the first bar sets every
directional index from then on to 0, so that the ADX decays by the factor `(len - 1) / len` at every later bar and is 0 throughout
when the missing value is among the first `len` bars after the first. -/
theorem C127_adx (high low close : List (Option K)) (len : Nat) (h0 : 0 < len) :
    (∀ (h l c : List K) (i : Nat), high.length = h.length → i < h.length →
      (∀ j ≤ i, high.getD j none = some (h.getD j 0) ∧ low.getD j none = some (l.getD j 0) ∧ close.getD j none = some (c.getD j 0)) →
      (adxNan high low close len)[i]? = ((adxCore h l c len)[i]?).map some) ∧
    (∀ i < high.length, ∃ a : K, (adxNan high low close len)[i]? = some (some a)) ∧
    (∀ k, 1 ≤ k → (high.getD k none = none ∨ low.getD k none = none) → ∀ i, k ≤ i → 2 * len ≤ i → i < high.length →
      ∀ a, (adxNan high low close len)[i - 1]? = some (some a) →
        (adxNan high low close len)[i]? = some (some (a * ((len : K) - 1) / (len : K)))) ∧
    (∀ k, 1 ≤ k → k ≤ len → (high.getD k none = none ∨ low.getD k none = none) → ∀ i < high.length,
      (adxNan high low close len)[i]? = some (some 0)) := by
  have hget : ∀ i < high.length, (adxNan high low close len)[i]? =
      some (if i + 1 < 2 * len then some 0 else adxStateNan (dxNan high low close len) len (i + 1 - 2 * len)) := by
    intro i hi
    unfold adxNan
    rw [tabulate_get?, if_pos hi]
  refine ⟨?_, ?_, ?_, ?_⟩
  · intro h l c i hh hi e
    rw [hget i (by omega)]
    unfold adxCore
    rw [tabulate_get?, if_pos hi, Option.map_some]
    by_cases hw : i + 1 < 2 * len
    · rw [if_pos hw, if_pos hw]
    · rw [if_neg hw, if_neg hw, adxStateNan_some _ (dxAt h l c len) len]
      intro j hj1 hj2
      unfold dxNan dxAt
      rw [if_neg (by omega), if_neg (by omega)]
      have ht : wilderSumNan (trNan high low close) len (j - len) = some (wilderSum (trAt h l c) len (j - len)) :=
        wilderSumNan_some _ _ _ _ (fun q q1 q2 => trNan_some high low close h l c q (e q (by omega)).1 (e q (by omega)).2.1
          (e (q - 1) (by omega)).2.2)
      have hdm : ∀ q, 1 ≤ q → q ≤ len + (j - len) → plusDmNan high low q = some (plusDm h l q) ∧ minusDmNan high low q = some (minusDm h l q) :=
        fun q q1 q2 => dm_some high low h l q (e q (by omega)).1 (e q (by omega)).2.1 (e (q - 1) (by omega)).1 (e (q - 1) (by omega)).2.1
      rw [diNan_some _ _ (trAt h l c) (plusDm h l) _ _ ht (wilderSumNan_some _ _ _ _ (fun q q1 q2 => (hdm q q1 q2).1)),
        diNan_some _ _ (trAt h l c) (minusDm h l) _ _ ht (wilderSumNan_some _ _ _ _ (fun q q1 q2 => (hdm q q1 q2).2)), dxValNan_some]
  · intro i hi
    rw [hget i hi]
    by_cases hw : i + 1 < 2 * len
    · rw [if_pos hw]; exact ⟨0, rfl⟩
    · rw [if_neg hw]
      have hd := fun i => Option.ne_none_iff_exists'.mp (dxNan_number high low close len i)
      rw [adxStateNan_some _ (fun i => (hd i).choose) len _ (fun j _ _ => (hd j).choose_spec)]
      exact ⟨_, rfl⟩
  · intro k hk1 hn i hki hi2 hi a ha
    rw [hget (i - 1) (by omega), if_neg (by omega)] at ha
    rw [hget i hi, if_neg (by omega)]
    have e1 : i + 1 - 2 * len = (i - 1 + 1 - 2 * len) + 1 := by omega
    have e2 : 2 * len + (i - 1 + 1 - 2 * len) = i := by omega
    rw [e1]
    conv_lhs => unfold adxStateNan
    rw [Option.some.inj ha, e2, dxNan_zero high low close len k i hk1 hki hn]
    simp
  · intro k hk1 hkl hn i hi
    rw [hget i hi]
    by_cases hw : i + 1 < 2 * len
    · rw [if_pos hw]
    · rw [if_neg hw]
      have : ∀ m, adxStateNan (dxNan high low close len) len m = some 0 := by
        intro m
        induction m with
        | zero =>
          unfold adxStateNan
          rw [nanSum_range _ (fun _ => (0 : K)) _ (fun j hj => by
            rw [List.mem_range'_1] at hj; exact dxNan_zero high low close len k j hk1 (by omega) hn)]
          simp
        | succ m ih =>
          unfold adxStateNan
          rw [ih, dxNan_zero high low close len k (2 * len + m) hk1 (by omega) hn]
          simp
      rw [this]

example : adxNan [some (3 : ℚ), some 4, some 5, some 7, some 6] [some 1, some 2, some 3, some 4, some 4] [some 2, some 3, some 4, some 6, some 5] 2 =
    (adxCore ([3, 4, 5, 7, 6] : List ℚ) [1, 2, 3, 4, 4] [2, 3, 4, 6, 5] 2).map some := by decide +kernel

/-! #### Structural breaks -/

/-- **C127.** The structural-break statistic: as usual as long as nothing is missing; if any price up to `t` is missing it keeps its
initial value (`-1e-6` with critical value 0), a number which is read as "no break". -/
theorem C127_cusum (lg sq : K → K) (y : List (Option K)) (t : Nat) (ht : 1 ≤ t) :
    (∀ l : List K, (∀ j ≤ t, y.getD j none = some (l.getD j 0)) → sntAtNan lg sq y t = sntAt lg sq l t) ∧
    (∀ k ≤ t, y.getD k none = none → sntAtNan lg sq y t = ⟨-(1 / 1000000), -(1 / 1000000), 0, 0⟩) := by
  constructor
  · intro l h
    unfold sntAtNan sntAt
    have hs : nanSum ((List.range (t - 1 + 1)).map (fun j => (nan2 (· - ·) (y.getD (j + 1) none) (y.getD j none)).map (· ^ 2))) =
        some (cumSqDiff l (t - 1)) := by
      unfold cumSqDiff
      apply nanSum_range _ (fun j => (l.getD (j + 1) 0 - l.getD j 0) ^ 2)
      intro j hj
      rw [List.mem_range] at hj
      rw [h (j + 1) (by omega), h j (by omega)]; rfl
    rw [hs, Option.map_some]
    unfold compMaxSntNan compMaxSnt
    simp only [nanLe_some, decide_eq_true_eq]
    by_cases hc : t < 1 ∨ sq (cumSqDiff l (t - 1) / ((t - 1 : Nat) : K)) ≤ 0
    · rw [if_pos hc, if_pos hc]
    · rw [if_neg hc, if_neg hc]
      apply List.foldl_ext
      intro s n hn
      rw [List.mem_map] at hn
      obtain ⟨n', hn', rfl⟩ := hn
      rw [List.mem_range] at hn'
      unfold sntStepNan sntStep
      rw [h t le_rfl, h (n' + 1) (by omega)]
      simp only [nan2_some, Option.map_some, nanLe_some, decide_eq_true_eq, pyMax_some, pyMin_some]
  · intro k hk hn
    unfold sntAtNan
    have hs : nanSum ((List.range (t - 1 + 1)).map (fun j => (nan2 (· - ·) (y.getD (j + 1) none) (y.getD j none)).map (· ^ 2))) = none := by
      apply nanSum_none
      rw [List.mem_map]
      rcases Nat.lt_or_ge k t with h' | h'
      · exact ⟨k, List.mem_range.mpr (by omega), by rw [hn]; simp⟩
      · obtain rfl : k = t := by omega
        exact ⟨k - 1, List.mem_range.mpr (by omega), by rw [show k - 1 + 1 = k by omega, hn]; simp⟩
    rw [hs]
    unfold compMaxSntNan
    rw [if_neg (by simp; omega)]
    have hstep : ∀ n, sntStepNan lg sq y t none (sntInit : Snt K) n = sntInit := by
      intro n
      unfold sntStepNan
      simp
    have : ∀ ns : List Nat, ns.foldl (sntStepNan lg sq y t none) sntInit = (sntInit : Snt K) := by
      intro ns
      induction ns with
      | nil => rfl
      | cons n ns ih => rw [List.foldl_cons, hstep]; exact ih
    rw [Option.map_none, this]
    rfl

/-! ### Examples -/

/-- A missing value leaves the moving average with the window, and stays in Bollinger %B and the flow acceleration for ever. -/
example : smaNan [some (1 : ℚ), none, some 3, some 5] 2 = [none, none, none, some 4] ∧
    zscoreNan id [some (1 : ℚ), none, some 3, some 5] 2 0 = [none, none, none, some 1] ∧
    bollingerNan id [some (1 : ℚ), none, some 3, some 5, some 4] 2 2 = [none, none, none, none, none] ∧
    bollingerNan id [some (1 : ℚ), some 2, some 3, some 5, some 4] 2 2 ≠ [none, none, none, none, none] ∧
    flowNan id (1 : ℚ) [some 1, none, some 3, some 5, some 4] 2 1 = [none, none, none, none, none] := by decide +kernel
example : pctChangeNan [some (1 : ℚ), none, some 3, some 6] 1 = [none, none, none, some 1] ∧
    rocNan [some (1 : ℚ), none, some 3, some 6] 1 = [none, none, none, some 100] ∧
    parkinsonNan id [some (4 : ℚ), none] [some 2, some 1] = [some (1 / 2), none] := by decide +kernel
/-- Missing volume at the last but one row: the distance is frozen.  Missing price: missing for ever. -/
example : vwapNan id [some (1 : ℚ), some 2, some 4, some 8] [some 1, some 1, none, some 1] 2 false = [none, some (1 / 3), some (1 / 3), some (1 / 3)] ∧
    vwapNan id [some (1 : ℚ), some 2, some 4, some 8] [some 1, none, some 1, some 1] 2 false = [none, none, none, none] ∧
    vwapNan id [some (1 : ℚ), none, some 4, some 8, some 2] [some 1, some 1, some 1, some 1, some 1] 2 false = [none, none, none, none, none] := by
  decide +kernel
/-- A missing first price wipes out the RSI; a later one is not seen. -/
example : rsiNan [none, some (2 : ℚ), some 1, some 3, some 2] 2 = [none, none, none, none, none] ∧
    rsiNan [some (1 : ℚ), some 2, some 1, none, some 3, some 2] 2 = [none, none, some 50, some 50, some 50, some 10] := by
  decide +kernel
example : stochNan [some (1 : ℚ), some 2, some 3, some 3] [none, some 1, some 1, some 1] [none, some 4, some 4, some 4] 2 = [none, none, none, none] := by
  decide +kernel
/-- One missing high: the index falls from 100 to 0 by halves although the trend goes on. -/
example : adxNan [some (2 : ℚ), some 3, some 4, some 5, none, some 7, some 8] [some 1, some 2, some 3, some 4, some 5, some 6, some 7]
    [some 1, some 2, some 3, some 4, some 5, some 6, some 7] 2 = [some 0, some 0, some 0, some 100, some 50, some 25, some (25 / 2)] ∧
    adxNan [some (2 : ℚ), none, some 4, some 5] [some 1, some 2, some 3, some 4] [some 1, some 2, some 3, some 4] 2 =
      [some 0, some 0, some 0, some 0] := by decide +kernel
/-- A large move after a missing price is reported as "no break". -/
example : sntAtNan id id [some (0 : ℚ), none, some 1, some 5, some 50] 4 = ⟨-(1 / 1000000), -(1 / 1000000), 0, 0⟩ ∧
    (sntAtNan id id [some (0 : ℚ), some 0, some 1, some 5, some 50] 4).up ≠ -(1 / 1000000) := by decide +kernel

end FinML
