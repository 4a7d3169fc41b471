/-
C108 (indicators on mirrored prices): every price `p` replaced by `c - p`, `finmlkit/feature/core/*.py`.
-/
import Verif.Props.Units
import Verif.Model.CusumTest
import Verif.Model.DayFeatures
import Mathlib.Algebra.Order.Group.MinMax
import Mathlib.Data.List.GetD

set_option linter.unusedSectionVars false

namespace FinML

variable {K : Type} [Field K] [LinearOrder K] [IsStrictOrderedRing K]

/-! ## Specification -/

/-- The price series reflected at the level `c / 2`. -/
def mir (c : K) (xs : List K) : List K := xs.map (fun x => c - x)

/-! ## Lemmas -/

theorem mir_length (c : K) (xs : List K) : (mir c xs).length = xs.length := by simp [mir]

theorem mir_getD (c : K) (xs : List K) {i : Nat} (hi : i < xs.length) : (mir c xs).getD i 0 = c - xs.getD i 0 := by
  rw [List.getD_eq_getElem _ _ (by rw [mir_length]; exact hi), List.getD_eq_getElem _ _ hi]
  simp [mir]

theorem window_mir (c : K) (xs : List K) (w i : Nat) : window (mir c xs) w i = mir c (window xs w i) := by
  simp [window, mir]

theorem mir_sum (c : K) (xs : List K) : (mir c xs).sum = (xs.length : K) * c - xs.sum := by
  induction xs with
  | nil => simp [mir]
  | cons x xs ih =>
    rw [show mir c (x :: xs) = (c - x) :: mir c xs from rfl, List.sum_cons, List.sum_cons, ih, List.length_cons]
    push_cast
    ring

theorem mir_getLastD (c : K) (xs : List K) (h : xs ≠ []) : (mir c xs).getLastD 0 = c - xs.getLastD 0 := by
  rw [List.getLastD_eq_getLast?, List.getLastD_eq_getLast?, mir, List.getLast?_map, List.getLast?_eq_some_getLast h]
  rfl

theorem npMin_mir (c : K) (l : List K) (h : l ≠ []) : npMin (mir c l) = c - npMax l := by
  cases l with
  | nil => exact absurd rfl h
  | cons x l =>
    unfold npMin npMax
    simp only [mir, List.map_cons, List.tail_cons, List.headD_cons]
    clear h
    induction l generalizing x with
    | nil => rfl
    | cons y l ih =>
      rw [List.map_cons, List.foldl_cons, List.foldl_cons, min_sub_sub_left, ih]

theorem npMax_mir (c : K) (l : List K) (h : l ≠ []) : npMax (mir c l) = c - npMin l := by
  cases l with
  | nil => exact absurd rfl h
  | cons x l =>
    unfold npMin npMax
    simp only [mir, List.map_cons, List.tail_cons, List.headD_cons]
    clear h
    induction l generalizing x with
    | nil => rfl
    | cons y l ih =>
      rw [List.map_cons, List.foldl_cons, List.foldl_cons, max_sub_sub_left, ih]

theorem tabulate_congr_lt {β : Type} {n m : Nat} {f g : Nat → β} (hn : n = m) (h : ∀ i, i < m → f i = g i) :
    tabulate n f = tabulate m g := by
  subst hn
  unfold tabulate
  apply List.map_congr_left
  intro i hi
  exact h i (List.mem_range.mp hi)

theorem wilderAvg_congr_le (f g : Nat → K) (w m : Nat) (h : ∀ i, 1 ≤ i → i ≤ w + m → f i = g i) :
    wilderAvg f w m = wilderAvg g w m := by
  induction m with
  | zero =>
    unfold wilderAvg
    congr 2
    apply List.map_congr_left
    intro i hi
    rw [List.mem_range'_1] at hi
    exact h i (by omega) (by omega)
  | succ m ih =>
    unfold wilderAvg
    rw [ih (fun i h1 h2 => h i h1 (by omega)), h _ (by omega) (by omega)]

theorem wilderSum_congr_le (f g : Nat → K) (w m : Nat) (h : ∀ i, 1 ≤ i → i ≤ w + m → f i = g i) :
    wilderSum f w m = wilderSum g w m := by
  induction m with
  | zero =>
    unfold wilderSum
    congr 1
    apply List.map_congr_left
    intro i hi
    rw [List.mem_range'_1] at hi
    exact h i (by omega) (by omega)
  | succ m ih =>
    unfold wilderSum
    rw [ih (fun i h1 h2 => h i h1 (by omega)), h _ (by omega) (by omega)]

/-! ## RSI -/

theorem gainAt_mir (c : K) (xs : List K) {i : Nat} (h : i < xs.length) : gainAt (mir c xs) i = lossAt xs i := by
  unfold gainAt lossAt
  rw [mir_getD c xs h, mir_getD c xs (i := i - 1) (by omega)]
  have : c - xs.getD i 0 - (c - xs.getD (i - 1) 0) = -(xs.getD i 0 - xs.getD (i - 1) 0) := by ring
  rw [this]
  simp only [gt_iff_lt, neg_pos]

theorem lossAt_mir (c : K) (xs : List K) {i : Nat} (h : i < xs.length) : lossAt (mir c xs) i = gainAt xs i := by
  unfold gainAt lossAt
  rw [mir_getD c xs h, mir_getD c xs (i := i - 1) (by omega)]
  have : c - xs.getD i 0 - (c - xs.getD (i - 1) 0) = -(xs.getD i 0 - xs.getD (i - 1) 0) := by ring
  rw [this]
  simp only [gt_iff_lt, neg_lt_zero, neg_neg]

/-- The RSI values of a series and of its mirror image, from average gain and loss. -/
def RsiMirror (a b : Option K) (g l : K) : Prop :=
  (0 < g ∧ 0 < l → ∃ x, a = some x ∧ b = some (100 - x)) ∧
  (0 < g ∧ l = 0 → a = none ∧ b = some 0) ∧ (g = 0 ∧ 0 < l → a = some 0 ∧ b = none) ∧ (g = 0 ∧ l = 0 → a = none ∧ b = none)

/-- **C108 (RSI).** Where there are both gains and losses, the RSI of the mirrored prices is 100 minus the RSI.  Where one of
them is missing the symmetry fails: only losses give 0, only gains give NaN instead of 100. -/
theorem C108_rsi (c : K) (xs : List K) (w i : Nat) (hw : w ≤ i) (hi : i < xs.length) :
    RsiMirror ((rsiWilder xs w).getD i none) ((rsiWilder (mir c xs) w).getD i none)
      (wilderAvg (gainAt xs) w (i - w)) (wilderAvg (lossAt xs) w (i - w)) := by
  have hget : ∀ (n : Nat) (f : Nat → Option K), i < n → (tabulate n f).getD i none = f i := by
    intro n f h
    rw [List.getD_eq_getElem _ _ (by simpa [tabulate] using h)]
    simp [tabulate]
  unfold rsiWilder
  rw [hget _ _ hi, hget _ _ (by rw [mir_length]; exact hi), if_neg (by omega), if_neg (by omega)]
  rw [wilderAvg_congr_le (gainAt (mir c xs)) (lossAt xs) w (i - w) (fun j h1 h2 => gainAt_mir c xs (by omega)),
    wilderAvg_congr_le (lossAt (mir c xs)) (gainAt xs) w (i - w) (fun j h1 h2 => lossAt_mir c xs (by omega))]
  generalize wilderAvg (gainAt xs) w (i - w) = g
  generalize wilderAvg (lossAt xs) w (i - w) = l
  refine ⟨?_, ?_, ?_, ?_⟩
  · rintro ⟨hg, hl⟩
    refine ⟨100 - 100 / (1 + g / l), by rw [rsiVal, if_pos hl], ?_⟩
    rw [rsiVal, if_pos hg, Option.some.injEq]
    have h1 : l + g ≠ 0 := by positivity
    have h2 : g + l ≠ 0 := by positivity
    have h3 : (1 : K) + g / l = (l + g) / l := by field_simp
    have h4 : (1 : K) + l / g = (g + l) / g := by field_simp
    rw [h3, h4]
    field_simp
    ring
  · rintro ⟨hg, rfl⟩
    refine ⟨by simp [rsiVal], ?_⟩
    rw [rsiVal, if_pos hg]
    simp
  · rintro ⟨rfl, hl⟩
    refine ⟨?_, by simp [rsiVal]⟩
    rw [rsiVal, if_pos hl]
    simp
  · rintro ⟨rfl, rfl⟩
    simp [rsiVal]

example : rsiWilder [10, 12, 11, (14 : ℚ)] 2 = [none, none, some (200 / 3), some (800 / 9)] ∧
    rsiWilder (mir 20 [10, 12, 11, (14 : ℚ)]) 2 = [none, none, some (100 / 3), some (100 / 9)] := by decide +kernel

/-! ## Stochastic %K -/

theorem window_ne_nil (xs : List K) (w i : Nat) (hw : 1 ≤ w) (h : i + 1 - w < xs.length) : window xs w i ≠ [] := by
  unfold window
  intro e
  have := congrArg List.length e
  simp only [List.length_take, List.length_drop, List.length_nil] at this
  omega

theorem stochState_mir (c : K) (low high : List K) (len m : Nat) (hlen : 1 ≤ len) (h1 : len + m ≤ low.length)
    (h2 : len + m ≤ high.length) :
    stochState (mir c high) (mir c low) len m = (c - (stochState low high len m).2, c - (stochState low high len m).1) := by
  induction m with
  | zero =>
    simp only [stochState, window_mir]
    rw [npMin_mir _ _ (window_ne_nil _ _ _ hlen (by omega)), npMax_mir _ _ (window_ne_nil _ _ _ hlen (by omega))]
  | succ m ih =>
    have ih := ih (by omega) (by omega)
    simp only [stochState, ih, window_mir]
    rw [mir_getD c low (by omega), mir_getD c high (by omega), mir_getD c low (by omega), mir_getD c high (by omega)]
    rw [npMin_mir _ _ (window_ne_nil _ _ _ hlen (by omega)), npMax_mir _ _ (window_ne_nil _ _ _ hlen (by omega)),
      min_sub_sub_left, max_sub_sub_left]
    simp only [sub_right_inj]
    by_cases h : low.getD (len + m - len) 0 = (stochState low high len m).1 ∨
        high.getD (len + m - len) 0 = (stochState low high len m).2
    · rw [if_pos h, if_pos h.symm]
    · rw [if_neg h, if_neg (fun h' => h h'.symm)]

/-- **C108 (stochastic oscillator).** On mirrored prices (high and low change places) %K is 100 minus %K. -/
theorem C108_stoch (c : K) (close low high : List K) (len : Nat) (hlen : 1 ≤ len) (h1 : close.length = low.length)
    (h2 : close.length = high.length) :
    stochK (mir c close) (mir c high) (mir c low) len = (stochK close low high len).map (Option.map (fun k => 100 - k)) := by
  unfold stochK
  rw [mir_length]
  unfold tabulate
  rw [List.map_map]
  apply List.map_congr_left
  intro t ht
  rw [List.mem_range] at ht
  simp only [Function.comp]
  by_cases h : t + 1 < len
  · rw [if_pos h, if_pos h]; rfl
  · rw [if_neg h, if_neg h, stochState_mir c low high len _ hlen (by omega) (by omega), mir_getD c close ht]
    generalize stochState low high len (t + 1 - len) = s
    unfold stochVal
    simp only
    have e : c - s.1 > c - s.2 ↔ s.2 > s.1 := by constructor <;> intro h <;> linarith
    by_cases hs : s.2 > s.1
    · rw [if_pos (e.mpr hs), if_pos hs]
      simp only [Option.map_some, Option.some.injEq]
      have h3 : s.2 - s.1 ≠ 0 := by intro h; linarith
      have h4 : c - s.1 - (c - s.2) = s.2 - s.1 := by ring
      rw [h4]
      field_simp
      ring
    · rw [if_neg (mt e.mp hs), if_neg hs]; rfl

example : stochK [5, 6, (4 : ℚ)] [4, 5, 3] [6, 7, 6] 2 = [none, some (200 / 3), some 25] ∧
    stochK (mir 10 [5, 6, (4 : ℚ)]) (mir 10 [6, 7, 6]) (mir 10 [4, 5, 3]) 2 = [none, some (100 / 3), some 75] := by
  decide +kernel

/-! ## ADX -/

theorem dmMir (c : K) (high low : List K) {i : Nat} (h1 : i < high.length) (h2 : i < low.length) :
    plusDm (mir c low) (mir c high) i = minusDm high low i ∧ minusDm (mir c low) (mir c high) i = plusDm high low i := by
  unfold plusDm minusDm
  rw [mir_getD c low h2, mir_getD c low (i := i - 1) (by omega), mir_getD c high h1, mir_getD c high (i := i - 1) (by omega)]
  simp only [sub_sub_sub_cancel_left]
  exact ⟨trivial, trivial⟩

theorem trAt_mir (c : K) (high low close : List K) {i : Nat} (h1 : i < high.length) (h2 : i < low.length)
    (h3 : i < close.length) : trAt (mir c low) (mir c high) (mir c close) i = trAt high low close i := by
  unfold trAt
  rw [mir_getD c low h2, mir_getD c high h1, mir_getD c close (i := i - 1) (by omega)]
  simp only [sub_sub_sub_cancel_left]
  rw [abs_sub_comm (close.getD (i - 1) 0), abs_sub_comm (close.getD (i - 1) 0), max_right_comm]

/-- **C108 (ADX).** The strength of a trend does not depend on its direction: mirrored prices have the same ADX. -/
theorem C108_adx (c : K) (high low close : List K) (len : Nat) (h1 : high.length = low.length) (h2 : high.length = close.length) :
    adxCore (mir c low) (mir c high) (mir c close) len = adxCore high low close len := by
  have hdx : ∀ i, i < high.length → dxAt (mir c low) (mir c high) (mir c close) len i = dxAt high low close len i := by
    intro i hi
    unfold dxAt
    by_cases h : i < len
    · rw [if_pos h, if_pos h]
    · rw [if_neg h, if_neg h]
      have htr : wilderSum (trAt (mir c low) (mir c high) (mir c close)) len (i - len) =
          wilderSum (trAt high low close) len (i - len) :=
        wilderSum_congr_le _ _ _ _ (fun j _ hj => trAt_mir c high low close (by omega) (by omega) (by omega))
      have hp : wilderSum (plusDm (mir c low) (mir c high)) len (i - len) = wilderSum (minusDm high low) len (i - len) :=
        wilderSum_congr_le _ _ _ _ (fun j _ hj => (dmMir c high low (by omega) (by omega)).1)
      have hm : wilderSum (minusDm (mir c low) (mir c high)) len (i - len) = wilderSum (plusDm high low) len (i - len) :=
        wilderSum_congr_le _ _ _ _ (fun j _ hj => (dmMir c high low (by omega) (by omega)).2)
      unfold diAt
      rw [htr, hp, hm]
      unfold dxVal
      rw [add_comm, abs_sub_comm]
  unfold adxCore
  apply tabulate_congr_lt (by rw [mir_length, h1])
  intro i hi
  by_cases h : i + 1 < 2 * len
  · rw [if_pos h, if_pos h]
  · rw [if_neg h, if_neg h]
    have : ∀ m, m + 2 * len ≤ i + 1 → adxState (dxAt (mir c low) (mir c high) (mir c close) len) len m =
        adxState (dxAt high low close len) len m := by
      intro m
      induction m with
      | zero =>
        intro hm
        unfold adxState
        congr 2
        apply List.map_congr_left
        intro j hj
        rw [List.mem_range'_1] at hj
        exact hdx j (by omega)
      | succ m ih =>
        intro hm
        unfold adxState
        rw [ih (by omega), hdx _ (by omega)]
    exact this _ (by omega)

example : adxCore [5, 6, 8, (7 : ℚ)] [4, 5, 6, 5] [5, 5, 7, 6] 1 = adxCore (mir 10 [4, 5, 6, 5]) (mir 10 [5, 6, 8, (7 : ℚ)]) (mir 10 [5, 5, 7, 6]) 1 ∧
    adxCore [5, 6, 8, (7 : ℚ)] [4, 5, 6, 5] [5, 5, 7, 6] 1 ≠ [0, 0, 0, 0] := by decide +kernel

/-! ## Bands and scores -/

/-- **C108 (z-score, %B).** On mirrored prices the z-score changes its sign and Bollinger's %B becomes 1 minus %B. -/
theorem C108_bands (sqrt : K → K) (c : K) (xs : List K) (w ddof : Nat) (numStd : K) (hw : 1 ≤ w) :
    zscore sqrt (mir c xs) w ddof = (zscore sqrt xs w ddof).map (Option.map (fun z => -z)) ∧
    bollingerB sqrt (mir c xs) w numStd = (bollingerB sqrt xs w numStd).map (Option.map (fun b => 1 - b)) := by
  constructor
  · unfold zscore rolling tabulate
    rw [mir_length, List.map_map]
    apply List.map_congr_left
    intro i hi
    rw [List.mem_range] at hi
    simp only [Function.comp]
    by_cases h : i + 1 < w
    · rw [if_pos h, if_pos h]; rfl
    · rw [if_neg h, if_neg h, window_mir]
      have hne := window_ne_nil xs w i hw (by omega)
      generalize window xs w i = l at hne
      have hn : (l.length : K) ≠ 0 := by
        have := List.length_pos_of_ne_nil hne
        exact_mod_cast this.ne'
      unfold zscoreWin
      simp only
      rw [mir_length, mir_sum, mir_getLastD c l hne]
      have hmean : ((l.length : K) * c - l.sum) / (l.length : K) = c - l.sum / (l.length : K) := by field_simp
      have hvar : ((mir c l).map (fun x => (x - (c - l.sum / (l.length : K))) ^ 2)) =
          l.map (fun x => (x - l.sum / (l.length : K)) ^ 2) := by
        rw [mir, List.map_map]
        apply List.map_congr_left
        intro x _
        simp only [Function.comp]
        ring
      rw [hmean, hvar]
      split
      · simp only [Option.map_some, Option.some.injEq]
        rw [← neg_div]
        congr 1
        ring
      · rfl
  · unfold bollingerB tabulate
    rw [mir_length, List.map_map]
    apply List.map_congr_left
    intro i hi
    rw [List.mem_range] at hi
    simp only [Function.comp]
    by_cases h : i + 1 < w
    · rw [if_pos h, if_pos h]; rfl
    · rw [if_neg h, if_neg h, mir_getD c xs hi]
      have hs : ∀ m, w + m ≤ xs.length → rollSumState (fun k => (mir c xs).getD k 0) w m =
          (w : K) * c - rollSumState (fun k => xs.getD k 0) w m := by
        intro m
        induction m with
        | zero =>
          intro hm
          simp only [rollSumState]
          have : ∀ l : List Nat, (∀ k ∈ l, k < xs.length) → (l.map (fun k => (mir c xs).getD k 0)).sum =
              (l.length : K) * c - (l.map (fun k => xs.getD k 0)).sum := by
            intro l
            induction l with
            | nil => intro _; simp
            | cons k l ih =>
              intro hl
              rw [List.map_cons, List.sum_cons, ih (fun k hk => hl k (by simp [hk])), mir_getD c xs (hl k (by simp)),
                List.map_cons, List.sum_cons, List.length_cons]
              push_cast
              ring
          rw [this _ (fun k hk => by rw [List.mem_range] at hk; omega), List.length_range]
        | succ m ih =>
          intro hm
          simp only [rollSumState]
          rw [ih (by omega), mir_getD c xs (by omega), mir_getD c xs (by omega)]
          ring
      have hq : ∀ m, w + m ≤ xs.length → rollSumState (fun k => (mir c xs).getD k 0 ^ 2) w m =
          (w : K) * c ^ 2 - 2 * c * rollSumState (fun k => xs.getD k 0) w m + rollSumState (fun k => xs.getD k 0 ^ 2) w m := by
        intro m
        induction m with
        | zero =>
          intro hm
          simp only [rollSumState]
          have : ∀ l : List Nat, (∀ k ∈ l, k < xs.length) → (l.map (fun k => (mir c xs).getD k 0 ^ 2)).sum =
              (l.length : K) * c ^ 2 - 2 * c * (l.map (fun k => xs.getD k 0)).sum + (l.map (fun k => xs.getD k 0 ^ 2)).sum := by
            intro l
            induction l with
            | nil => intro _; simp
            | cons k l ih =>
              intro hl
              rw [List.map_cons, List.sum_cons, ih (fun k hk => hl k (by simp [hk])), mir_getD c xs (hl k (by simp)),
                List.map_cons, List.sum_cons, List.length_cons, List.map_cons, List.sum_cons]
              push_cast
              ring
          rw [this _ (fun k hk => by rw [List.mem_range] at hk; omega), List.length_range]
        | succ m ih =>
          intro hm
          simp only [rollSumState]
          rw [ih (by omega), mir_getD c xs (by omega), mir_getD c xs (by omega)]
          ring
      rw [hs _ (by omega), hq _ (by omega)]
      generalize rollSumState (fun k => xs.getD k 0) w (i + 1 - w) = s
      generalize rollSumState (fun k => xs.getD k 0 ^ 2) w (i + 1 - w) = q
      have hn : (w : K) ≠ 0 := by exact_mod_cast (by omega : w ≠ 0)
      unfold bollingerVal
      simp only
      have hmean : ((w : K) * c - s) / (w : K) = c - s / (w : K) := by field_simp
      have hvar : (w : K) * c ^ 2 - 2 * c * s + q - (w : K) * (c - s / (w : K)) * (c - s / (w : K)) =
          q - (w : K) * (s / (w : K)) * (s / (w : K)) := by
        field_simp
        ring
      rw [hmean, hvar]
      generalize numStd * sqrt (max ((q - (w : K) * (s / (w : K)) * (s / (w : K))) / ((w : K) - 1)) 0) = e
      generalize s / (w : K) = mu
      by_cases he : mu + e > mu - e
      · rw [if_pos (by linarith), if_pos he]
        simp only [Option.map_some, Option.some.injEq]
        have h3 : mu + e - (mu - e) ≠ 0 := by intro h; linarith
        have h4 : c - mu + e - (c - mu - e) = mu + e - (mu - e) := by ring
        rw [h4, eq_sub_iff_add_eq, ← add_div, div_eq_one_iff_eq h3]
        ring
      · rw [if_neg (by intro h; apply he; linarith), if_neg he]; rfl

example : zscore (fun x : ℚ => x) [1, 3, 8] 2 0 = [none, some 1, some (2 / 5)] ∧
    zscore (fun x : ℚ => x) (mir 10 [1, 3, 8]) 2 0 = [none, some (-1), some (-2 / 5)] ∧
    bollingerB (fun x : ℚ => x) [1, 3, 8] 2 1 = [none, some (3 / 4), some (3 / 5)] ∧
    bollingerB (fun x : ℚ => x) (mir 10 [1, 3, 8]) 2 1 = [none, some (1 / 4), some (2 / 5)] := by decide +kernel

/-- **C108 (candle shape).** On mirrored prices the upper and the lower wick change places and the body stays. -/
theorem C108_candle (eps c op hi lo cl vw vw' : K) :
    (candleShape eps (c - op) (c - lo) (c - hi) (c - cl) vw').wickUp = (candleShape eps op hi lo cl vw).wickDn ∧
    (candleShape eps (c - op) (c - lo) (c - hi) (c - cl) vw').wickDn = (candleShape eps op hi lo cl vw).wickUp ∧
    (candleShape eps (c - op) (c - lo) (c - hi) (c - cl) vw').body = (candleShape eps op hi lo cl vw).body := by
  unfold candleShape
  simp only [max_sub_sub_left, min_sub_sub_left, sub_sub_sub_cancel_left]
  exact ⟨trivial, trivial, by rw [abs_sub_comm]⟩

example : (candleShape (0 : ℚ) 5 8 4 6 5).wickUp = 1 / 2 ∧ (candleShape (0 : ℚ) (10 - 5) (10 - 4) (10 - 8) (10 - 6) 5).wickDn = 1 / 2 := by
  decide +kernel

/-! ## Order flow -/

/-- **C108 (VPIN).** The toxicity of the order flow does not depend on which side dominates. -/
theorem C108_vpin (eps : K) (b s : List (Option K)) (w : Nat) (hlen : b.length = s.length) : vpin eps s b w = vpin eps b s w := by
  have h1 : ∀ f g : K → K → K, (∀ x y, f x y = g y x) → vpinTerm f s b = vpinTerm g b s := by
    intro f g hfg
    funext i
    unfold vpinTerm
    cases b.getD i none <;> cases s.getD i none <;> simp [hfg]
  have h2 : vpinNan s b = vpinNan b s := by
    funext i
    unfold vpinNan
    cases b.getD i none <;> cases s.getD i none <;> rfl
  unfold vpin
  rw [h1 (fun x _ => x) (fun _ y => y) (fun _ _ => rfl), h1 (fun _ y => y) (fun x _ => x) (fun _ _ => rfl),
    h1 (fun x y => |x - y|) (fun x y => |x - y|) (fun x y => abs_sub_comm x y), h2]
  apply tabulate_congr' hlen.symm
  intro i
  simp only
  rw [add_comm (cumAt (vpinTerm (fun _ y => y) b s) (i + 1) - _)]

example : vpin (1 / 1000 : ℚ) [some 1, some 3] [some 2, some 2] 2 = [none, some (1 / 4)] := by decide +kernel

/-! ## Structural breaks -/

/-- The statistic with the two directions exchanged. -/
def Snt.swap (s : Snt K) : Snt K := ⟨s.down, s.up, s.critDown, s.critUp⟩

/-- **C108 (structural breaks).** On log prices of opposite sign (prices replaced by their inverses) the upward and the
downward statistic change places, with their critical values. -/
theorem C108_structural_break (lg sq : K → K) (y : List K) (t : Nat) :
    sntAt lg sq (scl (-1) y) t = (sntAt lg sq y t).swap := by
  have hsig : cumSqDiff (scl (-1) y) (t - 1) = cumSqDiff y (t - 1) := by
    unfold cumSqDiff
    congr 1
    apply List.map_congr_left
    intro j _
    rw [scl_getD, scl_getD]
    ring
  unfold sntAt
  rw [hsig]
  generalize sq (cumSqDiff y (t - 1) / ((t - 1 : Nat) : K)) = sigma
  unfold compMaxSnt
  split
  · rfl
  · have hstep : ∀ (s : Snt K) (n : Nat), sntStep lg sq (scl (-1) y) t sigma s.swap n = (sntStep lg sq y t sigma s n).swap := by
      intro s n
      have hd : (scl (-1) y).getD t 0 - (scl (-1) y).getD n 0 = -(y.getD t 0 - y.getD n 0) := by
        rw [scl_getD, scl_getD]; ring
      unfold sntStep
      simp only [hd]
      generalize y.getD t 0 - y.getD n 0 = d
      generalize sq (46 / 10 + lg ((t - n : Nat) : K)) = cr
      have e1 : max 0 (-d) = -(min 0 d) := by rw [← neg_zero (G := K), max_neg_neg, neg_zero]
      have e2 : -(min 0 (-d)) = max 0 d := by
        have : min 0 (-d) = -(max 0 d) := by rw [← neg_zero (G := K), min_neg_neg, neg_zero]
        rw [this, neg_neg]
      rw [e1, e2]
      by_cases hden : sigma * sq ((t - n : Nat) : K) ≤ 1 / 10 ^ 16
      · rw [if_pos hden, if_pos hden]
      · rw [if_neg hden, if_neg hden]
        generalize -(min 0 d) / (sigma * sq ((t - n : Nat) : K)) = dn
        generalize max 0 d / (sigma * sq ((t - n : Nat) : K)) = up
        by_cases h1 : up > s.up <;> by_cases h2 : dn > s.down <;> simp [Snt.swap, h1, h2]
    have hfold : ∀ (l : List Nat) (s : Snt K), l.foldl (sntStep lg sq (scl (-1) y) t sigma) s.swap =
        (l.foldl (sntStep lg sq y t sigma) s).swap := by
      intro l
      induction l with
      | nil => intro s; rfl
      | cons n l ih => intro s; rw [List.foldl_cons, List.foldl_cons, hstep, ih]
    exact hfold _ sntInit

example : sntAt (fun x : ℚ => x) (fun x => x) [0, 1, 3, 2, 5] 4 ≠ sntAt (fun x : ℚ => x) (fun x => x) (scl (-1) [0, 1, 3, 2, 5]) 4 ∧
    (sntAt (fun x : ℚ => x) (fun x => x) (scl (-1) [0, 1, 3, 2, 5]) 4).down =
      (sntAt (fun x : ℚ => x) (fun x => x) [0, 1, 3, 2, 5] 4).up := by decide +kernel

end FinML
