/-
C162 (the latest observation rises).  `finmlkit/feature/core/ma.py`, `utils.py`, `momentum.py`, `volatility.py`.
-/
import Verif.Props.Oscillators
import Verif.Props.Variance
import Mathlib.Analysis.Real.Sqrt

set_option linter.unusedSectionVars false

namespace FinML

variable {K : Type} [Field K] [LinearOrder K] [IsStrictOrderedRing K]

/-! ## Specification -/

/-- Two series that agree before position `i`, the second not lower at `i`. -/
structure Raised (i : Nat) (xs xs' : List K) : Prop where
  len : xs'.length = xs.length
  lt : i < xs.length
  before : ∀ j, j < i → xs'.getD j 0 = xs.getD j 0
  up : xs.getD i 0 ≤ xs'.getD i 0

/-- `a` is not above `b` where both are numbers. -/
def NotAbove (a b : Option (Option K)) : Prop := ∀ x y, a = some (some x) → b = some (some y) → x ≤ y

/-! ## Lemmas -/

theorem window_concat (xs : List K) (w i : Nat) (hi : i < xs.length) (hw : w ≤ i + 1) (h0 : 1 ≤ w) :
    window xs w i = (List.range' (i + 1 - w) (w - 1)).map (fun j => xs.getD j 0) ++ [xs.getD i 0] := by
  rw [window_eq_map xs 0 w i hi hw]
  obtain ⟨v, rfl⟩ : ∃ v, w = v + 1 := ⟨w - 1, by omega⟩
  rw [List.range'_concat, List.map_append]
  simp only [Nat.add_sub_cancel, List.map_cons, List.map_nil, Nat.one_mul]
  rw [show i + 1 - (v + 1) + v = i by omega]

theorem range_before (xs xs' : List K) (i w : Nat) (h : Raised i xs xs') (hw : w ≤ i + 1) (h0 : 1 ≤ w) :
    (List.range' (i + 1 - w) (w - 1)).map (fun j => xs'.getD j 0) = (List.range' (i + 1 - w) (w - 1)).map (fun j => xs.getD j 0) := by
  apply List.map_congr_left
  intro j hj
  rw [List.mem_range'_1] at hj
  exact h.before j (by omega)

/-- Deviation of the last of `p + 1` values from their mean. -/
theorem last_dev (l : List K) (a : K) (hl : 0 < l.length) :
    a - (l ++ [a]).sum / ((l ++ [a]).length : K) =
      (l.length : K) / ((l.length : K) + 1) * (a - l.sum / (l.length : K)) := by
  have hp : (0 : K) < (l.length : K) := by exact_mod_cast hl
  rw [List.sum_append, List.length_append]
  simp only [List.sum_cons, List.sum_nil, List.length_cons, List.length_nil, Nat.cast_add, Nat.cast_one, Nat.zero_add, add_zero]
  have h1 : (l.length : K) ≠ 0 := hp.ne'
  have h2 : (l.length : K) + 1 ≠ 0 := by linarith
  field_simp
  ring

/-- Sum of squared deviations when one value is added. -/
theorem sq_dev_concat (l : List K) (a : K) (hl : 0 < l.length) :
    ((l ++ [a]).map (fun x => (x - (l ++ [a]).sum / ((l ++ [a]).length : K)) ^ 2)).sum =
      (l.map (fun x => (x - l.sum / (l.length : K)) ^ 2)).sum +
        (l.length : K) / ((l.length : K) + 1) * (a - l.sum / (l.length : K)) ^ 2 := by
  have hp : (0 : K) < (l.length : K) := by exact_mod_cast hl
  rw [sum_sq_dev, sum_sq_dev, List.sum_append, List.length_append, List.map_append, List.sum_append]
  simp only [List.map_cons, List.map_nil, List.sum_cons, List.sum_nil, List.length_cons, List.length_nil, Nat.cast_add, Nat.cast_one,
    Nat.zero_add, add_zero]
  have h1 : (l.length : K) ≠ 0 := hp.ne'
  have h2 : (l.length : K) + 1 ≠ 0 := by linarith
  generalize (l.map (fun x => x * x)).sum = Q
  generalize l.sum = S
  field_simp
  ring

/-- `d / √(A + c d²)` rises with `d`. -/
theorem standardised_mono (A c k d d' s s' : K) (hA : 0 ≤ A) (hk : 0 < k) (hs : 0 < s) (hs' : 0 < s')
    (h : s ^ 2 = (A + c * d ^ 2) / k) (h' : s' ^ 2 = (A + c * d' ^ 2) / k) (hd : d ≤ d') : d / s ≤ d' / s' := by
  rw [div_le_div_iff₀ hs hs']
  have e : s ^ 2 * k = A + c * d ^ 2 := by rw [h]; field_simp
  have e' : s' ^ 2 * k = A + c * d' ^ 2 := by rw [h']; field_simp
  have key : ((d * s') ^ 2 - (d' * s) ^ 2) * k = A * (d ^ 2 - d' ^ 2) := by
    have : ((d * s') ^ 2 - (d' * s) ^ 2) * k = d ^ 2 * (s' ^ 2 * k) - d' ^ 2 * (s ^ 2 * k) := by ring
    rw [this, e, e']; ring
  rcases le_or_gt 0 d with h0 | h0
  · have hsq : (d * s') ^ 2 ≤ (d' * s) ^ 2 := by
      by_contra hc
      have h1 : 0 < ((d * s') ^ 2 - (d' * s) ^ 2) * k := mul_pos (by linarith) hk
      have h2 : A * (d ^ 2 - d' ^ 2) ≤ 0 := mul_nonpos_of_nonneg_of_nonpos hA (by nlinarith)
      linarith
    exact (pow_le_pow_iff_left₀ (mul_nonneg h0 hs'.le) (mul_nonneg (le_trans h0 hd) hs.le) (by norm_num)).mp hsq
  · rcases le_or_gt 0 d' with h1 | h1
    · exact le_trans (mul_neg_of_neg_of_pos h0 hs').le (mul_nonneg h1 hs.le)
    · have hsq : (-(d' * s)) ^ 2 ≤ (-(d * s')) ^ 2 := by
        rw [neg_sq, neg_sq]
        by_contra hc
        have h2 : ((d * s') ^ 2 - (d' * s) ^ 2) * k < 0 := mul_neg_of_neg_of_pos (by linarith) hk
        have h3 : 0 ≤ A * (d ^ 2 - d' ^ 2) := mul_nonneg hA (by nlinarith)
        linarith
      have := (pow_le_pow_iff_left₀ (neg_nonneg.mpr (mul_neg_of_neg_of_pos h1 hs).le)
        (neg_nonneg.mpr (mul_neg_of_neg_of_pos h0 hs').le) (by norm_num)).mp hsq
      linarith

theorem wilderAvg_mono (x y : Nat → K) (w m : Nat) (hw : 1 ≤ w) (h : ∀ j, 1 ≤ j → j ≤ w + m → x j ≤ y j) :
    wilderAvg x w m ≤ wilderAvg y w m := by
  have hw1 : (1 : K) ≤ (w : K) := by exact_mod_cast hw
  have hw0 : (0 : K) ≤ (w : K) := by linarith
  induction m with
  | zero =>
    rw [wilderAvg, wilderAvg]
    refine div_le_div_of_nonneg_right (sum_map_le _ _ _ ?_) hw0
    intro j hj
    rw [List.mem_range'_1] at hj
    exact h j hj.1 (by omega)
  | succ m ih =>
    rw [wilderAvg, wilderAvg]
    refine div_le_div_of_nonneg_right (add_le_add (mul_le_mul_of_nonneg_left (ih ?_) (by linarith)) (h _ (by omega) (le_refl _))) hw0
    intro j h1 h2
    exact h j h1 (by omega)

theorem wilderAvg_nonneg_of (x : Nat → K) (w m : Nat) (hw : 1 ≤ w) (h : ∀ j, 0 ≤ x j) : 0 ≤ wilderAvg x w m := by
  have hz : ∀ m, wilderAvg (fun _ => (0 : K)) w m = 0 := by
    intro m
    induction m with
    | zero => rw [wilderAvg]; simp
    | succ m ih => rw [wilderAvg, ih]; simp
  have := wilderAvg_mono (fun _ => 0) x w m hw (fun j _ _ => h j)
  rwa [hz] at this

theorem ewmaState_mono (y y' : List K) (q : K) (hq : 0 ≤ q) (t : Nat) (h : ∀ j, j ≤ t → y.getD j 0 ≤ y'.getD j 0) :
    (ewmaState y q t).1 ≤ (ewmaState y' q t).1 ∧ (ewmaState y q t).2 = (ewmaState y' q t).2 ∧ 0 < (ewmaState y q t).2 := by
  induction t with
  | zero => exact ⟨h 0 (le_refl _), rfl, one_pos⟩
  | succ t ih =>
    obtain ⟨a, b, c⟩ := ih (fun j hj => h j (by omega))
    rw [ewmaState, ewmaState]
    refine ⟨add_le_add (h _ (le_refl _)) (mul_le_mul_of_nonneg_left a hq), ?_, ?_⟩
    · show 1 + q * _ = 1 + q * _
      rw [b]
    · have := mul_nonneg hq c.le
      show 0 < 1 + q * _
      linarith

/-! ## C162 -/

/-- **C162 (averages).** A series that is nowhere lower has exponential and simple moving averages that are nowhere lower. -/
theorem C162_averages (xs xs' : List K) (span w i : Nat) (hl : xs'.length = xs.length)
    (h : ∀ j, j ≤ i → xs.getD j 0 ≤ xs'.getD j 0) (out out' : List K) (ho : ewma xs span = .ok out)
    (ho' : ewma xs' span = .ok out') :
    (i < xs.length → out.getD i 0 ≤ out'.getD i 0) ∧ NotAbove ((sma xs w)[i]?) ((sma xs' w)[i]?) := by
  constructor
  · intro hi
    unfold ewma at ho ho'
    by_cases hs : span < 1
    · rw [if_pos hs] at ho; cases ho
    rw [if_neg hs] at ho ho'
    obtain rfl := Except.ok.inj ho
    obtain rfl := Except.ok.inj ho'
    rw [tabulate_getD _ _ _ _ hi, tabulate_getD _ _ _ _ (by omega)]
    have hs1 : (1 : K) ≤ (span : K) := by exact_mod_cast (by omega : 1 ≤ span)
    have hq : (0 : K) ≤ 1 - 2 / ((span : K) + 1) := by
      rw [sub_nonneg, div_le_one (by linarith)]
      linarith
    obtain ⟨a, b, c⟩ := ewmaState_mono xs xs' _ hq i h
    rw [← b]
    exact div_le_div_of_nonneg_right a c.le
  · intro x y hx hy
    by_cases hi : i < xs.length
    · unfold sma at hx hy
      rw [rolling_get? _ _ _ _ hi] at hx
      rw [rolling_get? _ _ _ _ (by omega)] at hy
      by_cases hw : i + 1 < w
      · rw [if_pos hw] at hx; simp at hx
      rw [if_neg hw] at hx hy
      simp only [Option.some.injEq] at hx hy
      subst hx hy
      have hw0 : (0 : K) ≤ 1 / (w : K) := by positivity
      apply mul_le_mul_of_nonneg_left _ hw0
      rw [window_eq_map xs 0 w i hi (by omega), window_eq_map xs' 0 w i (by omega) (by omega)]
      apply sum_map_le
      intro j hj
      rw [List.mem_range'_1] at hj
      exact h j (by omega)
    · rw [List.getElem?_eq_none (by unfold sma rolling; rw [length_tabulate]; omega)] at hx
      cases hx

example : ewma [1, (2 : ℚ)] 3 = .ok [1, 5 / 3] ∧ ewma [1, (5 : ℚ)] 3 = .ok [1, 11 / 3] := by decide +kernel

/-- **C162 (rates of change).** Over a positive earlier price the rate of change and the percentage change rise with the latest
price, by the same amount for every unit. -/
theorem C162_rates (xs xs' : List K) (p i : Nat) (hp : 1 ≤ p) (h : Raised i xs xs') (h0 : 0 < xs.getD (i - p) 0) :
    NotAbove ((roc xs p)[i]?) ((roc xs' p)[i]?) ∧ NotAbove ((pctChange xs p)[i]?) ((pctChange xs' p)[i]?) := by
  have hi := h.lt
  have hi' : i < xs'.length := by rw [h.len]; exact hi
  constructor
  · intro x y hx hy
    unfold roc at hx hy
    rw [tabulate_get?, if_pos hi] at hx
    rw [tabulate_get?, if_pos hi'] at hy
    by_cases hc : i < p
    · rw [if_pos hc] at hx; simp at hx
    rw [if_neg hc] at hx hy
    simp only [Option.some.injEq] at hx hy
    subst hx hy
    rw [h.before (i - p) (by omega)]
    exact mul_le_mul_of_nonneg_right (div_le_div_of_nonneg_right (sub_le_sub_right h.up _) h0.le) (by norm_num)
  · intro x y hx hy
    unfold pctChange at hx hy
    rw [tabulate_get?, if_pos hi] at hx
    rw [tabulate_get?, if_pos hi'] at hy
    by_cases hc : i < p
    · rw [if_pos hc] at hx; simp at hx
    rw [if_neg hc] at hx hy
    dsimp only at hx hy
    rw [h.before (i - p) (by omega)] at hy
    rw [if_pos h0] at hx hy
    simp only [Option.some.injEq] at hx hy
    subst hx hy
    exact div_le_div_of_nonneg_right (sub_le_sub_right h.up _) h0.le

example : Raised 1 [2, (3 : ℚ)] [2, 4] ∧ roc [2, (3 : ℚ)] 1 = [none, some 50] ∧ roc [2, (4 : ℚ)] 1 = [none, some 100] := by
  refine ⟨⟨rfl, by decide, ?_, by decide +kernel⟩, by decide +kernel, by decide +kernel⟩
  intro j hj
  obtain rfl : j = 0 := by omega
  rfl

/-- **C162 (RSI).** The Wilder RSI does not fall when the latest price rises; where it is NaN for want of losses it stays NaN. -/
theorem C162_rsi (xs xs' : List K) (w i : Nat) (hw : 1 ≤ w) (h : Raised i xs xs') :
    NotAbove ((rsiWilder xs w)[i]?) ((rsiWilder xs' w)[i]?) ∧
    ((rsiWilder xs w)[i]? = some none → (rsiWilder xs' w)[i]? = some none) := by
  have hi := h.lt
  have hi' : i < xs'.length := by rw [h.len]; exact hi
  unfold rsiWilder
  rw [tabulate_get?, if_pos hi, tabulate_get?, if_pos hi']
  by_cases hc : i < w
  · rw [if_pos hc, if_pos hc]
    refine ⟨?_, fun _ => rfl⟩
    intro x y hx
    simp at hx
  rw [if_neg hc, if_neg hc]
  have hg : wilderAvg (gainAt xs) w (i - w) ≤ wilderAvg (gainAt xs') w (i - w) := by
    apply wilderAvg_mono _ _ _ _ hw
    intro j h1 h2
    rw [gainAt_eq, gainAt_eq, h.before (j - 1) (by omega)]
    rcases Nat.lt_or_ge j i with hj | hj
    · rw [h.before j hj]
    · obtain rfl : j = i := by omega
      exact max_le_max (sub_le_sub_right h.up _) (le_refl _)
  have hls : wilderAvg (lossAt xs') w (i - w) ≤ wilderAvg (lossAt xs) w (i - w) := by
    apply wilderAvg_mono _ _ _ _ hw
    intro j h1 h2
    rw [lossAt_eq, lossAt_eq, h.before (j - 1) (by omega)]
    rcases Nat.lt_or_ge j i with hj | hj
    · rw [h.before j hj]
    · obtain rfl : j = i := by omega
      have := h.up
      exact max_le_max (by linarith) (le_refl _)
  have hg0 : 0 ≤ wilderAvg (gainAt xs) w (i - w) :=
    wilderAvg_nonneg_of _ _ _ hw (fun j => by rw [gainAt_eq]; exact le_max_right _ _)
  generalize wilderAvg (gainAt xs) w (i - w) = g at *
  generalize wilderAvg (gainAt xs') w (i - w) = g' at *
  generalize wilderAvg (lossAt xs) w (i - w) = l at *
  generalize wilderAvg (lossAt xs') w (i - w) = l' at *
  unfold rsiVal
  constructor
  · intro x y hx hy
    by_cases h1 : l > 0
    · by_cases h2 : l' > 0
      · rw [if_pos h1] at hx
        rw [if_pos h2] at hy
        simp only [Option.some.injEq] at hx hy
        subst hx hy
        have h3 : g / l ≤ g' / l' := div_le_div₀ (le_trans hg0 hg) hg h2 hls
        have h4 : 0 ≤ g / l := div_nonneg hg0 h1.le
        have : 100 / (1 + g' / l') ≤ 100 / (1 + g / l) := div_le_div_of_nonneg_left (by norm_num) (by linarith) (by linarith)
        linarith
      · rw [if_neg h2] at hy; simp at hy
    · rw [if_neg h1] at hx; simp at hx
  · intro hx
    by_cases h1 : l > 0
    · rw [if_pos h1] at hx; simp at hx
    · rw [if_neg (fun h2 => h1 (lt_of_lt_of_le h2 hls))]

example : rsiWilder [2, 3, (1 : ℚ)] 2 = [none, none, some (100 / 3)] ∧ rsiWilder [2, 3, (2 : ℚ)] 2 = [none, none, some 50] := by
  decide +kernel

/-- **C162 (RSI, no loss left).** Raising the latest price can turn a number into NaN: without a loss in the first window the RSI
is missing instead of 100. -/
theorem C162_rsi_vanishes : rsiWilder [2, 3, (1 : ℚ)] 2 = [none, none, some (100 / 3)] ∧ rsiWilder [2, 3, (3 : ℚ)] 2 = [none, none, none] := by
  decide +kernel

/-- **C162 (%K).** Over fixed highs and lows the kernel's %K rises with the latest close. -/
theorem C162_stoch (close close' low high : List K) (len i : Nat) (h : Raised i close close') :
    NotAbove ((stochK close low high len)[i]?) ((stochK close' low high len)[i]?) := by
  have hi := h.lt
  have hi' : i < close'.length := by rw [h.len]; exact hi
  intro x y hx hy
  unfold stochK at hx hy
  rw [tabulate_get?, if_pos hi] at hx
  rw [tabulate_get?, if_pos hi'] at hy
  by_cases hc : i + 1 < len
  · rw [if_pos hc] at hx; simp at hx
  rw [if_neg hc] at hx hy
  unfold stochVal at hx hy
  by_cases hs : (stochState low high len (i + 1 - len)).2 > (stochState low high len (i + 1 - len)).1
  · rw [if_pos hs] at hx hy
    simp only [Option.some.injEq] at hx hy
    subst hx hy
    refine div_le_div_of_nonneg_right ?_ (by linarith)
    have := h.up
    linarith
  · rw [if_neg hs] at hx; simp at hx

example : stochK [3, (4 : ℚ)] [1, 2] [5, 6] 2 = [none, some 60] ∧ stochK [3, (5 : ℚ)] [1, 2] [5, 6] 2 = [none, some 80] := by decide +kernel

/-- **C162 (the %K feature).** The `StochK` feature, which passes its columns in another order, does not rise but fall with the
latest close (highs at or above the lows). -/
theorem C162_stoch_feature (high low close close' : List K) (len i : Nat) (hlen : 1 ≤ len) (h : Raised i close close')
    (hl : low.length = high.length) (hh : close.length = high.length) (hle : ∀ j, low.getD j 0 ≤ high.getD j 0) :
    NotAbove ((stochKFeature high low close' len)[i]?) ((stochKFeature high low close len)[i]?) := by
  have hi : i < high.length := by rw [← hh]; exact h.lt
  intro x y hx hy
  unfold stochKFeature stochK at hx hy
  rw [tabulate_get?, if_pos hi] at hx hy
  by_cases hc : i + 1 < len
  · rw [if_pos hc] at hx; simp at hx
  rw [if_neg hc] at hx hy
  have e : len + (i + 1 - len) = i + 1 := by omega
  obtain ⟨a1, a2⟩ := C33_stoch_extremes low close len (i + 1 - len) hlen (by omega) (by omega)
  obtain ⟨b1, b2⟩ := C33_stoch_extremes low close' len (i + 1 - len) hlen (by omega) (by have := h.len; omega)
  rw [show len - 1 + (i + 1 - len) = i by omega] at a1 a2 b1 b2
  have elo : (stochState low close' len (i + 1 - len)).1 = (stochState low close len (i + 1 - len)).1 := by
    obtain ⟨⟨j, j1, j2, j3⟩, j4⟩ := a1
    obtain ⟨⟨k, k1, k2, k3⟩, k4⟩ := b1
    have := j4 k k1 k2
    have := k4 j j1 j2
    dsimp only at *
    linarith
  have ehi : (stochState low close len (i + 1 - len)).2 ≤ (stochState low close' len (i + 1 - len)).2 := by
    obtain ⟨⟨j, j1, j2, j3⟩, -⟩ := a2
    rw [← j3]
    refine le_trans ?_ (b2.2 j j1 j2)
    dsimp only
    rcases Nat.lt_or_ge j i with hj | hj
    · rw [h.before j hj]
    · obtain rfl : j = i := by omega
      exact h.up
  have hlo : (stochState low close len (i + 1 - len)).1 ≤ high.getD i 0 := le_trans (a1.2 i (by omega) (le_refl _)) (hle i)
  unfold stochVal at hx hy
  rw [elo] at hx
  generalize (stochState low close len (i + 1 - len)).1 = lo at *
  generalize (stochState low close len (i + 1 - len)).2 = hi1 at *
  generalize (stochState low close' len (i + 1 - len)).2 = hi2 at *
  by_cases h1 : hi1 > lo
  · rw [if_pos (lt_of_lt_of_le h1 ehi)] at hx
    rw [if_pos h1] at hy
    simp only [Option.some.injEq] at hx hy
    subst hx hy
    exact div_le_div_of_nonneg_left (by linarith) (by linarith) (by linarith)
  · rw [if_neg h1] at hy; simp at hy

/-- The `StochK` feature falls from 200 to 100 when the latest close rises from 3 to 5. -/
theorem C162_stoch_feature_falls : (stochKFeature [4, (5 : ℚ)] [1, 2] [3, 3] 2)[1]? = some (some 200) ∧
    (stochKFeature [4, (5 : ℚ)] [1, 2] [3, 5] 2)[1]? = some (some 100) := by decide +kernel

/-- **C162 (z-score).** The z-score does not fall when the latest value rises. -/
theorem C162_zscore (sqrt : K → K) (hsq : ∀ x, 0 ≤ x → 0 ≤ sqrt x ∧ sqrt x ^ 2 = x) (xs xs' : List K) (w ddof i : Nat) (hw : 2 ≤ w)
    (hd : ddof < w) (h : Raised i xs xs') : NotAbove ((zscore sqrt xs w ddof)[i]?) ((zscore sqrt xs' w ddof)[i]?) := by
  have hi := h.lt
  have hi' : i < xs'.length := by rw [h.len]; exact hi
  intro x y hx hy
  unfold zscore at hx hy
  rw [rolling_get? _ _ _ _ hi] at hx
  rw [rolling_get? _ _ _ _ hi'] at hy
  by_cases hc : i + 1 < w
  · rw [if_pos hc] at hx; simp at hx
  rw [if_neg hc] at hx hy
  rw [window_concat xs w i hi (by omega) (by omega)] at hx
  rw [window_concat xs' w i hi' (by omega) (by omega), range_before xs xs' i w h (by omega) (by omega)] at hy
  have hlen : ((List.range' (i + 1 - w) (w - 1)).map (fun j => xs.getD j 0)).length = w - 1 := by simp
  have hup := h.up
  generalize (List.range' (i + 1 - w) (w - 1)).map (fun j => xs.getD j 0) = l at *
  generalize xs.getD i 0 = a at *
  generalize xs'.getD i 0 = b at *
  have hl0 : 0 < l.length := by omega
  have hk : (0 : K) < (w : K) - (ddof : K) := by
    have : (ddof : K) < (w : K) := by exact_mod_cast hd
    linarith
  have hlw : ∀ c : K, (((l ++ [c]).length : Nat) : K) = (w : K) := by
    intro c
    rw [List.length_append, hlen]
    congr 1
    simp only [List.length_cons, List.length_nil]
    omega
  have hp : (0 : K) < (l.length : K) := by exact_mod_cast hl0
  have hA : 0 ≤ (l.map (fun x => (x - l.sum / (l.length : K)) ^ 2)).sum := sum_map_nonneg _ _ (fun j _ => sq_nonneg _)
  have hcc : 0 ≤ (l.length : K) / ((l.length : K) + 1) := div_nonneg hp.le (by linarith)
  have main : ∀ c z : K, some (zscoreWin sqrt ddof (l ++ [c])) = some (some z) → ∃ s, 0 < s ∧
      s ^ 2 = ((l.map (fun x => (x - l.sum / (l.length : K)) ^ 2)).sum +
        (l.length : K) / ((l.length : K) + 1) * (c - l.sum / (l.length : K)) ^ 2) / ((w : K) - (ddof : K)) ∧
      z = (l.length : K) / ((l.length : K) + 1) * ((c - l.sum / (l.length : K)) / s) := by
    intro c z hz
    unfold zscoreWin at hz
    simp only [sq_dev_concat l c hl0, List.getLastD_concat, last_dev l c hl0] at hz
    rw [hlw c] at hz
    have hv0 : 0 ≤ ((l.map (fun x => (x - l.sum / (l.length : K)) ^ 2)).sum +
        (l.length : K) / ((l.length : K) + 1) * (c - l.sum / (l.length : K)) ^ 2) / ((w : K) - (ddof : K)) :=
      div_nonneg (add_nonneg hA (mul_nonneg hcc (sq_nonneg _))) hk.le
    obtain ⟨s0, s1⟩ := hsq _ hv0
    split at hz
    · rename_i hne
      refine ⟨_, lt_of_le_of_ne s0 (Ne.symm hne), s1, ?_⟩
      simp only [Option.some.injEq] at hz
      rw [← hz, mul_div_assoc]
    · simp at hz
  obtain ⟨s, s0, s1, rfl⟩ := main a x hx
  obtain ⟨s', s0', s1', rfl⟩ := main b y hy
  exact mul_le_mul_of_nonneg_left (standardised_mono _ _ _ _ _ s s' hA hk s0 s0' s1 s1' (sub_le_sub_right hup _)) hcc

example : ∀ x : ℝ, 0 ≤ x → 0 ≤ Real.sqrt x ∧ Real.sqrt x ^ 2 = x := fun x h => ⟨Real.sqrt_nonneg x, Real.sq_sqrt h⟩

/-- **C162 (%B).** Bollinger's %B does not fall when the latest close rises. -/
theorem C162_bollinger (sqrt : K → K) (hsq : ∀ x, 0 ≤ x → 0 ≤ sqrt x ∧ sqrt x ^ 2 = x) (xs xs' : List K) (w i : Nat) (numStd : K)
    (hn : 0 ≤ numStd) (hw : 2 ≤ w) (h : Raised i xs xs') :
    NotAbove ((bollingerB sqrt xs w numStd)[i]?) ((bollingerB sqrt xs' w numStd)[i]?) := by
  have hi := h.lt
  have hi' : i < xs'.length := by rw [h.len]; exact hi
  intro x y hx hy
  rw [C33_bollinger_window sqrt xs w i numStd hw hi] at hx
  rw [C33_bollinger_window sqrt xs' w i numStd hw hi'] at hy
  by_cases hc : i + 1 < w
  · rw [if_pos hc] at hx; simp at hx
  rw [if_neg hc] at hx hy
  have win : ∀ (ys : List K) (g : K → K), i < ys.length → winSum (fun j => g (ys.getD j 0)) w i = ((window ys w i).map g).sum := by
    intro ys g hy
    rw [window_eq_map ys 0 w i hy (by omega), List.map_map]
    rfl
  have win0 : ∀ (ys : List K), i < ys.length → winSum (fun j => ys.getD j 0) w i = (window ys w i).sum := by
    intro ys hy
    have := win ys id hy
    simpa using this
  dsimp only at hx hy
  rw [win0 xs hi, win xs (fun z => (z - (window xs w i).sum / (w : K)) ^ 2) hi] at hx
  rw [win0 xs' hi', win xs' (fun z => (z - (window xs' w i).sum / (w : K)) ^ 2) hi'] at hy
  rw [window_concat xs w i hi (by omega) (by omega)] at hx
  rw [window_concat xs' w i hi' (by omega) (by omega), range_before xs xs' i w h (by omega) (by omega)] at hy
  have hlen : ((List.range' (i + 1 - w) (w - 1)).map (fun j => xs.getD j 0)).length = w - 1 := by simp
  have hup := h.up
  generalize (List.range' (i + 1 - w) (w - 1)).map (fun j => xs.getD j 0) = l at *
  generalize xs.getD i 0 = a at *
  generalize xs'.getD i 0 = b at *
  have hl0 : 0 < l.length := by omega
  have hk : (0 : K) < (w : K) - 1 := by
    have : (2 : K) ≤ (w : K) := by exact_mod_cast hw
    linarith
  have hlw : ∀ c : K, (w : K) = (((l ++ [c]).length : Nat) : K) := by
    intro c
    rw [List.length_append, hlen]
    congr 1
    simp only [List.length_cons, List.length_nil]
    omega
  have hp : (0 : K) < (l.length : K) := by exact_mod_cast hl0
  have hA : 0 ≤ (l.map (fun x => (x - l.sum / (l.length : K)) ^ 2)).sum := sum_map_nonneg _ _ (fun j _ => sq_nonneg _)
  have hcc : 0 ≤ (l.length : K) / ((l.length : K) + 1) := div_nonneg hp.le (by linarith)
  have main : ∀ c z : K, some (if numStd * sqrt (((l ++ [c]).map (fun z => (z - (l ++ [c]).sum / (w : K)) ^ 2)).sum / ((w : K) - 1)) > 0 then
        some ((c - ((l ++ [c]).sum / (w : K) - numStd * sqrt (((l ++ [c]).map (fun z => (z - (l ++ [c]).sum / (w : K)) ^ 2)).sum / ((w : K) - 1)))) /
          (2 * (numStd * sqrt (((l ++ [c]).map (fun z => (z - (l ++ [c]).sum / (w : K)) ^ 2)).sum / ((w : K) - 1)))))
        else none) = some (some z) → ∃ s, 0 < s ∧ 0 < numStd ∧
      s ^ 2 = ((l.map (fun x => (x - l.sum / (l.length : K)) ^ 2)).sum +
        (l.length : K) / ((l.length : K) + 1) * (c - l.sum / (l.length : K)) ^ 2) / ((w : K) - 1) ∧
      z = 1 / 2 + (l.length : K) / ((l.length : K) + 1) / (2 * numStd) * ((c - l.sum / (l.length : K)) / s) := by
    intro c z hz
    have e1 : ((l ++ [c]).map (fun z => (z - (l ++ [c]).sum / (w : K)) ^ 2)).sum = (l.map (fun x => (x - l.sum / (l.length : K)) ^ 2)).sum +
        (l.length : K) / ((l.length : K) + 1) * (c - l.sum / (l.length : K)) ^ 2 := by
      rw [hlw c]; exact sq_dev_concat l c hl0
    have e2 : c - (l ++ [c]).sum / (w : K) = (l.length : K) / ((l.length : K) + 1) * (c - l.sum / (l.length : K)) := by
      rw [hlw c]; exact last_dev l c hl0
    rw [e1] at hz
    have hv0 : 0 ≤ ((l.map (fun x => (x - l.sum / (l.length : K)) ^ 2)).sum +
        (l.length : K) / ((l.length : K) + 1) * (c - l.sum / (l.length : K)) ^ 2) / ((w : K) - 1) :=
      div_nonneg (add_nonneg hA (mul_nonneg hcc (sq_nonneg _))) hk.le
    obtain ⟨s0, s1⟩ := hsq _ hv0
    generalize ((l.map (fun x => (x - l.sum / (l.length : K)) ^ 2)).sum +
        (l.length : K) / ((l.length : K) + 1) * (c - l.sum / (l.length : K)) ^ 2) / ((w : K) - 1) = v at *
    split at hz
    · rename_i hpos
      have hs : sqrt v ≠ 0 := fun h0 => by rw [h0, mul_zero] at hpos; exact lt_irrefl _ hpos
      have hs0 : 0 < sqrt v := lt_of_le_of_ne s0 (Ne.symm hs)
      have hn0 : numStd ≠ 0 := fun h0 => by rw [h0, zero_mul] at hpos; exact lt_irrefl _ hpos
      refine ⟨_, hs0, lt_of_le_of_ne hn (Ne.symm hn0), s1, ?_⟩
      simp only [Option.some.injEq] at hz
      rw [← hz, show c - ((l ++ [c]).sum / (w : K) - numStd * sqrt v) = (c - (l ++ [c]).sum / (w : K)) + numStd * sqrt v by ring, e2]
      generalize c - l.sum / (l.length : K) = d
      generalize (l.length : K) / ((l.length : K) + 1) = q
      field_simp
      ring
    · simp at hz
  obtain ⟨s, s0, hn0, s1, rfl⟩ := main a x hx
  obtain ⟨s', s0', -, s1', rfl⟩ := main b y hy
  have := mul_le_mul_of_nonneg_left (standardised_mono _ _ _ _ _ s s' hA hk s0 s0' s1 s1' (sub_le_sub_right hup (l.sum / (l.length : K))))
    (div_nonneg hcc (by linarith : (0 : K) ≤ 2 * numStd))
  linarith

example : Raised 2 [1, 3, (2 : ℚ)] [1, 3, 5] := by
  refine ⟨rfl, by decide, ?_, by decide +kernel⟩
  intro j hj
  match j, hj with
  | 0, _ => rfl
  | 1, _ => rfl

/-- **C162 (lagged returns).** Over a positive earlier price the lagged return does not fall when the latest price rises. -/
theorem C162_lagged (log : K → K) (hlog : ∀ a b, 0 < a → a ≤ b → log a ≤ log b) (ts : List Int) (close close' : List K) (win : Int)
    (isLog : Bool) (i : Nat) (h : Raised i close close') (hpos : ∀ j, j ≤ i → 0 < close.getD j 0) (out out' : List (Ext K))
    (ho : laggedReturns log ts close win isLog = .ok out) (ho' : laggedReturns log ts close' win isLog = .ok out') (x y : K)
    (hx : out[i]? = some (.fin x)) (hy : out'[i]? = some (.fin y)) : x ≤ y := by
  have hi := h.lt
  have hi' : i < close'.length := by rw [h.len]; exact hi
  unfold laggedReturns at ho ho'
  by_cases hw : win ≤ 0
  · rw [if_pos hw] at ho; cases ho
  rw [if_neg hw] at ho ho'
  obtain rfl := Except.ok.inj ho
  obtain rfl := Except.ok.inj ho'
  rw [tabulate_get?, if_pos hi] at hx
  rw [tabulate_get?, if_pos hi'] at hy
  by_cases hs : i < searchLeft ts (ts.getD 0 0 + win)
  · rw [if_pos hs] at hx; simp at hx
  rw [if_neg hs] at hx hy
  dsimp only at hx hy
  by_cases hl : 0 ≤ (searchRight ts (ts.getD i 0 - win) : Int) - 1 ∧ (searchRight ts (ts.getD i 0 - win) : Int) - 1 < (i : Int)
  · rw [if_pos hl] at hx hy
    have hj : ((searchRight ts (ts.getD i 0 - win) : Int) - 1).toNat < i := by omega
    rw [h.before _ hj] at hy
    have hc := hpos _ hj.le
    rw [if_pos hc.ne'] at hx hy
    simp only [Option.some.injEq, Ext.fin.injEq] at hx hy
    subst hx hy
    have hd := div_le_div_of_nonneg_right h.up hc.le
    by_cases hlg : isLog = true
    · rw [if_pos hlg, if_pos hlg]
      exact hlog _ _ (div_pos (hpos i (le_refl _)) hc) hd
    · rw [if_neg hlg, if_neg hlg]
      linarith
  · rw [if_neg hl] at hx; simp at hx

example : laggedReturns (fun x => x) [0, 10] [2, (3 : ℚ)] 10 false = .ok [.nan, .fin (1 / 2)] ∧
    laggedReturns (fun x => x) [0, 10] [2, (4 : ℚ)] 10 false = .ok [.nan, .fin 1] := by decide +kernel

/-- **C162 (VWAP distance).** With positive prices and non-negative volumes the distance to the VWAP of the window, which contains
the latest bar, does not fall when the latest close rises. -/
theorem C162_vwap (log : K → K) (hlog : ∀ a b, 0 < a → a ≤ b → log a ≤ log b) (close close' volume : List K) (np i : Nat)
    (isLog : Bool) (hnp : 1 ≤ np) (h : Raised i close close') (hpos : ∀ j, j ≤ i → 0 < close.getD j 0)
    (hv : ∀ j, 0 ≤ volume.getD j 0) (hV : 0 < winSum (fun j => volume.getD j 0) np i) :
    NotAbove ((vwapDistance log close volume np isLog)[i]?) ((vwapDistance log close' volume np isLog)[i]?) := by
  have hi := h.lt
  have hi' : i < close'.length := by rw [h.len]; exact hi
  intro x y hx hy
  obtain ⟨a1, a2, a3, -⟩ := C33_vwap_distance_window log close volume np i isLog hnp hi
  obtain ⟨b1, b2, b3, -⟩ := C33_vwap_distance_window log close' volume np i isLog hnp hi'
  by_cases hc : i + 1 < np
  · rw [a1 hc] at hx; simp at hx
  have split : ∀ f : Nat → K, winSum f np i = ((List.range' (i + 1 - np) (np - 1)).map f).sum + f i := by
    intro f
    unfold winSum
    obtain ⟨v, rfl⟩ : ∃ v, np = v + 1 := ⟨np - 1, by omega⟩
    rw [List.range'_concat, List.map_append, List.sum_append]
    simp only [Nat.add_sub_cancel, List.map_cons, List.map_nil, Nat.one_mul, List.sum_cons, List.sum_nil, add_zero]
    rw [show i + 1 - (v + 1) + v = i by omega]
  have hW0 : ((List.range' (i + 1 - np) (np - 1)).map (fun j => close'.getD j 0 * volume.getD j 0)).sum =
      ((List.range' (i + 1 - np) (np - 1)).map (fun j => close.getD j 0 * volume.getD j 0)).sum := by
    congr 1
    apply List.map_congr_left
    intro j hj
    rw [List.mem_range'_1] at hj
    rw [h.before j (by omega)]
  have hWn : 0 ≤ ((List.range' (i + 1 - np) (np - 1)).map (fun j => close.getD j 0 * volume.getD j 0)).sum := by
    apply sum_map_nonneg
    intro j hj
    rw [List.mem_range'_1] at hj
    exact mul_nonneg (hpos j (by omega)).le (hv j)
  have hWpos : 0 < winSum (fun j => close.getD j 0 * volume.getD j 0) np i := by
    obtain ⟨j, hj, hjv⟩ : ∃ j ∈ List.range' (i + 1 - np) np, 0 < volume.getD j 0 := by
      by_contra hcon
      push Not at hcon
      have : winSum (fun j => volume.getD j 0) np i ≤ winSum (fun _ => (0 : K)) np i := sum_map_le _ _ _ hcon
      have hz : winSum (fun _ => (0 : K)) np i = 0 := by unfold winSum; simp
      rw [hz] at this
      exact absurd hV (not_lt.mpr this)
    have hj' := List.mem_range'_1.mp hj
    have h1 : close.getD j 0 * volume.getD j 0 ≤ winSum (fun j => close.getD j 0 * volume.getD j 0) np i := by
      unfold winSum
      apply List.single_le_sum
      · intro z hz
        obtain ⟨k, hk, rfl⟩ := List.mem_map.mp hz
        rw [List.mem_range'_1] at hk
        exact mul_nonneg (hpos k (by omega)).le (hv k)
      · exact List.mem_map.mpr ⟨j, hj, rfl⟩
    have h2 := mul_pos (hpos j (by omega)) hjv
    linarith
  have e := split (fun j => close.getD j 0 * volume.getD j 0)
  have e' := split (fun j => close'.getD j 0 * volume.getD j 0)
  rw [hW0] at e'
  have hWpos' : 0 < winSum (fun j => close'.getD j 0 * volume.getD j 0) np i := by
    have := mul_le_mul_of_nonneg_right h.up (hv i)
    linarith
  have hup := h.up
  have hvi := hv i
  have hcp := hpos i (le_refl _)
  have hratio : close.getD i 0 / (winSum (fun j => close.getD j 0 * volume.getD j 0) np i / winSum (fun j => volume.getD j 0) np i) ≤
      close'.getD i 0 / (winSum (fun j => close'.getD j 0 * volume.getD j 0) np i / winSum (fun j => volume.getD j 0) np i) := by
    rw [div_div_eq_mul_div, div_div_eq_mul_div, div_le_div_iff₀ hWpos hWpos', e, e']
    have : close.getD i 0 * ((List.range' (i + 1 - np) (np - 1)).map (fun j => close.getD j 0 * volume.getD j 0)).sum ≤
        close'.getD i 0 * ((List.range' (i + 1 - np) (np - 1)).map (fun j => close.getD j 0 * volume.getD j 0)).sum :=
      mul_le_mul_of_nonneg_right hup hWn
    have := mul_le_mul_of_nonneg_right this hV.le
    linarith
  have hrpos : 0 < close.getD i 0 / (winSum (fun j => close.getD j 0 * volume.getD j 0) np i / winSum (fun j => volume.getD j 0) np i) :=
    div_pos hcp (div_pos hWpos hV)
  rcases Nat.lt_or_ge np (i + 1) with hlt | hge
  · rw [a3 hlt hV] at hx
    rw [b3 hlt hV] at hy
    simp only [Option.some.injEq] at hx hy
    subst hx hy
    by_cases hlg : isLog = true
    · rw [if_pos hlg, if_pos hlg]
      exact hlog _ _ hrpos hratio
    · rw [if_neg hlg, if_neg hlg]
      linarith
  · have heq : i + 1 = np := by omega
    rw [a2 heq, if_pos hV] at hx
    rw [b2 heq, if_pos hV] at hy
    simp only [Option.some.injEq] at hx hy
    subst hx hy
    linarith

example : vwapDistance (fun x => x) [1, 2, (3 : ℚ)] [1, 1, 1] 2 false = [none, some (1 / 3), some (1 / 5)] ∧
    vwapDistance (fun x => x) [1, 2, (6 : ℚ)] [1, 1, 1] 2 false = [none, some (1 / 3), some (1 / 2)] := by decide +kernel

end FinML
