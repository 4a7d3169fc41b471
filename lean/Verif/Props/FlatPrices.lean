/-
C166: what the indicators report on a stretch of unchanged prices.  `finmlkit/feature/core/ma.py`, `utils.py`,
`momentum.py`, `trend.py`, `reversion.py`, `correlation.py`, `volatility.py`, `finmlkit/sampling/filters.py`,
`finmlkit/label/tbm.py`.
-/
import Verif.Props.LatestUp
import Verif.Props.BarrierOrder
import Verif.Model.CusumFilter

set_option linter.unusedSectionVars false

namespace FinML

variable {K : Type} [Field K] [LinearOrder K] [IsStrictOrderedRing K]

/-! ## Specification -/

/-- The values at positions `a, …, b` exist and are all `c`. -/
def FlatOn {α : Type} (xs : List α) (a b : Nat) (c : α) : Prop := ∀ k, a ≤ k → k ≤ b → xs[k]? = some c

/-! ## Helpers -/

theorem FlatOn.lt {α : Type} {xs : List α} {a b : Nat} {c : α} (h : FlatOn xs a b c) (hab : a ≤ b) : b < xs.length := by
  by_contra hn
  have := h b hab (le_refl _)
  rw [List.getElem?_eq_none (by omega)] at this
  cases this

theorem FlatOn.getD {α : Type} {xs : List α} {a b : Nat} {c : α} (h : FlatOn xs a b c) (d : α) (k : Nat) (h1 : a ≤ k) (h2 : k ≤ b) :
    xs.getD k d = c := by
  rw [List.getD_eq_getElem?_getD, h k h1 h2]; rfl

theorem FlatOn.window {α : Type} {xs : List α} {w i : Nat} {c : α} (h : FlatOn xs (i + 1 - w) i c) (hw : w ≤ i + 1) (h0 : 1 ≤ w) :
    window xs w i = List.replicate w c := by
  have hi := h.lt (by omega)
  rw [List.eq_replicate_iff]
  refine ⟨window_length xs w i hi hw, ?_⟩
  intro x hx
  rw [window_eq_map xs c w i hi hw, List.mem_map] at hx
  obtain ⟨j, hj, rfl⟩ := hx
  rw [List.mem_range'_1] at hj
  exact h.getD c j hj.1 (by omega)

theorem npMedian_replicate (w : Nat) (c : K) (h0 : 1 ≤ w) : npMedian (List.replicate w c) = c := by
  have e : (List.replicate w c).insertionSort (· ≤ ·) = List.replicate w c := by
    rw [List.eq_replicate_iff]
    refine ⟨by rw [List.length_insertionSort, List.length_replicate], fun x hx => ?_⟩
    rw [List.mem_insertionSort] at hx
    exact List.eq_of_mem_replicate hx
  have g : ∀ k, k < w → (List.replicate w c).getD k 0 = c := by
    intro k hk
    rw [List.getD_eq_getElem?_getD, List.getElem?_replicate, if_pos hk]; rfl
  unfold npMedian
  simp only [e, List.length_replicate]
  split
  · exact g _ (by omega)
  · rw [g _ (by omega), g _ (by omega)]; ring

theorem sum_range'_const (f : Nat → K) (a n : Nat) (c : K) (h : ∀ k, a ≤ k → k < a + n → f k = c) :
    ((List.range' a n).map f).sum = (n : K) * c := by
  have : (List.range' a n).map f = List.replicate n c := by
    rw [List.eq_replicate_iff]
    refine ⟨by simp, fun x hx => ?_⟩
    rw [List.mem_map] at hx
    obtain ⟨k, hk, rfl⟩ := hx
    rw [List.mem_range'_1] at hk
    exact h k hk.1 hk.2
  rw [this, List.sum_replicate, nsmul_eq_mul]

/-! ## C166 -/

/-- **C166 (windows).** Where the last `w` values are all `c`, the moving average is `c`, the z-score and Bollinger's
%B are NaN, and the burst ratio is 1, or NaN unless `c` is positive. -/
theorem C166_window (sqrt : K → K) (hs : sqrt 0 = 0) (xs : List K) (w i ddof : Nat) (c numStd : K) (h0 : 1 ≤ w)
    (hw : w ≤ i + 1) (hf : FlatOn xs (i + 1 - w) i c) :
    (sma xs w)[i]? = some (some c) ∧ (zscore sqrt xs w ddof)[i]? = some none ∧
    (burstRatio xs w)[i]? = some (if 0 < c then some 1 else none) ∧
    (2 ≤ w → (bollingerB sqrt xs w numStd)[i]? = some none) := by
  have hi := hf.lt (by omega)
  have hwin := hf.window hw h0
  have hw0 : (w : K) ≠ 0 := by
    have : (0 : K) < (w : K) := by exact_mod_cast h0
    exact this.ne'
  refine ⟨?_, ?_, ?_, ?_⟩
  · unfold sma
    rw [rolling_get? _ _ _ _ hi, if_neg (by omega), hwin, List.sum_replicate, nsmul_eq_mul]
    congr 2
    field_simp
  · unfold zscore
    rw [rolling_get? _ _ _ _ hi, if_neg (by omega), hwin]
    unfold zscoreWin
    simp only [List.length_replicate, List.sum_replicate, nsmul_eq_mul, List.map_replicate, mul_div_cancel_left₀ c hw0, sub_self, ne_eq,
      OfNat.ofNat_ne_zero, not_false_eq_true, zero_pow, mul_zero, zero_div, hs, not_true_eq_false, if_false]
  · unfold burstRatio
    rw [rolling_get? _ _ _ _ hi, if_neg (by omega)]
    simp only [hwin, npMedian_replicate w c h0]
    congr 1
    have hl : (List.replicate w c).getLastD 0 = c := by
      have := window_getLastD xs 0 w i hi hw (by omega)
      rw [hwin] at this
      rw [this, hf.getD 0 i (by omega) (le_refl _)]
    rw [hl]
    split
    · rename_i hc; rw [div_self hc.ne']
    · rfl
  · intro h2
    unfold bollingerB
    rw [tabulate_get?, if_pos hi, if_neg (by omega), rollSumState_eq, rollSumState_eq]
    rw [sum_range'_const _ _ _ c (fun k a b => hf.getD 0 k a (by omega)),
      sum_range'_const _ _ _ (c ^ 2) (fun k a b => by rw [hf.getD 0 k a (by omega)])]
    unfold bollingerVal
    have e : (w : K) * c ^ 2 - (w : K) * ((w : K) * c / (w : K)) * ((w : K) * c / (w : K)) = 0 := by
      rw [mul_div_cancel_left₀ c hw0]; ring
    simp only [e, zero_div, max_self, hs, mul_zero, sub_zero, add_zero, gt_iff_lt, lt_irrefl, if_false]

example : FlatOn ([5, 3, 3, 3] : List ℚ) (3 + 1 - 3) 3 3 ∧
    (sma ([5, 3, 3, 3] : List ℚ) 3)[3]? = some (some 3) ∧ (burstRatio ([5, 3, 3, 3] : List ℚ) 3)[3]? = some (some 1) := by
  refine ⟨?_, by decide +kernel, by decide +kernel⟩
  intro k h1 h2
  have : k = 1 ∨ k = 2 ∨ k = 3 := by omega
  rcases this with rfl | rfl | rfl <;> rfl

/-- **C166 (rates of change).** A price equal to the one `p` bars earlier has rate of change 0; the percentage change
is NaN unless the price is positive. -/
theorem C166_rates (xs : List K) (p i : Nat) (c : K) (hp : p ≤ i) (h1 : xs[i]? = some c) (h2 : xs[i - p]? = some c) :
    (roc xs p)[i]? = some (some 0) ∧ (pctChange xs p)[i]? = some (if 0 < c then some 0 else none) := by
  have hi : i < xs.length := by
    by_contra hn
    rw [List.getElem?_eq_none (by omega)] at h1; cases h1
  have g1 : xs.getD i 0 = c := by rw [List.getD_eq_getElem?_getD, h1]; rfl
  have g2 : xs.getD (i - p) 0 = c := by rw [List.getD_eq_getElem?_getD, h2]; rfl
  constructor
  · unfold roc
    rw [tabulate_get?, if_pos hi, if_neg (by omega), g1, g2, sub_self, zero_div, zero_mul]
  · unfold pctChange
    rw [tabulate_get?, if_pos hi, if_neg (by omega)]
    simp only [g1, g2, sub_self, zero_div, gt_iff_lt]

example : (roc ([5, 3, 5] : List ℚ) 2)[2]? = some (some 0) ∧ (pctChange ([-5, 3, -5] : List ℚ) 2)[2]? = some none := by
  decide +kernel

/-- **C166 (RSI).** An unchanged price leaves the RSI as it was: with a period of at least 2 the average gain and the
average loss shrink by the same factor.  A flat market keeps the RSI of the last move. -/
theorem C166_rsi (xs : List K) (w i : Nat) (hw : 2 ≤ w) (hi : w ≤ i) (hl : i + 1 < xs.length)
    (hf : xs.getD (i + 1) 0 = xs.getD i 0) : (rsiWilder xs w)[i + 1]? = (rsiWilder xs w)[i]? := by
  have w1 : (1 : K) < (w : K) := by exact_mod_cast (show 1 < w by omega)
  have w0 : (0 : K) < (w : K) := by linarith
  unfold rsiWilder
  rw [tabulate_get?, tabulate_get?, if_pos hl, if_pos (show i < xs.length by omega), if_neg (show ¬ i + 1 < w by omega),
    if_neg (show ¬ i < w by omega)]
  rw [show i + 1 - w = (i - w) + 1 by omega]
  have eg : gainAt xs (i + 1) = 0 := by unfold gainAt; rw [Nat.add_sub_cancel, hf, sub_self, if_neg (lt_irrefl _)]
  have el : lossAt xs (i + 1) = 0 := by unfold lossAt; rw [Nat.add_sub_cancel, hf, sub_self, if_neg (lt_irrefl _)]
  rw [wilderAvg, wilderAvg, show w + (i - w + 1) = i + 1 by omega, eg, el, add_zero, add_zero]
  set g := wilderAvg (gainAt xs) w (i - w)
  set l := wilderAvg (lossAt xs) w (i - w)
  unfold rsiVal
  by_cases h : l > 0
  · have hpos : ((w : K) - 1) * l / (w : K) > 0 := div_pos (mul_pos (by linarith) h) w0
    rw [if_pos h, if_pos hpos]
    congr 4
    have a1 : (w : K) - 1 ≠ 0 := by linarith
    have a2 : l ≠ 0 := h.ne'
    field_simp
  · have hneg : ¬ ((w : K) - 1) * l / (w : K) > 0 := by
      have : ((w : K) - 1) * l ≤ 0 := mul_nonpos_of_nonneg_of_nonpos (by linarith) (not_lt.mp h)
      exact not_lt.mpr (div_nonpos_of_nonpos_of_nonneg this w0.le)
    rw [if_neg h, if_neg hneg]

example : rsiWilder ([5, 6, 4, 4, 4] : List ℚ) 2 = [none, none, some (100 / 3), some (100 / 3), some (100 / 3)] := by decide +kernel

/-- **C166 (RSI with period 1).** With period 1 the unchanged price makes the RSI NaN. -/
theorem C166_rsi_period_one : rsiWilder ([5, 6, 4, 4] : List ℚ) 1 = [none, none, some 0, none] := by decide +kernel

/-- **C166 (ADX).** On a bar that repeats the high and low of the bar before, both equal to the previous close, the
directional index is the one of the bar before. -/
theorem C166_adx (high low close : List K) (len i : Nat) (hlen : 2 ≤ len) (hi : len ≤ i) (c : K)
    (h1 : high.getD (i + 1) 0 = c) (h2 : high.getD i 0 = c) (h3 : low.getD (i + 1) 0 = c) (h4 : low.getD i 0 = c)
    (h5 : close.getD i 0 = c) : dxAt high low close len (i + 1) = dxAt high low close len i := by
  have w1 : (1 : K) < (len : K) := by exact_mod_cast (show 1 < len by omega)
  have w0 : (0 : K) < (len : K) := by linarith
  have et : trAt high low close (i + 1) = 0 := by
    unfold trAt; rw [Nat.add_sub_cancel, h1, h3, h5, sub_self, abs_zero, max_self, max_self]
  have ep : plusDm high low (i + 1) = 0 := by
    unfold plusDm; simp only [Nat.add_sub_cancel, h1, h2, h3, h4, sub_self, gt_iff_lt, lt_irrefl, and_self, if_false]
  have em : minusDm high low (i + 1) = 0 := by
    unfold minusDm; simp only [Nat.add_sub_cancel, h1, h2, h3, h4, sub_self, gt_iff_lt, lt_irrefl, and_self, if_false]
  have key : ∀ dm : Nat → K, dm (i + 1) = 0 → diAt (trAt high low close) dm len (i + 1 - len) = diAt (trAt high low close) dm len (i - len) := by
    intro dm hd
    unfold diAt
    rw [show i + 1 - len = (i - len) + 1 by omega, wilderSum, wilderSum, show len + (i - len + 1) = i + 1 by omega, et, hd,
      add_zero, add_zero]
    set t := wilderSum (trAt high low close) len (i - len)
    set d := wilderSum dm len (i - len)
    have a1 : (len : K) - 1 ≠ 0 := by linarith
    have f : ∀ x : K, x - x / (len : K) = x * (((len : K) - 1) / (len : K)) := by intro x; field_simp
    have fp : 0 < ((len : K) - 1) / (len : K) := div_pos (by linarith) w0
    rw [f t, f d]
    by_cases h : t > 0
    · rw [if_pos h, if_pos (show t * (((len : K) - 1) / (len : K)) > 0 from mul_pos h fp), mul_div_mul_right _ _ fp.ne']
    · rw [if_neg h, if_neg (not_lt.mpr (mul_nonpos_of_nonpos_of_nonneg (not_lt.mp h) fp.le))]
  unfold dxAt
  rw [if_neg (by omega), if_neg (by omega), key _ ep, key _ em]

example : dxAt ([5, 6, 7, 7, 7] : List ℚ) [5, 4, 7, 7, 7] [5, 5, 7, 7, 7] 2 4 = 100 ∧
    dxAt ([5, 6, 7, 7, 7] : List ℚ) [5, 4, 7, 7, 7] [5, 5, 7, 7, 7] 2 3 = 100 := by decide +kernel

/-- **C166 (stochastic oscillator).** NaN where lows and highs of the window are all the same. -/
theorem C166_stoch (close low high : List K) (len t : Nat) (hlen : 1 ≤ len) (hle : len ≤ t + 1) (ht : t < close.length)
    (hl : low.length = close.length) (hh : high.length = close.length) (c : K)
    (h1 : FlatOn low (t + 1 - len) t c) (h2 : FlatOn high (t + 1 - len) t c) : (stochK close low high len)[t]? = some none := by
  have m1 : IsMinOn (fun j => low.getD j 0) (t + 1 - len) t c :=
    ⟨⟨t, by omega, le_refl _, h1.getD 0 t (by omega) (le_refl _)⟩, fun j a b => (h1.getD 0 j a b).ge⟩
  have m2 : IsMaxOn (fun j => high.getD j 0) (t + 1 - len) t c :=
    ⟨⟨t, by omega, le_refl _, h2.getD 0 t (by omega) (le_refl _)⟩, fun j a b => (h2.getD 0 j a b).le⟩
  rw [(C33_stoch_window close low high len t hlen ht hl hh).2 hle c c m1 m2, if_neg (lt_irrefl _)]

example : stochK ([5, 3, 3] : List ℚ) [5, 3, 3] [5, 3, 3] 2 = [none, some 0, none] := by decide +kernel

/-- **C166 (distance from the VWAP).** 0 where the closes of the window are all the same non-zero price and the window
has volume. -/
theorem C166_vwap (log : K → K) (hlog : log 1 = 0) (close volume : List K) (np i : Nat) (isLog : Bool) (c : K) (hnp : 1 ≤ np)
    (hle : np ≤ i + 1) (hc : c ≠ 0) (hf : FlatOn close (i + 1 - np) i c)
    (hv : 0 < ((List.range' (i + 1 - np) np).map (fun k => volume.getD k 0)).sum) :
    (vwapDistance log close volume np isLog)[i]? = some (some 0) := by
  have hi := hf.lt (by omega)
  have e : rollSumState (fun k => close.getD k 0 * volume.getD k 0) np (i + 1 - np) =
      c * rollSumState (fun k => volume.getD k 0) np (i + 1 - np) := by
    rw [rollSumState_eq, rollSumState_eq, ← List.sum_map_mul_left]
    congr 1
    apply List.map_congr_left
    intro k hk
    rw [List.mem_range'_1] at hk
    rw [hf.getD 0 k hk.1 (by omega)]
  have hv' : 0 < rollSumState (fun k => volume.getD k 0) np (i + 1 - np) := by rw [rollSumState_eq]; exact hv
  unfold vwapDistance
  rw [tabulate_get?, if_pos hi, if_neg (by omega)]
  generalize hm : i + 1 - np = m at e hv'
  have hq : c / (c * rollSumState (fun k => volume.getD k 0) np m / rollSumState (fun k => volume.getD k 0) np m) = 1 := by
    rw [mul_div_cancel_right₀ _ hv'.ne', div_self hc]
  congr 1
  cases m with
  | zero =>
    simp only [vwapOut]
    rw [if_pos hv', e, hf.getD 0 (np - 1) (by omega) (by omega), hq, sub_self]
  | succ m =>
    simp only [vwapOut]
    rw [if_pos hv', e, hf.getD 0 (np + m) (by omega) (by omega), hq, sub_self, hlog]
    simp

example : (vwapDistance (fun x : ℚ => x - 1) [5, 3, 3] [1, 2, 0] 2 true)[2]? = some (some 0) := by decide +kernel

/-- **C166 (correlation).** With a window of at least 2, the price-volume correlation is NaN where the price has not
moved, whatever the volumes. -/
theorem C166_correlation (sqrt : K → K) (price volume : List (Option K)) (w i : Nat) (c : K) (hw : 2 ≤ w) (hi : i < price.length)
    (hf : FlatOn price (i - w) i (some c)) : (priceVolumeCorrelation sqrt price volume w)[i]? = some none := by
  unfold priceVolumeCorrelation
  rw [tabulate_get?, if_pos hi]
  congr 1
  unfold corrAt
  by_cases h1 : i < w
  · rw [if_pos h1]
  rw [if_neg h1]
  have hret : ∀ j, i + 1 - w ≤ j → j ≤ i → ∀ r, simpleReturn price j = some r → r = 0 := by
    intro j a b r hr
    unfold simpleReturn at hr
    rw [if_neg (by omega), hf.getD none j (by omega) b, hf.getD none (j - 1) (by omega) (by omega)] at hr
    simp only [sub_self, zero_div] at hr
    split at hr
    · exact (Option.some.inj hr).symm
    · cases hr
  have hnd : noDecrease price w i = false := by
    unfold noDecrease
    rw [List.all_eq_false]
    refine ⟨i - 1, ?_, ?_⟩
    · rw [List.mem_range'_1]; omega
    · rw [hf.getD none (i - 1 + 1) (by omega) (by omega), hf.getD none (i - 1) (by omega) (by omega)]
      simp [optLe]
  split
  · rfl
  rw [if_neg (by rw [hnd]; simp), if_neg (by rw [hnd]; simp)]
  have hz : ∀ p ∈ validPairs price volume w i, p.1 = 0 := by
    intro p hp
    unfold validPairs at hp
    rw [List.mem_filterMap] at hp
    obtain ⟨j, hj, hp⟩ := hp
    rw [List.mem_range'_1] at hj
    unfold bothSome at hp
    split at hp
    · rename_i x y hx hy
      rw [← Option.some.inj hp]
      exact hret j hj.1 (by omega) x hx
    · cases hp
  unfold corrOf
  split
  · rfl
  have s0 : ((validPairs price volume w i).map (·.1)).sum = 0 := by
    apply List.sum_eq_zero
    intro x hx
    rw [List.mem_map] at hx
    obtain ⟨p, hp, rfl⟩ := hx
    exact hz p hp
  simp only [s0, zero_div, sub_zero]
  rw [if_neg]
  rintro ⟨h, -⟩
  have : ((validPairs price volume w i).map (fun p => p.1 * p.1)).sum = 0 := by
    apply List.sum_eq_zero
    intro x hx
    rw [List.mem_map] at hx
    obtain ⟨p, hp, rfl⟩ := hx
    rw [hz p hp, mul_zero]
  rw [this] at h
  exact absurd h (lt_irrefl _)

example : priceVolumeCorrelation (fun x : ℚ => x) [some 3, some 3, some 3, some 3] [some 1, some 2, some 3, some 5] 3 =
    [none, none, none, none] := by decide +kernel

/-- **C166 (correlation with window 1).** With a window of 1 the shortcut of the first ten bars reports a correlation
of 1 on prices that do not move. -/
theorem C166_correlation_window_one :
    (priceVolumeCorrelation (fun x : ℚ => x) (List.replicate 6 (some 3)) [some 1, some 2, some 3, some 5, some 2, some 1] 1) =
      [none, none, none, none, some 1, some 1] := by decide +kernel

/-- **C166 (volatility).** A window of zero returns has realised volatility 0, a window of equal values variance 0,
equal high and low give a Parkinson range of 0, and a bar at the previous close has true range 0. -/
theorem C166_volatility (sqrt log : K → K) (hs : sqrt 0 = 0) (hlog : log 1 = 0) (xs : List (Option K)) (high low : List K)
    (hi3 lo3 cl3 : List (Option K)) (w i ddof mp : Nat) (isSample : Bool) (c : K) (hw : 2 ≤ w) (hle : w ≤ i + 1) (hd : ddof < w)
    (hmp : mp ≤ w) :
    (FlatOn xs (i + 1 - w) i (some 0) → (realizedVol sqrt xs w isSample)[i]? = some (some 0)) ∧
    (FlatOn xs (i + 1 - w) i (some c) → (rollingVariance xs w ddof mp)[i]? = some (some 0)) ∧
    (c ≠ 0 → high[i]? = some c → low[i]? = some c → (parkinson log high low)[i]? = some 0) ∧
    (hi3[i]? = some (some c) → lo3[i]? = some (some c) → cl3[i - 1]? = some (some c) → trueRangeAt hi3 lo3 cl3 i = some 0) := by
  have hv : ∀ c : K, validOf (List.replicate w (some c)) = List.replicate w c := by
    intro c; unfold validOf; exact List.filterMap_replicate_of_some (f := id) rfl
  refine ⟨?_, ?_, ?_, ?_⟩
  · intro hf
    unfold realizedVol
    rw [rolling_get? _ _ _ _ (hf.lt (by omega)), if_neg (by omega), hf.window hle (by omega)]
    unfold realizedWin
    simp only [hv]
    rw [if_pos (by rw [List.length_replicate]; omega)]
    simp [hs]
  · intro hf
    unfold rollingVariance
    rw [rolling_get? _ _ _ _ (hf.lt (by omega)), if_neg (by omega), hf.window hle (by omega)]
    unfold varWin
    simp only [hv, List.length_replicate]
    rw [if_pos hmp, if_pos hd]
    have hw0 : (w : K) ≠ 0 := by
      have : (0 : K) < (w : K) := by exact_mod_cast (show 0 < w by omega)
      exact this.ne'
    simp only [List.map_replicate, List.sum_replicate, nsmul_eq_mul, mul_div_cancel_left₀ _ hw0, sub_self, zero_mul, max_self]
  · intro hc h1 h2
    have hi : i < high.length := by
      by_contra hn
      rw [List.getElem?_eq_none (by omega)] at h1; cases h1
    unfold parkinson
    rw [tabulate_get?, if_pos hi]
    simp only [List.getD_eq_getElem?_getD, h1, h2, Option.getD_some, div_self hc, hlog]
    simp
  · intro h1 h2 h3
    unfold trueRangeAt
    split
    · rename_i h0
      subst h0
      simp only [List.getD_eq_getElem?_getD, h1, h2, Option.getD_some, sub_self]
    · simp only [List.getD_eq_getElem?_getD, h1, h2, h3, Option.getD_some, sub_self, abs_zero, max_self]

example : realizedVol (fun x : ℚ => x) [some 1, some 0, some 0] 2 true = [none, some 1, some 0] ∧
    rollingVariance ([some 1, some 4, some 4] : List (Option ℚ)) 2 1 1 = [none, some (9 / 2), some 0] ∧
    trueRangeAt ([some 5, some 4] : List (Option ℚ)) [some 3, some 4] [some 4, some 4] 1 = some 0 := by decide +kernel

/-- **C166 (CUSUM filter).** Prices that never move give no event, if the thresholds are not negative. -/
theorem C166_cusum (log : K → K) (hlog : log 1 = 0) (series threshold : List K) (c : K) (hc : c ≠ 0) (h2 : 2 ≤ series.length)
    (hf : FlatOn series 0 (series.length - 1) c) (ht : threshold.length = 1 ∨ threshold.length = series.length)
    (hpos : ∀ x ∈ threshold, 0 ≤ x) : cusumFilter log series threshold = .ok [] := by
  have hloop : ∀ (l : List (K × K)) (i : Nat), (∀ x ∈ l, x.1 = 0 ∧ 0 ≤ x.2) → cusumFilterLoop i 0 0 l = [] := by
    intro l
    induction l with
    | nil => intro i _; rfl
    | cons x l ih =>
      intro i h
      obtain ⟨r, t⟩ := x
      obtain ⟨e, p⟩ := h (r, t) List.mem_cons_self
      simp only at e p
      subst e
      simp only [cusumFilterLoop, add_zero, max_self, min_self]
      rw [if_neg (by simpa using p), if_neg (by simpa using p)]
      exact ih _ (fun x hx => h x (List.mem_cons_of_mem _ hx))
  unfold cusumFilter
  rw [if_neg (by omega), if_neg (by omega)]
  dsimp only
  congr 1
  apply hloop
  intro x hx
  rw [List.mem_map] at hx
  obtain ⟨i, hi, rfl⟩ := hx
  rw [List.mem_range'_1] at hi
  refine ⟨?_, ?_⟩
  · show log (series.getD i 0 / series.getD (i - 1) 0) = 0
    rw [hf.getD 0 i (by omega) (by omega), hf.getD 0 (i - 1) (by omega) (by omega), div_self hc, hlog]
  · have hget : ∀ (l : List K) (k : Nat), (∀ x ∈ l, 0 ≤ x) → 0 ≤ l.getD k 0 := by
      intro l k h
      by_cases hk : k < l.length
      · rw [List.getD_eq_getElem _ _ hk]; exact h _ (List.getElem_mem hk)
      · rw [List.getD_eq_getElem?_getD, List.getElem?_eq_none (by omega)]; exact le_refl _
    show 0 ≤ (if threshold.length = 1 then List.replicate series.length (threshold.getD 0 0) else threshold).getD i 0
    split
    · apply hget
      intro y hy
      rw [List.eq_of_mem_replicate hy]
      exact hget _ _ hpos
    · exact hget _ _ hpos

example : cusumFilter (fun x : ℚ => x - 1) [3, 3, 3] [0] = .ok [] ∧ cusumFilter (fun x : ℚ => x - 1) [3, 3, 3] [-1] = .ok [1, 2] := by
  decide +kernel

/-- **C166 (labels).** With a positive target and positive finite multipliers, an event followed by unchanged prices
up to its vertical barrier ends there with return 0, and its label is 1 (without meta-labelling). -/
theorem C166_label (p : TbmParams K) {ts : List Int} (hs : ts.Pairwise (· ≤ ·)) (logc : List K) {i0 : Nat} (hi : i0 < ts.length)
    (tgt a b : K) (side : Int) (hv : ∀ x, p.vertical = some x → 0 < x) (t1 : Nat) (hvb : IsVerticalBar ts i0 p.vertical t1)
    (h01 : i0 < t1) (c : K) (hf : FlatOn logc i0 t1 c) (htgt : 0 < tgt) (ha : p.top = .fin a) (hb : p.bottom = .fin b) (ha0 : 0 < a)
    (hb0 : 0 < b) :
    (tbmEvent p ts logc false i0 tgt side).label = 1 ∧ (tbmEvent p ts logc false i0 tgt side).touch = some t1 ∧
      (tbmEvent p ts logc false i0 tgt side).ret = some 0 := by
  have hr : ∀ j, i0 ≤ j → j ≤ t1 → pathReturn logc i0 side j = 0 := by
    intro j h1 h2
    unfold pathReturn
    rw [hf.getD 0 j h1 h2, hf.getD 0 i0 (le_refl _) h01.le, sub_self, zero_mul]
  have hno : ∀ j, Closable ts i0 t1 p.minClose j →
      ¬ (UpperHit p.top tgt (pathReturn logc i0 side j) ∨ LowerHit p.bottom tgt (pathReturn logc i0 side j)) := by
    intro j hj
    rw [hr j hj.1.le hj.2.1, ha, hb]
    have m1 := mul_pos htgt ha0
    have m2 := mul_pos htgt hb0
    rintro (h | h)
    · exact absurd (show tgt * a ≤ 0 from h) (not_le.mpr m1)
    · have : (0 : K) ≤ -(tgt * b) := h
      linarith
  obtain ⟨touch, r, ratio, e, h⟩ := tbmEvent_at p hs logc false hi tgt side hv t1 hvb h01
  rw [e]
  rcases h with h | ⟨-, h1, h2⟩
  · obtain ⟨g1, g2, g3, -⟩ := h
    rw [g2] at g3
    exact absurd g3 (hno _ g1)
  · rw [hr t1 h01.le (le_refl _), ite_self] at h2
    subst h1 h2
    simp

example : (tbmEvent (⟨.fin 1, .fin 1, some 100, 0, 0⟩ : TbmParams ℚ) [0, 10, 20, 200] [3, 3, 3, 4] false 0 2 1).label = 1 ∧
    (tbmEvent (⟨.fin 1, .fin 1, some 100, 0, 0⟩ : TbmParams ℚ) [0, 10, 20, 200] [3, 3, 3, 4] false 0 2 1).touch = some 2 := by
  decide +kernel

end FinML
