/-
C34: bounded oscillators (`momentum.py` `rsi_wilder`, `stoch_k`; `trend.py` `adx_core`; `volume.py` `vpin`; `correlation.py`;
`transforms.py` `StochK`).
-/
import Verif.Props.Ewma
import Verif.Props.Rolling

set_option linter.unusedSectionVars false

namespace FinML

variable {K : Type} [Field K] [LinearOrder K] [IsStrictOrderedRing K]

/-! ## RSI -/

/-- Wilder average at position `i ≥ w` of the values `x 1, …, x i`: the mean of the first `w` decayed by `((w-1)/w)^(i-w)`, plus the
later values with weight `((w-1)/w)^age / w`. -/
def wilderMean (x : Nat → K) (w i : Nat) : K :=
  (((w : K) - 1) / (w : K)) ^ (i - w) * (((List.range' 1 w).map x).sum / (w : K)) +
    ((List.range (i - w)).map (fun k => (((w : K) - 1) / (w : K)) ^ k * x (i - k))).sum / (w : K)

theorem wilderMean_nonneg (x : Nat → K) (w i : Nat) (hw : 1 ≤ w) (hx : ∀ j, 0 ≤ x j) : 0 ≤ wilderMean x w i := by
  have hw1 : (1 : K) ≤ (w : K) := by exact_mod_cast hw
  have hq : 0 ≤ ((w : K) - 1) / (w : K) := div_nonneg (by linarith) (by linarith)
  unfold wilderMean
  apply add_nonneg
  · exact mul_nonneg (pow_nonneg hq _) (div_nonneg (sum_map_nonneg _ _ (fun j _ => hx j)) (by linarith))
  · exact div_nonneg (sum_map_nonneg _ _ (fun j _ => mul_nonneg (pow_nonneg hq _) (hx _))) (by linarith)

theorem gainAt_eq (xs : List K) (i : Nat) : gainAt xs i = max (xs.getD i 0 - xs.getD (i - 1) 0) 0 := by
  unfold gainAt
  split
  · rename_i h; rw [max_eq_left (le_of_lt h)]
  · rename_i h; rw [max_eq_right (not_lt.mp h)]

theorem lossAt_eq (xs : List K) (i : Nat) : lossAt xs i = max (xs.getD (i - 1) 0 - xs.getD i 0) 0 := by
  unfold lossAt
  split
  · rename_i h; rw [max_eq_left (by linarith)]; ring
  · rename_i h; rw [max_eq_right (by linarith [not_lt.mp h])]

/-- **C34.**  RSI is NaN before position `w`, and then `100 G / (G + L)` with `G`, `L` the Wilder averages of the upward and downward
moves, NaN if `L = 0`. -/
theorem C34_rsi_formula (xs : List K) (w i : Nat) (hw : 1 ≤ w) (hi : i < xs.length) :
    (i < w → (rsiWilder xs w)[i]? = some none) ∧
    (w ≤ i →
      let G := wilderMean (fun j => max (xs.getD j 0 - xs.getD (j - 1) 0) 0) w i
      let L := wilderMean (fun j => max (xs.getD (j - 1) 0 - xs.getD j 0) 0) w i
      0 ≤ G ∧ 0 ≤ L ∧ (rsiWilder xs w)[i]? = some (if L > 0 then some (100 * G / (G + L)) else none)) := by
  unfold rsiWilder
  rw [tabulate_get?, if_pos hi]
  refine ⟨fun h => by rw [if_pos h], ?_⟩
  intro h G L
  have hG : 0 ≤ G := wilderMean_nonneg _ _ _ hw (fun j => le_max_right _ _)
  have hL : 0 ≤ L := wilderMean_nonneg _ _ _ hw (fun j => le_max_right _ _)
  refine ⟨hG, hL, ?_⟩
  have e1 : wilderAvg (gainAt xs) w (i - w) = G := by
    rw [wilderAvg_closed_form _ _ _ hw, show gainAt xs = fun j => max (xs.getD j 0 - xs.getD (j - 1) 0) 0 from funext (gainAt_eq xs),
      show w + (i - w) = i by omega]
    rfl
  have e2 : wilderAvg (lossAt xs) w (i - w) = L := by
    rw [wilderAvg_closed_form _ _ _ hw, show lossAt xs = fun j => max (xs.getD (j - 1) 0 - xs.getD j 0) 0 from funext (lossAt_eq xs),
      show w + (i - w) = i by omega]
    rfl
  rw [if_neg (by omega), e1, e2]
  unfold rsiVal
  by_cases hp : L > 0
  · rw [if_pos hp, if_pos hp]
    have h1 : G + L ≠ 0 := by linarith
    have h2 : 1 + G / L ≠ 0 := by have := div_nonneg hG hL; linarith
    have h3 : L ≠ 0 := ne_of_gt hp
    congr 2
    field_simp
    ring
  · rw [if_neg hp, if_neg hp]

example : rsiWilder [1, 2, 1, 3, (3 : ℚ)] 2 = [none, none, some 50, some (500 / 6), some (500 / 6)] := by decide +kernel

/-- **C34.**  RSI lies in `[0, 100)`. -/
theorem C34_rsi_range (xs : List K) (w i : Nat) (hw : 1 ≤ w) (x : K) (h : (rsiWilder xs w)[i]? = some (some x)) :
    0 ≤ x ∧ x < 100 := by
  have hi : i < xs.length := by
    by_contra hc
    rw [List.getElem?_eq_none (by unfold rsiWilder; rw [length_tabulate]; omega)] at h
    cases h
  obtain ⟨h1, h2⟩ := C34_rsi_formula xs w i hw hi
  by_cases hlt : i < w
  · rw [h1 hlt] at h; simp at h
  obtain ⟨hG, hL, hv⟩ := h2 (by omega)
  rw [hv] at h
  injection h with h
  split at h
  · rename_i hp
    injection h with h
    rw [← h]
    constructor
    · exact div_nonneg (by linarith) (by linarith)
    · rw [div_lt_iff₀ (by linarith)]; linarith
  · cases h

example : (rsiWilder ([1, 2, 1, 2] : List ℚ) 2)[3]? = some (some 75) := by decide +kernel

/-- **C34.**  With no downward move at all RSI is NaN, not 100. -/
theorem C34_rsi_no_loss_is_nan (xs : List K) (w i : Nat) (hw : 1 ≤ w) (hi : i < xs.length)
    (hup : ∀ j, 1 ≤ j → xs.getD (j - 1) 0 ≤ xs.getD j 0) : (rsiWilder xs w)[i]? = some none := by
  obtain ⟨h1, h2⟩ := C34_rsi_formula xs w i hw hi
  by_cases hlt : i < w
  · exact h1 hlt
  obtain ⟨-, -, hv⟩ := h2 (by omega)
  rw [hv, if_neg]
  have : wilderMean (fun j => max (xs.getD (j - 1) 0 - xs.getD j 0) 0) w i = 0 := by
    have hz : (fun j => max (xs.getD (j - 1) 0 - xs.getD j 0) 0) = fun _ => (0 : K) := by
      funext j
      rw [max_eq_right]
      by_cases hj : 1 ≤ j
      · linarith [hup j hj]
      · rw [show j = 0 by omega]; simp
    rw [hz]; simp [wilderMean]
  rw [this]; exact lt_irrefl _

example : rsiWilder [1, 2, (3 : ℚ)] 2 = [none, none, none] := by decide +kernel

/-! ## %K -/

/-- **C34.**  `stoch_k` lies in `[0, 100]` whenever every close is between its bar's low and high. -/
theorem C34_stoch_range (close low high : List K) (len t : Nat) (hlen : 1 ≤ len) (hl : low.length = close.length)
    (hh : high.length = close.length) (hc : ∀ j, low.getD j 0 ≤ close.getD j 0 ∧ close.getD j 0 ≤ high.getD j 0) (x : K)
    (h : (stochK close low high len)[t]? = some (some x)) : 0 ≤ x ∧ x ≤ 100 := by
  have ht : t < close.length := by
    by_contra hc
    rw [List.getElem?_eq_none (by unfold stochK; rw [length_tabulate]; omega)] at h
    cases h
  obtain ⟨h1, h2⟩ := C33_stoch_window close low high len t hlen ht hl hh
  by_cases hlt : t + 1 < len
  · rw [h1 hlt] at h; simp at h
  obtain ⟨e1, e2⟩ := C33_stoch_extremes low high len (t + 1 - len) hlen (by omega) (by omega)
  rw [show len - 1 + (t + 1 - len) = t by omega] at e1 e2
  rw [h2 (by omega) _ _ e1 e2] at h
  injection h with h
  split at h
  · rename_i hp
    injection h with h
    have a1 := e1.2 t (by omega) (le_refl _)
    have a2 := e2.2 t (by omega) (le_refl _)
    simp only at a1 a2
    have b := hc t
    rw [← h]
    constructor
    · exact div_nonneg (by linarith) (by linarith)
    · rw [div_le_iff₀ (by linarith)]; linarith
  · cases h

example : (stochK ([2, 3] : List ℚ) [1, 1] [4, 4] 2)[1]? = some (some (200 / 3)) ∧
    (∀ j < 2, ([1, 1] : List ℚ).getD j 0 ≤ ([2, 3] : List ℚ).getD j 0 ∧ ([2, 3] : List ℚ).getD j 0 ≤ ([4, 4] : List ℚ).getD j 0) := by decide +kernel

/-- **C34 fails for the feature.**  The `StochK` transform passes high where the close is expected and close where the high is
expected: with low ≤ close ≤ high it can exceed 100. -/
theorem C34_stochK_feature_out_of_range :
    ∃ (high low close : List ℚ) (t : Nat) (x : ℚ), (∀ j, low.getD j 0 ≤ close.getD j 0 ∧ close.getD j 0 ≤ high.getD j 0) ∧
      (stochKFeature high low close 1)[t]? = some (some x) ∧ 100 < x := by
  refine ⟨[10], [1], [2], 0, 900, ?_, by decide +kernel, by norm_num⟩
  intro j
  cases j with
  | zero => norm_num
  | succ j => simp

/-- **C34 fails for the feature.**  The transform computes
`100 (high - lo) / (max close - lo)`. -/
theorem C34_stochK_feature_formula (high low close : List K) (len t : Nat) (hlen : 1 ≤ len) (ht : t < high.length)
    (hl : low.length = high.length) (hh : close.length = high.length) (hle : len ≤ t + 1) (lo hi : K)
    (h1 : IsMinOn (fun j => low.getD j 0) (t + 1 - len) t lo) (h2 : IsMaxOn (fun j => close.getD j 0) (t + 1 - len) t hi) :
    (stochKFeature high low close len)[t]? = some (if hi > lo then some (100 * (high.getD t 0 - lo) / (hi - lo)) else none) :=
  (C33_stoch_window high low close len t hlen ht hl hh).2 hle lo hi h1 h2

example : (stochKFeature [4, (5 : ℚ)] [1, 2] [3, 3] 2)[1]? = some (some 200) := by decide +kernel

/-! ## ADX -/

theorem wilderSum_mono (x y : Nat → K) (len m : Nat) (hl : 1 ≤ len) (h : ∀ j, 1 ≤ j → x j ≤ y j) : wilderSum x len m ≤ wilderSum y len m := by
  have hl1 : (1 : K) ≤ (len : K) := by exact_mod_cast hl
  have hq : 0 ≤ 1 - 1 / (len : K) := by
    rw [sub_nonneg, div_le_one (by linarith)]; exact hl1
  rw [wilderSum_closed_form, wilderSum_closed_form]
  apply add_le_add
  · apply mul_le_mul_of_nonneg_left _ (pow_nonneg hq _)
    apply sum_map_le
    intro a ha
    rw [List.mem_range'_1] at ha
    exact h a ha.1
  · apply sum_map_le
    intro a ha
    have := List.mem_range.mp ha
    exact mul_le_mul_of_nonneg_left (h _ (by omega)) (pow_nonneg hq _)

theorem wilderSum_nonneg (x : Nat → K) (len m : Nat) (hl : 1 ≤ len) (h : ∀ j, 1 ≤ j → 0 ≤ x j) : 0 ≤ wilderSum x len m := by
  have := wilderSum_mono (fun _ => 0) x len m hl h
  rwa [show wilderSum (fun _ => (0 : K)) len m = 0 by rw [wilderSum_closed_form]; simp] at this

/-- **C34.**  A directional indicator whose movement is non-negative and never exceeds the true range lies in `[0, 100]`. -/
theorem C34_di_range (tr dm : Nat → K) (len m : Nat) (hl : 1 ≤ len) (h0 : ∀ j, 1 ≤ j → 0 ≤ dm j) (h1 : ∀ j, 1 ≤ j → dm j ≤ tr j) :
    0 ≤ diAt tr dm len m ∧ diAt tr dm len m ≤ 100 := by
  unfold diAt
  split
  · rename_i hp
    have a := wilderSum_nonneg dm len m hl h0
    have b := wilderSum_mono dm tr len m hl h1
    constructor
    · exact mul_nonneg (by norm_num) (div_nonneg a hp.le)
    · have : wilderSum dm len m / wilderSum tr len m ≤ 1 := by rw [div_le_one hp]; exact b
      linarith
  · constructor <;> norm_num

example : diAt (fun _ => (4 : ℚ)) (fun j => if j = 1 then 1 else 2) 2 0 = 37.5 := by decide +kernel

theorem plusDm_nonneg (high low : List K) (i : Nat) : 0 ≤ plusDm high low i := by
  unfold plusDm
  simp only
  split
  · rename_i h; exact h.2.le
  · exact le_refl _

theorem minusDm_nonneg (high low : List K) (i : Nat) : 0 ≤ minusDm high low i := by
  unfold minusDm
  simp only
  split
  · rename_i h; exact h.2.le
  · exact le_refl _

theorem trAt_nonneg (high low close : List K) (i : Nat) : 0 ≤ trAt high low close i :=
  le_trans (abs_nonneg _) (le_max_right _ _)

/-- **C34.**  With closes inside their bars, the upward and downward directional movements never exceed the true range. -/
theorem C34_directional_movement_le_true_range (high low close : List K) (i : Nat) (_h : 1 ≤ i)
    (hc : low.getD (i - 1) 0 ≤ close.getD (i - 1) 0 ∧ close.getD (i - 1) 0 ≤ high.getD (i - 1) 0) :
    plusDm high low i ≤ trAt high low close i ∧ minusDm high low i ≤ trAt high low close i ∧
    ¬ (plusDm high low i > 0 ∧ minusDm high low i > 0) := by
  have hn := trAt_nonneg high low close i
  refine ⟨?_, ?_, ?_⟩
  · unfold plusDm
    simp only
    split
    · have : |high.getD i 0 - close.getD (i - 1) 0| ≤ trAt high low close i := le_trans (le_max_right _ _) (le_max_left _ _)
      have := le_abs_self (high.getD i 0 - close.getD (i - 1) 0)
      linarith [hc.2]
    · exact hn
  · unfold minusDm
    simp only
    split
    · have : |low.getD i 0 - close.getD (i - 1) 0| ≤ trAt high low close i := le_max_right _ _
      have := neg_abs_le (low.getD i 0 - close.getD (i - 1) 0)
      linarith [hc.1]
    · exact hn
  · unfold plusDm minusDm
    simp only
    rintro ⟨h1, h2⟩
    split at h1
    · rename_i a
      split at h2
      · rename_i b; linarith [a.1, b.1]
      · exact lt_irrefl _ h2
    · exact lt_irrefl _ h1

theorem dxVal_range (p m : K) (hp : 0 ≤ p) (hm : 0 ≤ m) : 0 ≤ dxVal p m ∧ dxVal p m ≤ 100 := by
  unfold dxVal
  split
  · rename_i h
    have h1 : |p - m| / (p + m) ≤ 1 := by
      rw [div_le_one h, abs_le]; constructor <;> linarith
    have h2 : 0 ≤ |p - m| / (p + m) := div_nonneg (abs_nonneg _) h.le
    constructor <;> linarith
  · constructor <;> norm_num

theorem dxAt_range (high low close : List K) (len i : Nat) (hl : 1 ≤ len) : 0 ≤ dxAt high low close len i ∧ dxAt high low close len i ≤ 100 := by
  have hdi : ∀ dm : Nat → K, (∀ j, 0 ≤ dm j) → ∀ m, 0 ≤ diAt (trAt high low close) dm len m := by
    intro dm hdm m
    unfold diAt
    split
    · rename_i hp
      exact mul_nonneg (by norm_num) (div_nonneg (wilderSum_nonneg dm len m hl (fun j _ => hdm j)) hp.le)
    · exact le_refl _
  unfold dxAt
  split
  · constructor <;> norm_num
  · exact dxVal_range _ _ (hdi _ (plusDm_nonneg high low) _) (hdi _ (minusDm_nonneg high low) _)

theorem adxState_range (dx : Nat → K) (len m : Nat) (hl : 1 ≤ len) (h : ∀ i, 0 ≤ dx i ∧ dx i ≤ 100) :
    0 ≤ adxState dx len m ∧ adxState dx len m ≤ 100 := by
  have hl1 : (1 : K) ≤ (len : K) := by exact_mod_cast hl
  induction m with
  | zero =>
    rw [adxState]
    constructor
    · exact div_nonneg (sum_map_nonneg _ _ (fun a _ => (h a).1)) (by linarith)
    · rw [div_le_iff₀ (by linarith)]
      have := sum_map_le (List.range' len len) dx (fun _ => 100) (fun a _ => (h a).2)
      simp at this
      linarith
  | succ m ih =>
    rw [adxState]
    constructor
    · exact div_nonneg (add_nonneg (mul_nonneg ih.1 (by linarith)) (h _).1) (by linarith)
    · rw [div_le_iff₀ (by linarith)]
      have a := mul_le_mul_of_nonneg_right ih.2 (by linarith : (0 : K) ≤ (len : K) - 1)
      have b := (h (2 * len + m)).2
      nlinarith

/-- **C34.**  ADX lies in `[0, 100]` for every input. -/
theorem C34_adx_range (high low close : List K) (len i : Nat) (hl : 1 ≤ len) (x : K) (h : (adxCore high low close len)[i]? = some x) :
    0 ≤ x ∧ x ≤ 100 := by
  unfold adxCore at h
  rw [tabulate_get?] at h
  split at h
  · injection h with h
    rw [← h]
    split
    · constructor <;> norm_num
    · exact adxState_range _ _ _ hl (fun i => dxAt_range high low close len i hl)
  · cases h

example : (adxCore ([3, 4, 5, 7, 6] : List ℚ) [1, 2, 3, 4, 4] [2, 3, 4, 6, 5] 2)[4]? ≠ none ∧
    adxCore ([3, 4, 5, 7, 6] : List ℚ) [1, 2, 3, 4, 4] [2, 3, 4, 6, 5] 2 ≠ [0, 0, 0, 0, 0] := by decide +kernel

/-- **C34.**  From position `2 len - 1` on, ADX is the Wilder average of DX, started from the mean of the first `len` values; before that
it is 0. -/
theorem C34_adx_formula (high low close : List K) (len i : Nat) (hl : 1 ≤ len) (hi : i < high.length) :
    (adxCore high low close len)[i]? = some (if i + 1 < 2 * len then 0 else
      wilderMean (fun j => dxAt high low close len (len - 1 + j)) len (i - (len - 1))) := by
  unfold adxCore
  rw [tabulate_get?, if_pos hi]
  congr 1
  by_cases h : i + 1 < 2 * len
  · rw [if_pos h, if_pos h]
  rw [if_neg h, if_neg h]
  have key : ∀ m, adxState (dxAt high low close len) len m = wilderAvg (fun j => dxAt high low close len (len - 1 + j)) len m := by
    intro m
    induction m with
    | zero =>
      rw [adxState, wilderAvg]
      congr 2
      rw [List.range'_eq_map_range, List.range'_eq_map_range, List.map_map, List.map_map]
      apply List.map_congr_left
      intro k _
      simp only [Function.comp_apply]
      congr 1
      omega
    | succ m ih =>
      rw [adxState, wilderAvg, ih, show len - 1 + (len + (m + 1)) = 2 * len + m by omega]
      ring
  rw [key, wilderAvg_closed_form _ _ _ hl]
  unfold wilderMean
  rw [show i - (len - 1) - len = i + 1 - 2 * len by omega, show len + (i + 1 - 2 * len) = i - (len - 1) by omega]

example : adxCore [2, 3, 4, (4 : ℚ)] [1, 2, 3, 2] [2, 3, 4, 3] 1 = [0, 100, 100, 100] := by decide +kernel

/-! ## VPIN and correlation -/

/-- **C34.**  With non-negative volumes and a non-negative threshold, VPIN lies in `[0, 1]`. -/
theorem C34_vpin_range (eps : K) (heps : 0 ≤ eps) (b s : List (Option K)) (w i : Nat) (x : K)
    (hb : ∀ v, some v ∈ b → 0 ≤ v) (hs : ∀ v, some v ∈ s → 0 ≤ v) (h : (vpin eps b s w)[i]? = some (some x)) : 0 ≤ x ∧ x ≤ 1 := by
  have hi : i < b.length := by
    by_contra hc
    rw [List.getElem?_eq_none (by unfold vpin; simp only; rw [length_tabulate]; omega)] at h
    cases h
  by_cases hbad : i + 1 < w ∨ (w ≤ i + 1 ∧ ∃ j, i + 1 - w ≤ j ∧ j ≤ i ∧ (b.getD j none = none ∨ s.getD j none = none))
  · rw [C33_vpin_nan eps b s w i hi hbad] at h; simp at h
  rw [not_or] at hbad
  obtain ⟨hw, hall⟩ := hbad
  have hw : w ≤ i + 1 := by omega
  have hall' : ∀ j, i + 1 - w ≤ j → j ≤ i → b.getD j none ≠ none ∧ s.getD j none ≠ none := by
    intro j h1 h2
    constructor
    · intro hc; exact hall ⟨hw, j, h1, h2, Or.inl hc⟩
    · intro hc; exact hall ⟨hw, j, h1, h2, Or.inr hc⟩
  have hget : ∀ l : List (Option K), (∀ v, some v ∈ l → 0 ≤ v) → ∀ j, 0 ≤ (l.getD j none).getD 0 := by
    intro l hl j
    by_cases hj : j < l.length
    · rw [List.getD_eq_getElem _ _ hj]
      cases hv : l[j] with
      | none => simp
      | some v => exact hl v (hv ▸ List.getElem_mem hj)
    · rw [List.getD_eq_default _ _ (by omega)]; simp
  have hsome : ∀ o : Option K, o ≠ none → o = some (o.getD 0) := by
    intro o ho; cases o with
    | none => exact absurd rfl ho
    | some v => rfl
  rw [C33_vpin_window eps b s w i hi hw (fun j => (b.getD j none).getD 0) (fun j => (s.getD j none).getD 0)
    (fun j h1 h2 => hsome _ (hall' j h1 h2).1) (fun j h1 h2 => hsome _ (hall' j h1 h2).2)] at h
  injection h with h
  split at h
  · rename_i hp
    injection h with h
    rw [← h]
    have hpos : 0 < winSum (fun j => (b.getD j none).getD 0 + (s.getD j none).getD 0) w i := lt_of_le_of_lt heps hp
    constructor
    · apply div_nonneg _ hpos.le
      exact sum_map_nonneg _ _ (fun j _ => abs_nonneg _)
    · rw [div_le_one hpos]
      apply sum_map_le
      intro j _
      have h1 := hget b hb j
      have h2 := hget s hs j
      rw [abs_le]; constructor <;> linarith
  · cases h

example : vpin 0 [some (1 : ℚ)] [some 3] 1 = [some (1 / 2)] := by decide +kernel

/-- **C34.**  The price-volume correlation lies in `[-1, 1]` for every input. -/
theorem C34_correlation_range (sqrt : K → K) (price volume : List (Option K)) (w i : Nat) (x : K)
    (h : (priceVolumeCorrelation sqrt price volume w)[i]? = some (some x)) : -1 ≤ x ∧ x ≤ 1 := by
  unfold priceVolumeCorrelation at h
  rw [tabulate_get?] at h
  split at h
  · injection h with h
    unfold corrAt at h
    split at h
    · cases h
    split at h
    · cases h
    split at h
    · injection h with h; rw [← h]; constructor <;> norm_num
    split at h
    · injection h with h; rw [← h]; constructor <;> norm_num
    unfold corrOf at h
    split at h
    · cases h
    simp only at h
    split at h
    · injection h with h
      rw [← h]
      split
      · constructor <;> norm_num
      · rename_i h1
        split
        · constructor <;> norm_num
        · rename_i h2
          exact ⟨not_lt.mp h2, not_lt.mp h1⟩
    · cases h
  · cases h

end FinML
