/-
C167: how long one observation is remembered.  `finmlkit/feature/core/ma.py`, `utils.py`, `momentum.py`, `trend.py`,
`reversion.py`, `correlation.py`, `volatility.py`, `volume.py`.
-/
import Verif.Props.LatestUp
import Verif.Props.Ewma

set_option linter.unusedSectionVars false

namespace FinML

variable {K : Type} [Field K] [LinearOrder K] [IsStrictOrderedRing K]

/-! ## Specification -/

/-- Two series of one length that agree at positions `a, …, b`. -/
structure AgreeOn {α : Type} (xs ys : List α) (a b : Nat) : Prop where
  len : ys.length = xs.length
  same : ∀ k, a ≤ k → k ≤ b → ys[k]? = xs[k]?

/-! ## Helpers -/

theorem AgreeOn.getD {α : Type} {xs ys : List α} {a b : Nat} (h : AgreeOn xs ys a b) (d : α) (k : Nat) (h1 : a ≤ k) (h2 : k ≤ b) :
    ys.getD k d = xs.getD k d := by
  rw [List.getD_eq_getElem?_getD, List.getD_eq_getElem?_getD, h.same k h1 h2]

theorem AgreeOn.window {α : Type} {xs ys : List α} {w i : Nat} (h : AgreeOn xs ys (i + 1 - w) i) (hw : w ≤ i + 1) :
    window ys w i = window xs w i := by
  apply List.ext_getElem?
  intro j
  by_cases hj : j < w
  · rw [window_get? _ _ _ _ hj, window_get? _ _ _ _ hj]
    exact h.same _ (by omega) (by omega)
  · have : ∀ l : List α, (FinML.window l w i).length ≤ w := by
      intro l; unfold FinML.window; rw [List.length_take]; omega
    rw [List.getElem?_eq_none (by have := this ys; omega), List.getElem?_eq_none (by have := this xs; omega)]

theorem rolling_agree {α β : Type} {xs ys : List α} {w i : Nat} (f : List α → Option β) (h : AgreeOn xs ys (i + 1 - w) i) :
    (rolling ys w f)[i]? = (rolling xs w f)[i]? := by
  unfold rolling
  rw [tabulate_get?, tabulate_get?, h.len]
  by_cases hw : i + 1 < w
  · simp only [if_pos hw]
  · rw [h.window (by omega)]

theorem winSum_agree (f g : Nat → K) (w i : Nat) (hw : w ≤ i + 1) (h : ∀ k, i + 1 - w ≤ k → k ≤ i → g k = f k) :
    winSum g w i = winSum f w i := by
  unfold winSum
  congr 1
  apply List.map_congr_left
  intro k hk
  rw [List.mem_range'_1] at hk
  exact h k hk.1 (by omega)

/-! ## C167 -/

/-- **C167 (windows).** Moving average, z-score, burst ratio, rolling variance, realised volatility and Bollinger's %B
forget an observation when it leaves the window: series that agree on the last `w` positions have the same value. -/
theorem C167_windows (sqrt : K → K) (xs ys : List K) (os qs : List (Option K)) (w i ddof mp : Nat) (isSample : Bool) (numStd : K)
    (h : AgreeOn xs ys (i + 1 - w) i) (ho : AgreeOn os qs (i + 1 - w) i) :
    (sma ys w)[i]? = (sma xs w)[i]? ∧ (zscore sqrt ys w ddof)[i]? = (zscore sqrt xs w ddof)[i]? ∧
    (burstRatio ys w)[i]? = (burstRatio xs w)[i]? ∧ (rollingVariance qs w ddof mp)[i]? = (rollingVariance os w ddof mp)[i]? ∧
    (realizedVol sqrt qs w isSample)[i]? = (realizedVol sqrt os w isSample)[i]? ∧
    (1 ≤ w → (bollingerB sqrt ys w numStd)[i]? = (bollingerB sqrt xs w numStd)[i]?) := by
  refine ⟨rolling_agree _ h, rolling_agree _ h, rolling_agree _ h, rolling_agree _ ho, rolling_agree _ ho, ?_⟩
  intro h0
  unfold bollingerB
  rw [tabulate_get?, tabulate_get?, h.len]
  by_cases hw : i + 1 < w
  · simp only [if_pos hw]
  · simp only [if_neg hw]
    rw [rollSum_winSum, rollSum_winSum, rollSum_winSum, rollSum_winSum, h.getD 0 i (by omega) (le_refl _),
      winSum_agree (fun k => xs.getD k 0) (fun k => ys.getD k 0) w i (by omega) (fun k a b => h.getD 0 k a b),
      winSum_agree (fun k => xs.getD k 0 ^ 2) (fun k => ys.getD k 0 ^ 2) w i (by omega) (fun k a b => by rw [h.getD 0 k a b])]

example : AgreeOn ([9, 1, 2, 4] : List ℚ) [5, 1, 2, 4] (3 + 1 - 3) 3 ∧
    (sma ([9, 1, 2, 4] : List ℚ) 3)[3]? = some (some (7 / 3)) ∧ (sma ([5, 1, 2, 4] : List ℚ) 3)[3]? = some (some (7 / 3)) := by
  refine ⟨⟨rfl, ?_⟩, by decide +kernel, by decide +kernel⟩
  intro k h1 h2
  have : k = 1 ∨ k = 2 ∨ k = 3 := by omega
  rcases this with rfl | rfl | rfl <;> rfl

/-- **C167 (flow).** The same for VPIN and for the flow acceleration. -/
theorem C167_flow (log : K → K) (eps : K) (v v' : List K) (b b' s s' : List (Option K)) (w r i : Nat)
    (hv : AgreeOn v v' (i + 1 - w) i) (hb : AgreeOn b b' (i + 1 - w) i) (hs : AgreeOn s s' (i + 1 - w) i) :
    (flowAcceleration log eps v' w r)[i]? = (flowAcceleration log eps v w r)[i]? ∧
    (i < b.length → (vpin eps b' s' w)[i]? = (vpin eps b s w)[i]?) := by
  constructor
  · by_cases hi : i < v.length
    · by_cases hc : v.length < w ∨ w ≤ r
      · rw [C33_flow_acceleration_short log eps v w r i hc hi,
          C33_flow_acceleration_short log eps v' w r i (by rw [hv.len]; exact hc) (by rw [hv.len]; exact hi)]
      · rw [C33_flow_acceleration_window log eps v w r i (by omega) (by omega) hi,
          C33_flow_acceleration_window log eps v' w r i (by omega) (by rw [hv.len]; omega) (by rw [hv.len]; exact hi)]
        by_cases hw : i + 1 < w
        · rw [if_pos hw, if_pos hw]
        · rw [if_neg hw, if_neg hw,
            winSum_agree (fun k => v.getD k 0) (fun k => v'.getD k 0) r i (by omega) (fun k x y => hv.getD 0 k (by omega) y),
            winSum_agree (fun k => v.getD k 0) (fun k => v'.getD k 0) (w - r) (i - r) (by omega)
              (fun k x y => hv.getD 0 k (by omega) (by omega))]
    · have hl : ∀ u : List K, (flowAcceleration log eps u w r).length = u.length := by
        intro u; unfold flowAcceleration; split
        · exact length_tabulate _ _
        · exact length_tabulate _ _
      rw [List.getElem?_eq_none (by rw [hl, hv.len]; omega), List.getElem?_eq_none (by rw [hl]; omega)]
  · intro hi
    have hi' : i < b'.length := by rw [hb.len]; exact hi
    by_cases hw : i + 1 < w
    · rw [C33_vpin_nan eps b s w i hi (Or.inl hw), C33_vpin_nan eps b' s' w i hi' (Or.inl hw)]
    by_cases hn : ∃ j, i + 1 - w ≤ j ∧ j ≤ i ∧ (b.getD j none = none ∨ s.getD j none = none)
    · obtain ⟨j, h1, h2, h3⟩ := hn
      rw [C33_vpin_nan eps b s w i hi (Or.inr ⟨by omega, j, h1, h2, h3⟩),
        C33_vpin_nan eps b' s' w i hi' (Or.inr ⟨by omega, j, h1, h2, by rw [hb.getD none j h1 h2, hs.getD none j h1 h2]; exact h3⟩)]
    · have e : ∀ (l : List (Option K)), (∀ j, i + 1 - w ≤ j → j ≤ i → l.getD j none ≠ none) →
          ∀ j, i + 1 - w ≤ j → j ≤ i → l.getD j none = some (orZero (l.getD j none)) := by
        intro l h j h1 h2
        have := h j h1 h2
        cases hx : l.getD j none with
        | none => exact absurd hx this
        | some x => rfl
      have eb := e b (fun j h1 h2 hx => hn ⟨j, h1, h2, Or.inl hx⟩)
      have es := e s (fun j h1 h2 hx => hn ⟨j, h1, h2, Or.inr hx⟩)
      rw [C33_vpin_window eps b s w i hi (by omega) (fun j => orZero (b.getD j none)) (fun j => orZero (s.getD j none)) eb es,
        C33_vpin_window eps b' s' w i hi' (by omega) (fun j => orZero (b.getD j none)) (fun j => orZero (s.getD j none))
          (fun j h1 h2 => by rw [hb.getD none j h1 h2]; exact eb j h1 h2) (fun j h1 h2 => by rw [hs.getD none j h1 h2]; exact es j h1 h2)]

example : (vpin (1 / 10 : ℚ) [some 9, some 1, some 2] [some 1, some 1, some 1] 2)[2]? = some (some (1 / 5)) ∧
    (vpin (1 / 10 : ℚ) [some 4, some 1, some 2] [none, some 1, some 1] 2)[2]? = some (some (1 / 5)) := by decide +kernel

/-- **C167 (stochastic oscillator).** The same for %K. -/
theorem C167_stoch (close low high close' low' high' : List K) (len t : Nat) (hlen : 1 ≤ len) (ht : t < close.length)
    (hl : low.length = close.length) (hh : high.length = close.length) (hc : AgreeOn close close' t t)
    (h1 : AgreeOn low low' (t + 1 - len) t) (h2 : AgreeOn high high' (t + 1 - len) t) :
    (stochK close' low' high' len)[t]? = (stochK close low high len)[t]? := by
  obtain ⟨a1, a2⟩ := C33_stoch_window close low high len t hlen ht hl hh
  obtain ⟨b1, b2⟩ := C33_stoch_window close' low' high' len t hlen (by rw [hc.len]; exact ht) (by rw [h1.len, hl, hc.len])
    (by rw [h2.len, hh, hc.len])
  by_cases hw : t + 1 < len
  · rw [a1 hw, b1 hw]
  · obtain ⟨e1, e2⟩ := C33_stoch_extremes low high len (t + 1 - len) hlen (by omega) (by omega)
    rw [show len - 1 + (t + 1 - len) = t by omega] at e1 e2
    generalize (stochState low high len (t + 1 - len)).1 = lo at e1
    generalize (stochState low high len (t + 1 - len)).2 = hi at e2
    have f1 : IsMinOn (fun j => low'.getD j 0) (t + 1 - len) t lo := by
      obtain ⟨⟨j, x, y, z⟩, g⟩ := e1
      exact ⟨⟨j, x, y, by rw [← z]; exact h1.getD 0 j x y⟩, fun k x y => le_of_le_of_eq (g k x y) (h1.getD 0 k x y).symm⟩
    have f2 : IsMaxOn (fun j => high'.getD j 0) (t + 1 - len) t hi := by
      obtain ⟨⟨j, x, y, z⟩, g⟩ := e2
      exact ⟨⟨j, x, y, by rw [← z]; exact h2.getD 0 j x y⟩, fun k x y => le_of_eq_of_le (h2.getD 0 k x y) (g k x y)⟩
    rw [a2 (by omega) lo hi e1 e2, b2 (by omega) lo hi f1 f2, hc.getD 0 t (le_refl _) (le_refl _)]

example : (stochK ([5, 3, 4] : List ℚ) [5, 3, 3] [5, 5, 5] 2)[2]? = some (some 50) ∧
    (stochK ([0, 3, 4] : List ℚ) [0, 3, 3] [9, 5, 5] 2)[2]? = some (some 50) := by decide +kernel

/-- **C167 (distance from the VWAP).** The same where the window has volume. -/
theorem C167_vwap (log : K → K) (close volume close' volume' : List K) (np i : Nat) (isLog : Bool) (hnp : 1 ≤ np) (hi : i < close.length)
    (hc : AgreeOn close close' (i + 1 - np) i) (hv : AgreeOn volume volume' (i + 1 - np) i)
    (hpos : np ≤ i + 1 → 0 < winSum (fun j => volume.getD j 0) np i) :
    (vwapDistance log close' volume' np isLog)[i]? = (vwapDistance log close volume np isLog)[i]? := by
  obtain ⟨a1, a2, a3, -⟩ := C33_vwap_distance_window log close volume np i isLog hnp hi
  obtain ⟨b1, b2, b3, -⟩ := C33_vwap_distance_window log close' volume' np i isLog hnp (by rw [hc.len]; exact hi)
  by_cases hw : i + 1 < np
  · rw [a1 hw, b1 hw]
  · have e1 := winSum_agree (fun j => volume.getD j 0) (fun j => volume'.getD j 0) np i (by omega) (fun k x y => hv.getD 0 k x y)
    have e2 := winSum_agree (fun j => close.getD j 0 * volume.getD j 0) (fun j => close'.getD j 0 * volume'.getD j 0) np i (by omega)
      (fun k x y => by rw [hc.getD 0 k x y, hv.getD 0 k x y])
    have e3 := hc.getD 0 i (by omega) (le_refl _)
    by_cases he : i + 1 = np
    · rw [a2 he, b2 he, e1, e2, e3]
    · rw [a3 (by omega) (hpos (by omega)), b3 (by omega) (by rw [e1]; exact hpos (by omega)), e1, e2, e3]

/-- **C167 (distance from the VWAP without volume).** A window without volume repeats the last value, and so remembers
an observation for as long as no volume comes. -/
theorem C167_vwap_no_volume :
    (vwapDistance (fun x : ℚ => x) [1, 3, 7, 7, 7, 7] [1, 1, 0, 0, 0, 0] 2 false)[5]? = some (some (4 / 3)) ∧
    (vwapDistance (fun x : ℚ => x) [1, 4, 7, 7, 7, 7] [1, 1, 0, 0, 0, 0] 2 false)[5]? = some (some (3 / 4)) := by decide +kernel

example : (vwapDistance (fun x : ℚ => x) [1, 3, 7] [1, 1, 1] 2 false)[2]? = some (some (2 / 5)) ∧
    (vwapDistance (fun x : ℚ => x) [8, 3, 7] [9, 1, 1] 2 false)[2]? = some (some (2 / 5)) := by decide +kernel

/-- **C167 (correlation).** The price-volume correlation of `w` returns depends on `w + 1` prices and `w` volumes. -/
theorem C167_correlation (sqrt : K → K) (price volume price' volume' : List (Option K)) (w i : Nat) (hw : 1 ≤ w)
    (hp : AgreeOn price price' (i - w) i) (hv : AgreeOn volume volume' (i + 1 - w) i) :
    (priceVolumeCorrelation sqrt price' volume' w)[i]? = (priceVolumeCorrelation sqrt price volume w)[i]? := by
  unfold priceVolumeCorrelation
  rw [tabulate_get?, tabulate_get?, hp.len]
  by_cases hi : i < price.length
  swap
  · rw [if_neg hi, if_neg hi]
  rw [if_pos hi, if_pos hi]
  congr 1
  unfold corrAt
  by_cases h1 : i < w
  · rw [if_pos h1, if_pos h1]
  have hr : ∀ j, i + 1 - w ≤ j → j ≤ i → simpleReturn price' j = simpleReturn price j := by
    intro j a b
    unfold simpleReturn
    rw [hp.getD none j (by omega) b, hp.getD none (j - 1) (by omega) (by omega)]
  have hnd : ∀ l l' : List (Option K), (∀ j, i + 1 - w ≤ j → j ≤ i → l'.getD j none = l.getD j none) →
      noDecrease l' w i = noDecrease l w i ∧ noIncrease l' w i = noIncrease l w i := by
    intro l l' h
    unfold noDecrease noIncrease
    constructor
    all_goals
      rw [Bool.eq_iff_iff, List.all_eq_true, List.all_eq_true]
      refine forall₂_congr (fun j hj => ?_)
      rw [List.mem_range'_1] at hj
      rw [h j (by omega) (by omega), h (j + 1) (by omega) (by omega)]
  have hvp : validPairs price' volume' w i = validPairs price volume w i := by
    unfold validPairs
    apply List.filterMap_congr
    intro j hj
    rw [List.mem_range'_1] at hj
    rw [hr j hj.1 (by omega), hv.getD none j hj.1 (by omega)]
  obtain ⟨p1, p2⟩ := hnd price price' (fun j a b => hp.getD none j (by omega) b)
  obtain ⟨v1, v2⟩ := hnd volume volume' (fun j a b => hv.getD none j a b)
  rw [hr i (by omega) (le_refl _), hv.getD none i (by omega) (le_refl _), p1, v1, v2, hvp]

example : (priceVolumeCorrelation (fun x : ℚ => x) [some 9, some 2, some 4, some 6] [some 1, some 1, some 1, some 2] 2)[3]? =
    (priceVolumeCorrelation (fun x : ℚ => x) [none, some 2, some 4, some 6] [none, none, some 1, some 2] 2)[3]? := by decide +kernel

/-- **C167 (exponential average).** The EWMA never forgets: if only observation `k` changes, by `δ`, the average at
`t ≥ k` changes by `δ (1 - α)^(t-k)` divided by the sum of weights, which is at least 1 and does not depend on the
data. -/
theorem C167_ewma (y y' : List K) (span k t : Nat) (hs : 1 ≤ span) (hlen : y'.length = y.length) (hk : k ≤ t) (ht : t < y.length)
    (hsame : ∀ j, j ≠ k → y'.getD j 0 = y.getD j 0) :
    ∃ out out' W, ewma y span = .ok out ∧ ewma y' span = .ok out' ∧ 1 ≤ W ∧
      out'.getD t 0 - out.getD t 0 = (y'.getD k 0 - y.getD k 0) * (1 - 2 / ((span : K) + 1)) ^ (t - k) / W ∧
      |out'.getD t 0 - out.getD t 0| ≤ |y'.getD k 0 - y.getD k 0| * (1 - 2 / ((span : K) + 1)) ^ (t - k) := by
  have hs1 : (1 : K) ≤ (span : K) := by exact_mod_cast hs
  set q : K := 1 - 2 / ((span : K) + 1) with hq
  have hq0 : 0 ≤ q := by
    have : 2 / ((span : K) + 1) ≤ 1 := by rw [div_le_one (by linarith)]; linarith
    linarith
  have hden : ∀ (z : List K) m, (ewmaState z q m).2 = (ewmaState y q m).2 ∧ 1 ≤ (ewmaState y q m).2 := by
    intro z m
    induction m with
    | zero => exact ⟨rfl, le_refl _⟩
    | succ m ih =>
      simp only [ewmaState]
      exact ⟨by rw [ih.1], by have := mul_nonneg hq0 (le_trans zero_le_one ih.2); linarith⟩
  have hbefore : ∀ m, m < k → (ewmaState y' q m).1 = (ewmaState y q m).1 := by
    intro m
    induction m with
    | zero => intro h; simp only [ewmaState]; exact hsame 0 (by omega)
    | succ m ih => intro h; simp only [ewmaState]; rw [ih (by omega), hsame (m + 1) (by omega)]
  have hat : (ewmaState y' q k).1 - (ewmaState y q k).1 = y'.getD k 0 - y.getD k 0 := by
    cases k with
    | zero => simp only [ewmaState]
    | succ k => simp only [ewmaState]; rw [hbefore k (by omega)]; ring
  have hdiff : ∀ m, (ewmaState y' q (k + m)).1 - (ewmaState y q (k + m)).1 = (y'.getD k 0 - y.getD k 0) * q ^ m := by
    intro m
    induction m with
    | zero => rw [Nat.add_zero, hat, pow_zero, mul_one]
    | succ m ih =>
      rw [← Nat.add_assoc]
      simp only [ewmaState]
      rw [hsame (k + m + 1) (by omega), add_sub_add_left_eq_sub, ← mul_sub, ih, pow_succ]; ring
  refine ⟨_, _, (ewmaState y q t).2, by unfold ewma; rw [if_neg (by omega)], by unfold ewma; rw [if_neg (by omega)],
    (hden y t).2, ?_⟩
  have hW := (hden y t).2
  have e : (tabulate y'.length (fun t => (ewmaState y' q t).1 / (ewmaState y' q t).2)).getD t 0 -
      (tabulate y.length (fun t => (ewmaState y q t).1 / (ewmaState y q t).2)).getD t 0 =
      (y'.getD k 0 - y.getD k 0) * q ^ (t - k) / (ewmaState y q t).2 := by
    rw [tabulate_getD _ _ _ _ (by rw [hlen]; exact ht), tabulate_getD _ _ _ _ ht, (hden y' t).1, ← sub_div]
    have := hdiff (t - k)
    rw [show k + (t - k) = t by omega] at this
    rw [this]
  refine ⟨e, ?_⟩
  have hW0 : 0 < (ewmaState y q t).2 := by linarith
  rw [e, abs_div, abs_mul, abs_of_nonneg (pow_nonneg hq0 _), abs_of_pos hW0, div_le_iff₀ hW0]
  exact le_mul_of_one_le_right (mul_nonneg (abs_nonneg _) (pow_nonneg hq0 _)) hW

example : ewma ([4, 1, 1] : List ℚ) 3 = .ok [4, 2, 10 / 7] ∧ ewma ([11, 1, 1] : List ℚ) 3 = .ok [11, 13 / 3, 17 / 7] := by
  decide +kernel

/-- **C167 (RSI).** The average gain and the average loss behind the RSI never forget: if two price series agree from
position `k` on, the differences of the averages shrink by the factor `(w - 1) / w` with every bar after `k`. -/
theorem C167_rsi (xs ys : List K) (w m n : Nat) (hw : 1 ≤ w) (hsame : ∀ j, w + m ≤ j → ys.getD j 0 = xs.getD j 0) :
    wilderAvg (gainAt ys) w (m + n) - wilderAvg (gainAt xs) w (m + n) =
      (((w : K) - 1) / (w : K)) ^ n * (wilderAvg (gainAt ys) w m - wilderAvg (gainAt xs) w m) ∧
    wilderAvg (lossAt ys) w (m + n) - wilderAvg (lossAt xs) w (m + n) =
      (((w : K) - 1) / (w : K)) ^ n * (wilderAvg (lossAt ys) w m - wilderAvg (lossAt xs) w m) := by
  have w0 : (w : K) ≠ 0 := by
    have : (0 : K) < (w : K) := by exact_mod_cast hw
    exact this.ne'
  have key : ∀ f g : Nat → K, (∀ j, w + m < j → g j = f j) → wilderAvg g w (m + n) - wilderAvg f w (m + n) =
      (((w : K) - 1) / (w : K)) ^ n * (wilderAvg g w m - wilderAvg f w m) := by
    intro f g h
    induction n with
    | zero => simp
    | succ n ih =>
      rw [← Nat.add_assoc, wilderAvg, wilderAvg, h _ (by omega), ← sub_div, add_sub_add_right_eq_sub, ← mul_sub, ih, pow_succ]
      field_simp
  constructor
  · apply key
    intro j hj
    unfold gainAt
    rw [hsame j (by omega), hsame (j - 1) (by omega)]
  · apply key
    intro j hj
    unfold lossAt
    rw [hsame j (by omega), hsame (j - 1) (by omega)]

example : wilderAvg (gainAt ([1, 5, 2, 3, 4] : List ℚ)) 2 2 - wilderAvg (gainAt ([1, 2, 2, 3, 4] : List ℚ)) 2 2 = 3 / 8 ∧
    wilderAvg (gainAt ([1, 5, 2, 3, 4] : List ℚ)) 2 0 - wilderAvg (gainAt ([1, 2, 2, 3, 4] : List ℚ)) 2 0 = 3 / 2 := by decide +kernel

/-- **C167 (ADX).** Likewise for the smoothed true range and directional movements behind the ADX. -/
theorem C167_adx (high low close high' low' close' : List K) (len m n : Nat) (hlen : 1 ≤ len)
    (h1 : ∀ j, len + m ≤ j → high'.getD j 0 = high.getD j 0) (h2 : ∀ j, len + m ≤ j → low'.getD j 0 = low.getD j 0)
    (h3 : ∀ j, len + m ≤ j → close'.getD j 0 = close.getD j 0) :
    let f : K := (((len : K) - 1) / (len : K)) ^ n
    wilderSum (trAt high' low' close') len (m + n) - wilderSum (trAt high low close) len (m + n) =
      f * (wilderSum (trAt high' low' close') len m - wilderSum (trAt high low close) len m) ∧
    wilderSum (plusDm high' low') len (m + n) - wilderSum (plusDm high low) len (m + n) =
      f * (wilderSum (plusDm high' low') len m - wilderSum (plusDm high low) len m) ∧
    wilderSum (minusDm high' low') len (m + n) - wilderSum (minusDm high low) len (m + n) =
      f * (wilderSum (minusDm high' low') len m - wilderSum (minusDm high low) len m) := by
  have w0 : (len : K) ≠ 0 := by
    have : (0 : K) < (len : K) := by exact_mod_cast hlen
    exact this.ne'
  have key : ∀ f g : Nat → K, (∀ j, len + m < j → g j = f j) → wilderSum g len (m + n) - wilderSum f len (m + n) =
      (((len : K) - 1) / (len : K)) ^ n * (wilderSum g len m - wilderSum f len m) := by
    intro f g h
    induction n with
    | zero => simp
    | succ n ih =>
      rw [← Nat.add_assoc, wilderSum, wilderSum, h _ (by omega), add_sub_add_right_eq_sub, pow_succ]
      have : wilderSum g len (m + n) - wilderSum g len (m + n) / (len : K) -
          (wilderSum f len (m + n) - wilderSum f len (m + n) / (len : K)) =
          (wilderSum g len (m + n) - wilderSum f len (m + n)) * (((len : K) - 1) / (len : K)) := by field_simp
      rw [this, ih]; ring
  intro f
  refine ⟨?_, ?_, ?_⟩
  · apply key
    intro j hj
    unfold trAt
    rw [h1 j (by omega), h2 j (by omega), h3 (j - 1) (by omega)]
  · apply key
    intro j hj
    unfold plusDm
    rw [h1 j (by omega), h1 (j - 1) (by omega), h2 j (by omega), h2 (j - 1) (by omega)]
  · apply key
    intro j hj
    unfold minusDm
    rw [h1 j (by omega), h1 (j - 1) (by omega), h2 j (by omega), h2 (j - 1) (by omega)]

example : wilderSum (plusDm ([1, 5, 5, 6, 7] : List ℚ) [1, 1, 1, 1, 1]) 2 2 - wilderSum (plusDm ([1, 2, 5, 6, 7] : List ℚ) [1, 1, 1, 1, 1]) 2 2 = 0 ∧
    wilderSum (plusDm ([9, 5, 5, 6, 7] : List ℚ) [1, 1, 1, 1, 1]) 2 2 - wilderSum (plusDm ([1, 5, 5, 6, 7] : List ℚ) [1, 1, 1, 1, 1]) 2 2 = -1 ∧
    wilderSum (plusDm ([9, 5, 5, 6, 7] : List ℚ) [1, 1, 1, 1, 1]) 2 0 - wilderSum (plusDm ([1, 5, 5, 6, 7] : List ℚ) [1, 1, 1, 1, 1]) 2 0 = -4 := by
  decide +kernel

/-- **C167 (exponentially weighted deviation).** If two series agree from observation `t` on, the weighted sums behind
`ewms` differ by amounts that shrink by `1 - α` per observation, the sum of squared weights by `(1 - α)²`. -/
theorem C167_ewms (y y' : List (Option K)) (q : K) (t n : Nat) (hsame : ∀ j, t ≤ j → y'.getD j none = y.getD j none) :
    let s := ewmsState y q
    let s' := ewmsState y' q
    (s' (t + n)).sw - (s (t + n)).sw = q ^ n * ((s' t).sw - (s t).sw) ∧
    (s' (t + n)).sw2 - (s (t + n)).sw2 = (q ^ 2) ^ n * ((s' t).sw2 - (s t).sw2) ∧
    (s' (t + n)).sy - (s (t + n)).sy = q ^ n * ((s' t).sy - (s t).sy) ∧
    (s' (t + n)).sy2 - (s (t + n)).sy2 = q ^ n * ((s' t).sy2 - (s t).sy2) := by
  intro s s'
  induction n with
  | zero => simp
  | succ n ih =>
    obtain ⟨h1, h2, h3, h4⟩ := ih
    rw [← Nat.add_assoc]
    simp only [s, s', ewmsState] at h1 h2 h3 h4 ⊢
    rw [hsame (t + n) (by omega)]
    refine ⟨?_, ?_, ?_, ?_⟩
    · rw [add_sub_add_right_eq_sub, ← mul_sub, h1, pow_succ]; ring
    · rw [add_sub_add_right_eq_sub, ← mul_sub, h2, pow_succ (q ^ 2) n]; ring
    · rw [add_sub_add_right_eq_sub, ← mul_sub, h3, pow_succ]; ring
    · rw [add_sub_add_right_eq_sub, ← mul_sub, h4, pow_succ]; ring

example : (ewmsState ([some 5, some 1, none] : List (Option ℚ)) (1 / 2) 3).sy = 7 / 4 ∧
    (ewmsState ([some 1, some 1, none] : List (Option ℚ)) (1 / 2) 3).sy = 3 / 4 := by decide +kernel

end FinML
