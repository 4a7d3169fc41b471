/-
C35: indicators are causal - computing on a prefix gives the prefix of the full output.
-/
import Verif.Lemmas.Indicators

set_option linter.unusedSectionVars false

namespace FinML

variable {K : Type} [Field K] [LinearOrder K] [IsStrictOrderedRing K]

/-! ## Direct windows -/

/-- **C35.**  Moving average. -/
theorem C35_sma (xs : List K) (w k : Nat) : sma (xs.take k) w = (sma xs w).take k := rolling_causal _ _ _ _

/-- **C35.**  Z-score. -/
theorem C35_zscore (sqrt : K → K) (xs : List K) (w ddof k : Nat) : zscore sqrt (xs.take k) w ddof = (zscore sqrt xs w ddof).take k :=
  rolling_causal _ _ _ _

/-- **C35.**  Burst ratio. -/
theorem C35_burst_ratio (xs : List K) (w k : Nat) : burstRatio (xs.take k) w = (burstRatio xs w).take k := rolling_causal _ _ _ _

/-- **C35.**  Realised volatility. -/
theorem C35_realized_vol (sqrt : K → K) (r : List (Option K)) (w k : Nat) (b : Bool) :
    realizedVol sqrt (r.take k) w b = (realizedVol sqrt r w b).take k := rolling_causal _ _ _ _

/-- **C35.**  Rolling variance. -/
theorem C35_rolling_variance (xs : List (Option K)) (w ddof mp k : Nat) :
    rollingVariance (xs.take k) w ddof mp = (rollingVariance xs w ddof mp).take k := rolling_causal _ _ _ _

example : zscore (fun _ => (1 : ℚ)) (([1, 2, 6] : List ℚ).take 2) 2 0 = [none, some (1 / 2)] ∧
    zscore (fun _ => (1 : ℚ)) [1, 2, 6] 2 0 = [none, some (1 / 2), some 2] := by decide +kernel

/-! ## Lags -/

/-- **C35.**  Percentage change. -/
theorem C35_pct_change (xs : List K) (p k : Nat) : pctChange (xs.take k) p = (pctChange xs p).take k := by
  unfold pctChange
  rw [List.length_take]
  apply tabulate_causal
  intro i hk _
  rw [getD_take_lt _ _ _ _ hk, getD_take_lt _ _ _ _ (by omega)]

/-- **C35.**  Rate of change. -/
theorem C35_roc (xs : List K) (p k : Nat) : roc (xs.take k) p = (roc xs p).take k := by
  unfold roc
  rw [List.length_take]
  apply tabulate_causal
  intro i hk _
  rw [getD_take_lt _ _ _ _ hk, getD_take_lt _ _ _ _ (by omega)]

/-- **C35.**  Parkinson range. -/
theorem C35_parkinson (log : K → K) (high low : List K) (k : Nat) : parkinson log (high.take k) (low.take k) = (parkinson log high low).take k := by
  unfold parkinson
  rw [List.length_take]
  apply tabulate_causal
  intro i hk _
  rw [getD_take_lt _ _ _ _ hk, getD_take_lt _ _ _ _ hk]

/-! ## RSI -/

theorem wilderAvg_congr (x y : Nat → K) (w m : Nat) (h : ∀ i, i ≤ w + m → x i = y i) : wilderAvg x w m = wilderAvg y w m := by
  induction m with
  | zero =>
    rw [wilderAvg, wilderAvg]
    congr 2
    apply List.map_congr_left
    intro i hi
    rw [List.mem_range'_1] at hi
    exact h i (by omega)
  | succ m ih => rw [wilderAvg, wilderAvg, ih (fun i hi => h i (by omega)), h _ (le_refl _)]

/-- **C35.**  RSI. -/
theorem C35_rsi (xs : List K) (w k : Nat) : rsiWilder (xs.take k) w = (rsiWilder xs w).take k := by
  unfold rsiWilder
  rw [List.length_take]
  apply tabulate_causal
  intro i hk _
  by_cases hw : i < w
  · rw [if_pos hw, if_pos hw]
  rw [if_neg hw, if_neg hw]
  congr 1
  · apply wilderAvg_congr
    intro j hj
    unfold gainAt
    rw [getD_take_lt _ _ _ _ (by omega), getD_take_lt _ _ _ _ (by omega)]
  · apply wilderAvg_congr
    intro j hj
    unfold lossAt
    rw [getD_take_lt _ _ _ _ (by omega), getD_take_lt _ _ _ _ (by omega)]

/-! ## Stochastic oscillator -/

theorem stochState_take (low high : List K) (len m k : Nat) (h0 : 1 ≤ len) (h : len + m ≤ k) :
    stochState (low.take k) (high.take k) len m = stochState low high len m := by
  induction m with
  | zero => rw [stochState, stochState, window_take _ _ _ _ (by omega) (by omega), window_take _ _ _ _ (by omega) (by omega)]
  | succ m ih =>
    rw [stochState, stochState, ih (by omega), window_take _ _ _ _ (by omega) (by omega), window_take _ _ _ _ (by omega) (by omega),
      getD_take_lt _ _ _ _ (by omega), getD_take_lt _ _ _ _ (by omega), getD_take_lt _ _ _ _ (by omega), getD_take_lt _ _ _ _ (by omega)]

/-- **C35.**  Stochastic oscillator. -/
theorem C35_stoch (close low high : List K) (len k : Nat) (h0 : 1 ≤ len) :
    stochK (close.take k) (low.take k) (high.take k) len = (stochK close low high len).take k := by
  unfold stochK
  rw [List.length_take]
  apply tabulate_causal
  intro i hk _
  by_cases hw : i + 1 < len
  · rw [if_pos hw, if_pos hw]
  rw [if_neg hw, if_neg hw, getD_take_lt _ _ _ _ hk, stochState_take _ _ _ _ _ h0 (by omega)]

example : stochK ([2, 3] : List ℚ) [1, 1] [4, 4] 2 = [none, some (200 / 3)] ∧ stochK ([2, 3, 9] : List ℚ) [1, 1, 1] [4, 4, 10] 2 =
    [none, some (200 / 3), some (800 / 9)] := by decide +kernel

/-! ## ADX -/

theorem wilderSum_congr (x y : Nat → K) (len m : Nat) (h : ∀ i, i ≤ len + m → x i = y i) : wilderSum x len m = wilderSum y len m := by
  induction m with
  | zero =>
    rw [wilderSum, wilderSum]
    congr 1
    apply List.map_congr_left
    intro i hi
    rw [List.mem_range'_1] at hi
    exact h i (by omega)
  | succ m ih => rw [wilderSum, wilderSum, ih (fun i hi => h i (by omega)), h _ (le_refl _)]

theorem diAt_congr (tr tr' dm dm' : Nat → K) (len m : Nat) (h1 : ∀ i, i ≤ len + m → tr i = tr' i) (h2 : ∀ i, i ≤ len + m → dm i = dm' i) :
    diAt tr dm len m = diAt tr' dm' len m := by
  unfold diAt
  rw [wilderSum_congr tr tr' len m h1, wilderSum_congr dm dm' len m h2]

theorem dxAt_take (high low close : List K) (len i k : Nat) (h : i < k) :
    dxAt (high.take k) (low.take k) (close.take k) len i = dxAt high low close len i := by
  unfold dxAt
  by_cases hl : i < len
  · rw [if_pos hl, if_pos hl]
  rw [if_neg hl, if_neg hl]
  congr 1
  · apply diAt_congr
    · intro j hj
      unfold trAt
      simp only [getD_take_lt high k j 0 (by omega), getD_take_lt low k j 0 (by omega), getD_take_lt close k (j - 1) 0 (by omega)]
    · intro j hj
      unfold plusDm
      simp only [getD_take_lt high k j 0 (by omega), getD_take_lt low k j 0 (by omega), getD_take_lt high k (j - 1) 0 (by omega),
        getD_take_lt low k (j - 1) 0 (by omega)]
  · apply diAt_congr
    · intro j hj
      unfold trAt
      simp only [getD_take_lt high k j 0 (by omega), getD_take_lt low k j 0 (by omega), getD_take_lt close k (j - 1) 0 (by omega)]
    · intro j hj
      unfold minusDm
      simp only [getD_take_lt high k j 0 (by omega), getD_take_lt low k j 0 (by omega), getD_take_lt high k (j - 1) 0 (by omega),
        getD_take_lt low k (j - 1) 0 (by omega)]

theorem adxState_congr (x y : Nat → K) (len m : Nat) (h : ∀ i, i < 2 * len + m → x i = y i) : adxState x len m = adxState y len m := by
  induction m with
  | zero =>
    rw [adxState, adxState]
    congr 2
    apply List.map_congr_left
    intro i hi
    rw [List.mem_range'_1] at hi
    exact h i (by omega)
  | succ m ih => rw [adxState, adxState, ih (fun i hi => h i (by omega)), h _ (by omega)]

/-- **C35.**  ADX. -/
theorem C35_adx (high low close : List K) (len k : Nat) :
    adxCore (high.take k) (low.take k) (close.take k) len = (adxCore high low close len).take k := by
  unfold adxCore
  rw [List.length_take]
  apply tabulate_causal
  intro i hk _
  by_cases hw : i + 1 < 2 * len
  · rw [if_pos hw, if_pos hw]
  rw [if_neg hw, if_neg hw]
  apply adxState_congr
  intro j hj
  exact dxAt_take _ _ _ _ _ _ (by omega)

/-! ## Rolling sums -/

theorem vwapOut_take (log : K → K) (close volume : List K) (np m k : Nat) (isLog : Bool) (h0 : 1 ≤ np) (h : np + m ≤ k) :
    vwapOut log (close.take k) (volume.take k) np isLog m = vwapOut log close volume np isLog m := by
  have e1 : ∀ m, np + m ≤ k → rollSumState (fun j => (close.take k).getD j 0 * (volume.take k).getD j 0) np m =
      rollSumState (fun j => close.getD j 0 * volume.getD j 0) np m := by
    intro m hm
    apply rollSumState_congr
    intro i hi
    rw [getD_take_lt _ _ _ _ (by omega), getD_take_lt _ _ _ _ (by omega)]
  have e2 : ∀ m, np + m ≤ k → rollSumState (fun j => (volume.take k).getD j 0) np m = rollSumState (fun j => volume.getD j 0) np m := by
    intro m hm
    apply rollSumState_congr
    intro i hi
    rw [getD_take_lt _ _ _ _ (by omega)]
  induction m with
  | zero =>
    rw [vwapOut, vwapOut, e1 0 (by omega), e2 0 (by omega), getD_take_lt _ _ _ _ (by omega)]
  | succ m ih =>
    rw [vwapOut, vwapOut, e1 (m + 1) (by omega), e2 (m + 1) (by omega), ih (by omega), getD_take_lt _ _ _ _ (by omega)]

/-- **C35.**  VWAP distance. -/
theorem C35_vwap_distance (log : K → K) (close volume : List K) (np k : Nat) (isLog : Bool) (h0 : 1 ≤ np) :
    vwapDistance log (close.take k) (volume.take k) np isLog = (vwapDistance log close volume np isLog).take k := by
  unfold vwapDistance
  rw [List.length_take]
  apply tabulate_causal
  intro i hk _
  by_cases hw : i + 1 < np
  · rw [if_pos hw, if_pos hw]
  rw [if_neg hw, if_neg hw, vwapOut_take _ _ _ _ _ _ _ h0 (by omega)]

example : vwapDistance id ([1, 2] : List ℚ) [1, 1] 2 false = [none, some (1 / 3)] ∧
    (vwapDistance id ([1, 2, 9] : List ℚ) [1, 1, 1] 2 false).take 2 = [none, some (1 / 3)] := by decide +kernel

/-- **C35.**  Bollinger %B. -/
theorem C35_bollinger (sqrt : K → K) (close : List K) (w k : Nat) (ns : K) :
    bollingerB sqrt (close.take k) w ns = (bollingerB sqrt close w ns).take k := by
  unfold bollingerB
  rw [List.length_take]
  apply tabulate_causal
  intro i hk _
  by_cases hw : i + 1 < w
  · rw [if_pos hw, if_pos hw]
  rw [if_neg hw, if_neg hw, getD_take_lt _ _ _ _ hk]
  congr 1
  · apply rollSumState_congr
    intro j hj
    rw [getD_take_lt _ _ _ _ (by omega)]
  · apply rollSumState_congr
    intro j hj
    rw [getD_take_lt _ _ _ _ (by omega)]

/-- **C35.**  Flow acceleration. -/
theorem C35_flow_acceleration (log : K → K) (eps : K) (v : List K) (w r k : Nat) :
    flowAcceleration log eps (v.take k) w r = (flowAcceleration log eps v w r).take k := by
  have hc : ∀ i, i ≤ k → cumAt (fun j => (v.take k).getD j 0) i = cumAt (fun j => v.getD j 0) i := by
    intro i hi
    apply cumAt_congr
    intro j hj
    rw [getD_take_lt _ _ _ _ (by omega)]
  unfold flowAcceleration
  by_cases h1 : v.length < w ∨ r ≥ w
  · rw [if_pos h1, if_pos (by rw [List.length_take]; omega), List.length_take]
    exact tabulate_causal _ _ _ _ (fun _ _ _ => rfl)
  rw [if_neg h1]
  by_cases h2 : (v.take k).length < w ∨ r ≥ w
  · rw [if_pos h2, List.length_take]
    rw [List.length_take] at h2
    apply tabulate_causal
    intro i hk hn
    rw [if_pos (by omega)]
  rw [if_neg h2, List.length_take]
  apply tabulate_causal
  intro i hk hn
  by_cases hw : i + 1 < w
  · rw [if_pos hw, if_pos hw]
  rw [if_neg hw, if_neg hw]
  simp only [hc (i + 1) (by omega), hc (i + 1 - r) (by omega), hc (i + 1 - w) (by omega)]

/-- **C35.**  VPIN. -/
theorem C35_vpin (eps : K) (b s : List (Option K)) (w k : Nat) : vpin eps (b.take k) (s.take k) w = (vpin eps b s w).take k := by
  have hc : ∀ f : K → K → K, ∀ i, i ≤ k → cumAt (vpinTerm f (b.take k) (s.take k)) i = cumAt (vpinTerm f b s) i := by
    intro f i hi
    apply cumAt_congr
    intro j hj
    unfold vpinTerm
    rw [getD_take_lt _ _ _ _ (by omega), getD_take_lt _ _ _ _ (by omega)]
  have hn : ∀ i, i ≤ k → cumAt (vpinNan (b.take k) (s.take k)) i = cumAt (vpinNan b s) i := by
    intro i hi
    apply cumAt_congr
    intro j hj
    unfold vpinNan
    rw [getD_take_lt _ _ _ _ (by omega), getD_take_lt _ _ _ _ (by omega)]
  unfold vpin
  simp only
  rw [List.length_take]
  apply tabulate_causal
  intro i hk _
  simp only [hc _ (i + 1) (by omega), hc _ (i + 1 - w) (by omega), hn (i + 1) (by omega), hn (i + 1 - w) (by omega)]

/-! ## Correlation -/

theorem simpleReturn_take (price : List (Option K)) (k i : Nat) (h : i < k) : simpleReturn (price.take k) i = simpleReturn price i := by
  unfold simpleReturn
  rw [getD_take_lt _ _ _ _ h, getD_take_lt _ _ _ _ (by omega)]

theorem all_congr_left {α : Type} (l : List α) (p q : α → Bool) (h : ∀ a ∈ l, p a = q a) : l.all p = l.all q := by
  induction l with
  | nil => rfl
  | cons a t ih =>
    rw [List.all_cons, List.all_cons, h a List.mem_cons_self, ih (fun b hb => h b (List.mem_cons_of_mem _ hb))]

theorem noDecrease_take (xs : List (Option K)) (w i k : Nat) (h : i < k) (hw : w ≤ i) : noDecrease (xs.take k) w i = noDecrease xs w i := by
  unfold noDecrease
  apply all_congr_left
  intro j hj
  rw [List.mem_range'_1] at hj
  rw [getD_take_lt _ _ _ _ (by omega), getD_take_lt _ _ _ _ (by omega)]

theorem noIncrease_take (xs : List (Option K)) (w i k : Nat) (h : i < k) (hw : w ≤ i) : noIncrease (xs.take k) w i = noIncrease xs w i := by
  unfold noIncrease
  apply all_congr_left
  intro j hj
  rw [List.mem_range'_1] at hj
  rw [getD_take_lt _ _ _ _ (by omega), getD_take_lt _ _ _ _ (by omega)]

theorem filterMap_congr_left {α β : Type} (l : List α) (f g : α → Option β) (h : ∀ a ∈ l, f a = g a) : l.filterMap f = l.filterMap g := by
  induction l with
  | nil => rfl
  | cons a t ih =>
    rw [List.filterMap_cons, List.filterMap_cons, h a List.mem_cons_self, ih (fun b hb => h b (List.mem_cons_of_mem _ hb))]

/-- **C35.**  Price-volume correlation. -/
theorem C35_correlation (sqrt : K → K) (price volume : List (Option K)) (w k : Nat) :
    priceVolumeCorrelation sqrt (price.take k) (volume.take k) w = (priceVolumeCorrelation sqrt price volume w).take k := by
  unfold priceVolumeCorrelation
  rw [List.length_take]
  apply tabulate_causal
  intro i hk _
  unfold corrAt
  by_cases hw : i < w
  · rw [if_pos hw, if_pos hw]
  rw [if_neg hw, if_neg hw, simpleReturn_take _ _ _ hk, getD_take_lt _ _ _ _ hk, noDecrease_take _ _ _ _ hk (by omega),
    noDecrease_take _ _ _ _ hk (by omega), noIncrease_take _ _ _ _ hk (by omega)]
  have : validPairs (price.take k) (volume.take k) w i = validPairs price volume w i := by
    unfold validPairs
    apply filterMap_congr_left
    intro j hj
    rw [List.mem_range'_1] at hj
    rw [simpleReturn_take _ _ _ (by omega), getD_take_lt _ _ _ _ (by omega)]
  rw [this]

/-! ## Exponentially weighted deviations -/

theorem ewmsState_take (y : List (Option K)) (q : K) (k t : Nat) (h : t ≤ k) : ewmsState (y.take k) q t = ewmsState y q t := by
  induction t with
  | zero => rfl
  | succ t ih => rw [ewmsState, ewmsState, ih (by omega), getD_take_lt _ _ _ _ (by omega)]

/-- **C35.**  Exponentially weighted standard deviation. -/
theorem C35_ewms (sqrt : K → K) (y : List (Option K)) (span k : Nat) : ewms sqrt (y.take k) span = (ewms sqrt y span).take k := by
  unfold ewms
  split
  · rw [List.length_take]; exact tabulate_causal _ _ _ _ (fun _ _ _ => rfl)
  · simp only
    rw [List.length_take]
    apply tabulate_causal
    intro i hk _
    rw [ewmsState_take _ _ _ _ (by omega)]

theorem decayAt_take (decay : Int → K) (ts : List Int) (k i : Nat) (h : i < k) : decayAt decay (ts.take k) i = decayAt decay ts i := by
  unfold decayAt
  rw [getD_take_lt _ _ _ _ h, getD_take_lt _ _ _ _ (by omega)]

theorem ewmst0State_take (decay : Int → K) (ts : List Int) (y : List (Option K)) (k i : Nat) (h : i < k) :
    ewmst0State decay (ts.take k) (y.take k) i = ewmst0State decay ts y i := by
  induction i with
  | zero => rfl
  | succ i ih => rw [ewmst0State, ewmst0State, ih (by omega), getD_take_lt _ _ _ _ h, decayAt_take _ _ _ _ h]

/-- **C35.**  Time-decayed standard deviation around zero. -/
theorem C35_ewmst_mean0 (sqrt : K → K) (decay : Int → K) (floor : K) (ts : List Int) (y : List (Option K)) (k : Nat) :
    ewmstMean0 sqrt decay floor (ts.take k) (y.take k) = (ewmstMean0 sqrt decay floor ts y).take k := by
  unfold ewmstMean0
  rw [List.length_take]
  apply tabulate_causal
  intro i hk _
  rw [ewmst0State_take _ _ _ _ _ hk]

theorem ewmstState_take (decay : Int → K) (ts : List Int) (y : List (Option K)) (k i : Nat) (h : i < k) :
    ewmstState decay (ts.take k) (y.take k) i = ewmstState decay ts y i := by
  induction i with
  | zero => rfl
  | succ i ih => rw [ewmstState, ewmstState, ih (by omega), getD_take_lt _ _ _ _ h, decayAt_take _ _ _ _ h]

/-- **C35.**  Time-decayed standard deviation. -/
theorem C35_ewmst (sqrt : K → K) (decay : Int → K) (floor : K) (ts : List Int) (y : List (Option K)) (k : Nat) :
    ewmst sqrt decay floor (ts.take k) (y.take k) = (ewmst sqrt decay floor ts y).take k := by
  unfold ewmst
  rw [List.length_take]
  apply tabulate_causal
  intro i hk _
  rw [ewmstState_take _ _ _ _ _ hk]

/-! ## True range and ATR -/

/-- **C35.**  True range. -/
theorem C35_true_range (high low close tr : List (Option K)) (k : Nat) (h : trueRange high low close = .ok tr) :
    trueRange (high.take k) (low.take k) (close.take k) = .ok (tr.take k) := by
  unfold trueRange at h ⊢
  split at h
  · rename_i hl
    injection h with h
    subst h
    rw [if_pos (by simp only [List.length_take]; omega)]
    rw [List.length_take]
    congr 1
    apply tabulate_causal
    intro i hk _
    unfold trueRangeAt
    rw [getD_take_lt high _ _ _ hk, getD_take_lt low _ _ _ hk, getD_take_lt close _ _ _ (by omega),
      getD_take_lt high _ _ _ (by omega), getD_take_lt low _ _ _ (by omega)]
  · cases h

example : trueRange [some (3 : ℚ), some 5] [some 1, some 4] [some 2, some 4] = .ok [some 2, some 3] := by decide +kernel

theorem atrEma_take (tr : List (Option K)) (w m k : Nat) (h : w + m ≤ k) : atrEma (tr.take k) w m = atrEma tr w m := by
  induction m with
  | zero => rw [atrEma, atrEma, List.take_take, Nat.min_eq_left (by omega)]
  | succ m ih => rw [atrEma, atrEma, ih (by omega), getD_take_lt _ _ _ _ (by omega)]

/-- **C35.**  Average true range, in all modes. -/
theorem C35_atr (high low close out : List (Option K)) (w k : Nat) (ema norm : Bool) (h : atr high low close w ema norm = .ok out) :
    atr (high.take k) (low.take k) (close.take k) w ema norm = .ok (out.take k) := by
  unfold atr at h ⊢
  cases ht : trueRange high low close with
  | error e => rw [ht] at h; cases h
  | ok tr =>
    rw [ht] at h
    injection h with h
    subst h
    rw [C35_true_range high low close tr k ht]
    simp only
    rw [List.length_take]
    congr 1
    apply tabulate_causal
    intro i hk _
    have e1 : i + 1 ≥ w → atrEma (tr.take k) w (i + 1 - w) = atrEma tr w (i + 1 - w) := fun _ => atrEma_take _ _ _ _ (by omega)
    have e2 : i + 1 ≥ w → atrSma (high.take k) (low.take k) (close.take k) (tr.take k) w i = atrSma high low close tr w i := by
      intro hw
      unfold atrSma
      rw [getD_take_lt _ _ _ _ hk, getD_take_lt _ _ _ _ hk, getD_take_lt _ _ _ _ hk, window_take _ _ _ _ hk (by omega)]
    have e3 : (if i + 1 < w then none else if ema = true then atrEma (tr.take k) w (i + 1 - w)
        else atrSma (high.take k) (low.take k) (close.take k) (tr.take k) w i) =
        (if i + 1 < w then none else if ema = true then atrEma tr w (i + 1 - w) else atrSma high low close tr w i) := by
      by_cases hw : i + 1 < w
      · rw [if_pos hw, if_pos hw]
      · rw [if_neg hw, if_neg hw, e1 (by omega), e2 (by omega)]
    rw [e3]
    unfold atrNormalize
    rw [getD_take_lt high _ _ _ hk, getD_take_lt low _ _ _ hk]

example : atr [some 3, some 5, some (6 : ℚ)] [some 1, some 2, some 3] [some 2, some 4, some 5] 2 false false =
    .ok [none, some (5 / 2), some 3] := by decide +kernel

/-! ## Variance ratio -/

theorem tabulate_take {β : Type} (n k : Nat) (g : Nat → β) : (tabulate n g).take k = tabulate (min k n) g :=
  (tabulate_causal n k g g (fun _ _ _ => rfl)).symm

/-- **C35.**  The variance ratio is causal among series long enough to be evaluated at all (at least `w + 4` bars). -/
theorem C35_variance_ratio_partial (log : K → K) (isLog : Bool) (price : List (Option K)) (w ddof k : Nat) (hk : w + 4 ≤ k) (hn : w + 4 ≤ price.length) :
    varianceRatio log isLog (price.take k) w ddof = (varianceRatio log isLog price w ddof).take k := by
  have hr1 : tabulate (price.take k).length (vrReturn log isLog (price.take k)) = (tabulate price.length (vrReturn log isLog price)).take k := by
    rw [List.length_take]
    apply tabulate_causal
    intro i hi _
    unfold vrReturn
    rw [getD_take_lt _ _ _ _ hi, getD_take_lt _ _ _ _ (by omega)]
  unfold varianceRatio
  rw [if_neg (by rw [List.length_take]; omega), if_neg (by omega)]
  simp only
  rw [hr1]
  generalize hr : tabulate price.length (vrReturn log isLog price) = r1
  have hr4 : tabulate (price.take k).length (vrReturn4 (r1.take k)) = (tabulate price.length (vrReturn4 r1)).take k := by
    rw [List.length_take]
    apply tabulate_causal
    intro i hi _
    unfold vrReturn4
    rw [getD_take_lt _ _ _ _ hi, getD_take_lt _ _ _ _ (by omega), getD_take_lt _ _ _ _ (by omega), getD_take_lt _ _ _ _ (by omega)]
  rw [hr4, C35_rolling_variance, C35_rolling_variance, List.length_take]
  apply tabulate_causal
  intro i hi _
  rw [getD_take_lt _ _ _ _ hi, getD_take_lt _ _ _ _ hi]

example : let price : List (Option ℚ) := [some 1, some 2, some 4, some 5, some 4, some 3, some 6, some 8, some 7, some 9]
    4 + 4 ≤ 9 ∧ 4 + 4 ≤ price.length ∧ (varianceRatio id false (price.take 9) 4 1)[8]? ≠ some none := by decide +kernel

theorem tabulate_const_eq {β : Type} (n : Nat) (c : β) (l : List β) (hl : l.length = n) : tabulate n (fun _ => c) = l ↔ ∀ i < n, l[i]? = some c := by
  constructor
  · rintro rfl i hi
    rw [tabulate_get?, if_pos hi]
  · intro h
    apply List.ext_getElem?
    intro i
    rw [tabulate_get?]
    by_cases hi : i < n
    · rw [if_pos hi, h i hi]
    · rw [if_neg hi, List.getElem?_eq_none (by omega)]

theorem varianceRatio_length (log : K → K) (isLog : Bool) (price : List (Option K)) (w ddof : Nat) :
    (varianceRatio log isLog price w ddof).length = price.length := by
  unfold varianceRatio
  split
  · exact length_tabulate _ _
  · exact length_tabulate _ _

/-- **C35, exactly where the variance ratio is causal.**  Evaluating the first `k` bars gives the first `k` values of the whole evaluation
if and only if the prefix is long enough to be evaluated, or the whole series is too short to be evaluated, or nothing was cut off, or
every value cut down to the prefix was NaN anyway. -/
theorem C35_variance_ratio_exact (log : K → K) (isLog : Bool) (price : List (Option K)) (w ddof k : Nat) :
    varianceRatio log isLog (price.take k) w ddof = (varianceRatio log isLog price w ddof).take k ↔
      w + 4 ≤ k ∨ price.length < w + 4 ∨ ∀ i < k, (varianceRatio log isLog price w ddof)[i]? = some none := by
  by_cases hn : price.length < w + 4
  · refine iff_of_true ?_ (Or.inr (Or.inl hn))
    unfold varianceRatio
    rw [if_pos (by rw [List.length_take]; omega), if_pos hn, tabulate_take, List.length_take]
  · by_cases hk : w + 4 ≤ k
    · exact iff_of_true (C35_variance_ratio_partial log isLog price w ddof k hk (by omega)) (Or.inl hk)
    · have h1 : varianceRatio log isLog (price.take k) w ddof = tabulate k (fun _ => none) := by
        unfold varianceRatio
        rw [if_pos (by rw [List.length_take]; omega), List.length_take, Nat.min_eq_left (by omega)]
      rw [h1, tabulate_const_eq k none _ (by rw [List.length_take, varianceRatio_length]; omega)]
      constructor
      · intro h
        refine Or.inr (Or.inr fun i hi => ?_)
        have := h i hi
        rwa [List.getElem?_take_of_lt hi] at this
      · rintro (h | h | h) i hi
        · omega
        · omega
        · rw [List.getElem?_take_of_lt hi, h i hi]

/-- The third case of `C35_variance_ratio_exact` occurs: flat prices have no variance to divide by. -/
example : ∀ i < 3, (varianceRatio (fun x : ℚ => x) false [some 1, some 1, some 1, some 1, some 1, some 1] 2 1)[i]? = some none := by
  decide +kernel

/-- **C35 fails for the variance ratio.**  Below `w + 4` bars everything is NaN, and later bars turn earlier NaNs into values: with
`w = 6`, position 6 is NaN when the series ends there and a number when more bars follow. -/
theorem C35_variance_ratio_not_causal :
    ∃ (price : List (Option ℚ)) (w ddof k : Nat), varianceRatio (fun x => x) false (price.take k) w ddof ≠
      (varianceRatio (fun x => x) false price w ddof).take k := by
  refine ⟨[some 1, some 2, some 1, some 2, some 3, some 1, some 1, some 2, some 5, some 1], 6, 1, 7, by decide +kernel⟩

end FinML
