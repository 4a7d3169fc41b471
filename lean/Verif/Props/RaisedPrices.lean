/-
C173: all prices raised by the same amount.  `finmlkit/feature/core/momentum.py`, `ma.py`, `trend.py`, `utils.py`,
`volatility.py`, `finmlkit/feature/transforms.py:CandleShape`.
-/
import Verif.Props.SymmetryIndicators
import Verif.Props.CombinedSeries

set_option linter.unusedSectionVars false

namespace FinML

variable {K : Type} [Field K] [LinearOrder K] [IsStrictOrderedRing K]

/-- The series with `d` added to every value. -/
def raised (d : K) (xs : List K) : List K := xs.map (fun x => x + d)

theorem raised_eq_mir (d : K) (xs : List K) : raised d xs = mir d (mir 0 xs) := by
  unfold raised mir
  rw [List.map_map]
  apply List.map_congr_left
  intro x _
  simp only [Function.comp]
  ring

theorem raised_length (d : K) (xs : List K) : (raised d xs).length = xs.length := by simp [raised]

theorem raised_getD (d : K) (xs : List K) {i : Nat} (hi : i < xs.length) : (raised d xs).getD i 0 = xs.getD i 0 + d := by
  rw [List.getD_eq_getElem _ _ (by rw [raised_length]; exact hi), List.getD_eq_getElem _ _ hi]
  simp [raised]

theorem map_map_option_id {α : Type} (f g : α → α) (h : ∀ x, f (g x) = x) (l : List (Option α)) :
    (l.map (Option.map g)).map (Option.map f) = l := by
  rw [List.map_map]
  conv_rhs => rw [← List.map_id l]
  apply List.map_congr_left
  intro o _
  cases o with
  | none => rfl
  | some x => simp [h]

/-- **C173 (oscillators).** RSI, ADX and the stochastic oscillator do not change when all prices are raised by the same
amount. -/
theorem C173_oscillators (d : K) (xs high low close : List K) (w : Nat) (h1 : close.length = low.length) (h2 : close.length = high.length) :
    rsiWilder (raised d xs) w = rsiWilder xs w ∧
    adxCore (raised d high) (raised d low) (raised d close) w = adxCore high low close w ∧
    (1 ≤ w → stochK (raised d close) (raised d low) (raised d high) w = stochK close low high w) := by
  refine ⟨?_, ?_, ?_⟩
  · unfold rsiWilder tabulate
    rw [raised_length]
    apply List.map_congr_left
    intro i hi
    rw [List.mem_range] at hi
    by_cases hw : i < w
    · rw [if_pos hw, if_pos hw]
    rw [if_neg hw, if_neg hw]
    have hd : ∀ j, 1 ≤ j → j ≤ w + (i - w) → (raised d xs).getD j 0 - (raised d xs).getD (j - 1) 0 = xs.getD j 0 - xs.getD (j - 1) 0 := by
      intro j hj1 hj2
      rw [raised_getD _ _ (by omega), raised_getD _ _ (by omega)]
      ring
    rw [wilderAvg_congr_le (gainAt (raised d xs)) (gainAt xs) w (i - w) (fun j a b => by unfold gainAt; rw [hd j a b]),
      wilderAvg_congr_le (lossAt (raised d xs)) (lossAt xs) w (i - w) (fun j a b => by unfold lossAt; rw [hd j a b])]
  · rw [raised_eq_mir, raised_eq_mir, raised_eq_mir, C108_adx d (mir 0 low) (mir 0 high) (mir 0 close) w (by simp only [mir_length]; omega)
      (by simp only [mir_length]; omega), C108_adx 0 high low close w (by omega) (by omega)]
  · intro hw
    rw [raised_eq_mir, raised_eq_mir, raised_eq_mir, C108_stoch d (mir 0 close) (mir 0 high) (mir 0 low) w hw (by simp only [mir_length]; omega)
      (by simp only [mir_length]; omega), C108_stoch 0 close low high w hw h1 h2]
    exact map_map_option_id _ _ (fun x => by ring) _

/-- **C173 (bands and averages).** Z-scores and the position in the Bollinger bands do not change; the moving averages rise
by the same amount. -/
theorem C173_bands (sqrt : K → K) (d : K) (xs : List K) (w ddof : Nat) (numStd : K) (hw : 1 ≤ w) :
    zscore sqrt (raised d xs) w ddof = zscore sqrt xs w ddof ∧
    bollingerB sqrt (raised d xs) w numStd = bollingerB sqrt xs w numStd ∧
    sma (raised d xs) w = (sma xs w).map (Option.map (fun x => x + d)) ∧
    ∃ out, ewma xs w = .ok out ∧ ewma (raised d xs) w = .ok (raised d out) := by
  refine ⟨?_, ?_, ?_, ?_⟩
  · rw [raised_eq_mir, (C108_bands sqrt d (mir 0 xs) w ddof numStd hw).1, (C108_bands sqrt 0 xs w ddof numStd hw).1]
    exact map_map_option_id _ _ (fun x => by ring) _
  · rw [raised_eq_mir, (C108_bands sqrt d (mir 0 xs) w ddof numStd hw).2, (C108_bands sqrt 0 xs w ddof numStd hw).2]
    exact map_map_option_id _ _ (fun x => by ring) _
  · have hsum : ∀ l : List K, (l.map (fun x => x + d)).sum = l.sum + (l.length : K) * d := by
      intro l
      induction l with
      | nil => simp
      | cons x l ih => simp only [List.map_cons, List.sum_cons, ih, List.length_cons, Nat.cast_add, Nat.cast_one]; ring
    unfold sma rolling tabulate
    rw [raised_length, List.map_map]
    apply List.map_congr_left
    intro i hi
    rw [List.mem_range] at hi
    simp only [Function.comp]
    by_cases h : i + 1 < w
    · rw [if_pos h, if_pos h]; rfl
    rw [if_neg h, if_neg h, raised, window_map_fn, hsum, window_length _ _ _ hi (by omega)]
    simp only [Option.map_some, Option.some.injEq]
    have hw0 : (w : K) ≠ 0 := by
      have : (1 : K) ≤ (w : K) := by exact_mod_cast hw
      intro h0
      rw [h0] at this
      linarith
    field_simp
  · obtain ⟨out, e1, -, -⟩ := C32_ewma_closed_form xs w hw
    obtain ⟨out', e2, -, -⟩ := C32_ewma_closed_form (raised d xs) w hw
    refine ⟨out, e1, ?_⟩
    rw [e2]
    obtain ⟨-, l1, g1⟩ := ewma_discounted _ _ _ e1
    obtain ⟨-, l2, g2⟩ := ewma_discounted _ _ _ e2
    congr 1
    apply List.ext_getElem?
    intro t
    by_cases ht : t < xs.length
    swap
    · rw [List.getElem?_eq_none (by rw [l2, raised_length]; omega), List.getElem?_eq_none (by rw [raised_length, l1]; omega)]
    have hq : (0 : K) ≤ 1 - 2 / ((w : K) + 1) := by
      have h1 : (1 : K) ≤ (w : K) := by exact_mod_cast hw
      rw [sub_nonneg, div_le_one (by linarith)]
      linarith
    have hne := (discounted_one_pos (1 - 2 / ((w : K) + 1)) hq t).ne'
    rw [g2 t (by rw [raised_length]; exact ht), show (raised d out)[t]? = out[t]?.map (fun x => x + d) from List.getElem?_map, g1 t ht, Option.map_some, Option.some.injEq,
      discounted_congr_le _ (fun i => (raised d xs).getD i 0) (fun i => 1 * xs.getD i 0 + d * 1) t
        (fun i hi => by rw [raised_getD _ _ (by omega)]; ring),
      discounted_combine _ 1 d (fun i => xs.getD i 0) (fun _ => 1), one_mul, add_div, mul_div_cancel_right₀ _ hne]

/-- **C173 (ranges).** True ranges, rolling variances and the shape of a candle do not change; missing prices stay missing. -/
theorem C173_ranges (d : K) (high low close : List (Option K)) (w ddof mp : Nat) (eps op hi lo cl vw vw' : K) :
    trueRange (high.map (Option.map (fun x => x + d))) (low.map (Option.map (fun x => x + d))) (close.map (Option.map (fun x => x + d))) =
      trueRange high low close ∧
    rollingVariance (close.map (Option.map (fun x => x + d))) w ddof mp = rollingVariance close w ddof mp ∧
    (candleShape eps (op + d) (hi + d) (lo + d) (cl + d) vw').wickUp = (candleShape eps op hi lo cl vw).wickUp ∧
    (candleShape eps (op + d) (hi + d) (lo + d) (cl + d) vw').wickDn = (candleShape eps op hi lo cl vw).wickDn ∧
    (candleShape eps (op + d) (hi + d) (lo + d) (cl + d) vw').body = (candleShape eps op hi lo cl vw).body := by
  have getO : ∀ (l : List (Option K)) i, (l.map (Option.map (fun x => x + d))).getD i none = (l.getD i none).map (fun x => x + d) := by
    intro l i
    rw [List.getD_eq_getElem?_getD, List.getD_eq_getElem?_getD, List.getElem?_map]
    cases l[i]? <;> rfl
  refine ⟨?_, ?_, ?_⟩
  · unfold trueRange
    simp only [List.length_map]
    by_cases hl : high.length = low.length ∧ low.length = close.length
    · rw [if_pos hl, if_pos hl]
      congr 1
      unfold tabulate
      apply List.map_congr_left
      intro i _
      unfold trueRangeAt
      simp only [getO]
      by_cases h0 : i = 0
      · rw [if_pos h0, if_pos h0]
        cases high.getD 0 none <;> cases low.getD 0 none <;> simp
      · rw [if_neg h0, if_neg h0]
        cases high.getD i none <;> cases low.getD i none <;> cases close.getD (i - 1) none <;> simp
    · rw [if_neg hl, if_neg hl]
  · apply List.ext_getElem?
    intro i
    by_cases hi : i < close.length
    swap
    · rw [List.getElem?_eq_none (by unfold rollingVariance rolling; rw [length_tabulate, List.length_map]; omega),
        List.getElem?_eq_none (by unfold rollingVariance rolling; rw [length_tabulate]; omega)]
    rw [C38_rolling_variance_exact _ _ _ _ _ (by rw [List.length_map]; exact hi), C38_rolling_variance_exact _ _ _ _ _ hi]
    simp only [← List.map_drop, ← List.map_take, filterMap_map_option, List.length_map]
    by_cases hc : w ≤ i + 1 ∧ mp ≤ (((close.drop (i + 1 - w)).take w).filterMap id).length ∧ ddof < (((close.drop (i + 1 - w)).take w).filterMap id).length
    swap
    · rw [if_neg hc, if_neg hc]
    rw [if_pos hc, if_pos hc]
    congr 2
    generalize ((close.drop (i + 1 - w)).take w).filterMap id = l at hc
    have hn : (l.length : K) ≠ 0 := by
      have : 0 < l.length := by omega
      exact_mod_cast this.ne'
    have hsum : ∀ l : List K, (l.map (fun x => x + d)).sum = l.sum + (l.length : K) * d := by
      intro l
      induction l with
      | nil => simp
      | cons x l ih => simp only [List.map_cons, List.sum_cons, ih, List.length_cons, Nat.cast_add, Nat.cast_one]; ring
    unfold twoPassVar
    rw [hsum, List.length_map, List.map_map]
    congr 2
    apply List.map_congr_left
    intro x _
    simp only [Function.comp]
    congr 1
    field_simp
    ring
  · unfold candleShape
    simp only [max_add_add_right, min_add_add_right, add_sub_add_right_eq_sub]
    exact ⟨trivial, trivial, trivial⟩

/-- **C173 (average true range).** The average true range in price units does not change, in both variants. -/
theorem C173_atr (d : K) (high low close : List (Option K)) (w : Nat) (ema : Bool) :
    atr (high.map (Option.map (fun x => x + d))) (low.map (Option.map (fun x => x + d))) (close.map (Option.map (fun x => x + d))) w ema false =
      atr high low close w ema false := by
  have isN : ∀ (l : List (Option K)) i, ((l.map (Option.map (fun x => x + d))).getD i none).isNone = (l.getD i none).isNone := by
    intro l i
    rw [List.getD_eq_getElem?_getD, List.getD_eq_getElem?_getD, List.getElem?_map]
    cases l[i]? with
    | none => rfl
    | some o => cases o <;> rfl
  unfold atr
  rw [(C173_ranges d high low close w 0 0 0 0 0 0 0 0 0).1]
  cases trueRange high low close with
  | error e => rfl
  | ok tr => simp only [List.length_map, atrSma, isN, Bool.false_eq_true, if_false]

/-- **C173 (normalised average true range).** Divided by the mid price it does change. -/
theorem C173_atr_normalized_differs :
    atr [some (3 : ℚ), some 5] [some 1, some 3] [some 2, some 4] 2 false true = .ok [none, some (5 / 8)] ∧
    atr [some (7 : ℚ), some 9] [some 5, some 7] [some 6, some 8] 2 false true = .ok [none, some (5 / 16)] ∧
    atr [some (3 : ℚ), some 5] [some 1, some 3] [some 2, some 4] 2 false false = .ok [none, some (5 / 2)] ∧
    atr [some (7 : ℚ), some 9] [some 5, some 7] [some 6, some 8] 2 false false = .ok [none, some (5 / 2)] := by decide +kernel

/-- **C173 (returns do change).** Relative changes, and with them everything measured in per cent of the price, do not
survive raising the prices. -/
theorem C173_returns_differ : roc [2, (3 : ℚ)] 1 = [none, some 50] ∧ roc (raised 2 [2, (3 : ℚ)]) 1 = [none, some 25] ∧
    pctChange [2, (3 : ℚ)] 1 = [none, some (1 / 2)] ∧ pctChange (raised 2 [2, (3 : ℚ)]) 1 = [none, some (1 / 4)] := by decide +kernel

example : rsiWilder (raised 10 [1, 3, 2, (5 : ℚ)]) 2 = [none, none, some (200 / 3), some (800 / 9)] ∧
    stochK (raised 10 [1, 3, (2 : ℚ)]) (raised 10 [0, 2, 1]) (raised 10 [2, 4, 3]) 2 = [none, some 75, some (100 / 3)] ∧
    sma (raised 10 [1, 3, (2 : ℚ)]) 2 = [none, some 12, some (25 / 2)] ∧
    rollingVariance ([some (1 : ℚ), none, some 3].map (Option.map (fun x => x + 10))) 3 1 1 = [none, none, some 2] ∧
    trueRange ([some (2 : ℚ), some 4].map (Option.map (fun x => x + 10))) ([some 1, some 3].map (Option.map (fun x => x + 10)))
      ([some 1, some 3].map (Option.map (fun x => x + 10))) = .ok [some 1, some 3] := by decide +kernel

end FinML
