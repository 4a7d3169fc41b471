/-
C157: array accesses and uninitialised entries of the compiled feature kernels with a window.
-/
import Verif.Props.CheckedFeatures

set_option linter.unusedSectionVars false

namespace FinML

variable {K : Type} [Field K] [LinearOrder K] [IsStrictOrderedRing K]

/-! ## Differences over a period -/

/-- **C157 (`roc`).** The rate of change stays inside the arrays and writes every entry, whatever the period. -/
theorem C157_roc (xs : List K) (p : Nat) : rocChk xs p = some ((roc xs p).map some) := by
  unfold rocChk roc
  set g : Nat → Option K := fun i => if i < p then none else some ((xs.getD i 0 - xs.getD (i - p) 0) / xs.getD (i - p) 0 * 100) with hg
  rw [filled_prefix xs.length p none g (fun j hj => by simp [hg, hj])]
  by_cases hp : p ≤ xs.length
  · have hf := fillLoop_filled (rocStepChk xs p) none xs.length g (fun _ => ()) (xs.length - p) p (by omega) (by
      intro i h1 h2
      unfold rocStepChk
      rw [rd_getD xs 0 i (by omega), rd_sub_getD xs 0 i p h1 (by omega)]
      simp [hg, show ¬ i < p by omega])
    rw [hf, filled_all _ _ _ (by omega)]
  · rw [show xs.length - p = 0 by omega]
    simp only [List.range'_zero, fillLoop]
    rw [filled_all _ _ _ (by omega)]

/-- **C157 (`pct_change`).** The relative change stays inside the arrays and writes every entry, whatever the number of periods. -/
theorem C157_pct_change (xs : List K) (p : Nat) : pctChangeChk xs p = some ((pctChange xs p).map some) := by
  unfold pctChangeChk pctChange
  set g : Nat → Option K := fun t =>
    if t < p then none
    else
      let base := xs.getD (t - p) 0
      if base > 0 then some ((xs.getD t 0 - base) / base) else none with hg
  rw [filled_prefix xs.length p none g (fun j hj => by simp [hg, hj])]
  by_cases hp : p ≤ xs.length
  · have hf := fillLoop_filled (pctChangeStepChk xs p) none xs.length g (fun _ => ()) (xs.length - p) p (by omega) (by
      intro i h1 h2
      unfold pctChangeStepChk
      rw [rd_getD xs 0 i (by omega), rd_sub_getD xs 0 i p h1 (by omega)]
      simp [hg, show ¬ i < p by omega])
    rw [hf, filled_all _ _ _ (by omega)]
  · rw [show xs.length - p = 0 by omega]
    simp only [List.range'_zero, fillLoop]
    rw [filled_all _ _ _ (by omega)]

/-! ## Bollinger %B -/

/-- **C157 (`bollinger_percent_b`).** For a window of at least one the kernel stays inside the arrays and writes every entry. -/
theorem C157_bollinger (sqrt : K → K) (close : List K) (w : Nat) (hw : 1 ≤ w) (numStd : K) :
    bollingerChk sqrt close w numStd = some ((bollingerB sqrt close w numStd).map some) := by
  unfold bollingerChk bollingerB
  set n := close.length with hn
  set S := rollSumState (fun k => close.getD k 0) w with hS
  set Q := rollSumState (fun k => close.getD k 0 ^ 2) w with hQ
  set g : Nat → Option K := fun i => if i + 1 < w then none else bollingerVal sqrt w numStd (close.getD i 0) (S (i + 1 - w)) (Q (i + 1 - w)) with hg
  by_cases hlt : n < w
  · dsimp only
    rw [if_pos hlt, filled_prefix n w none (fun _ => none) (fun _ _ => rfl), filled_all _ _ _ (by omega)]
    congr 2
    exact List.map_congr_left (fun i hi => by
      rw [List.mem_range] at hi
      simp [hg, show i + 1 < w by omega])
  · dsimp only
    rw [if_neg hlt, filled_prefix n w none (fun _ => none) (fun _ _ => rfl)]
    rw [sumLoop_eq _ (fun k => close.getD k 0) _ (fun k hk => rd_getD close 0 k (by rw [List.mem_range] at hk; omega)),
      sumLoop_eq _ (fun k => close.getD k 0 ^ 2) _ (fun k hk => by rw [rd_getD close 0 k (by rw [List.mem_range] at hk; omega)]; rfl)]
    have hc : rd close ((w : Int) - 1) = some (close.getD (w - 1) 0) := rd_pred_getD close 0 w hw (by omega)
    have hwr : wr (filled none n w (fun _ => (none : Option K))) ((w : Int) - 1) (some (g (w - 1))) = some (filled none n w g) := by
      rw [show (w : Int) - 1 = ((w - 1 : Nat) : Int) by omega]
      exact wr_filled_over none n w (w - 1) _ g (by omega) (by omega) (fun j h1 h2 => by simp [hg, show j + 1 < w by omega])
    have e : g (w - 1) = bollingerVal sqrt w numStd (close.getD (w - 1) 0) (S 0) (Q 0) := by
      simp [hg, show ¬ w - 1 + 1 < w by omega, show w - 1 + 1 - w = 0 by omega]
    have hf := fillLoop_filled (bollingerStepChk sqrt close w numStd) none n g (fun i => (S (i - w), Q (i - w))) (n - w) w (by omega) (by
      intro i h1 h2
      unfold bollingerStepChk
      rw [rd_getD close 0 i (by omega), rd_sub_getD close 0 i w h1 (by omega)]
      obtain ⟨m, rfl⟩ : ∃ m, i = w + m := ⟨i - w, by omega⟩
      simp only [Option.bind_eq_bind, Option.bind_some, hg, show ¬ w + m + 1 < w by omega, if_false, show w + m + 1 - w = m + 1 by omega,
        show w + m - w = m by omega]
      rfl)
    rw [e] at hwr
    simp only [Option.bind_eq_bind, Option.bind_some, hc]
    have hwr' : wr (filled none n w (fun _ => (none : Option K))) ((w : Int) - 1) (some (bollingerVal sqrt w numStd (close.getD (w - 1) 0)
      ((List.range w).map (fun k => close.getD k 0)).sum ((List.range w).map (fun k => close.getD k 0 ^ 2)).sum)) = some (filled none n w g) := hwr
    rw [hwr']
    simp only [Option.bind_some]
    have hf' : fillLoop (bollingerStepChk sqrt close w numStd) (List.range' w (n - w))
      (((List.range w).map (fun k => close.getD k 0)).sum, ((List.range w).map (fun k => close.getD k 0 ^ 2)).sum) (filled none n w g) =
      some (filled none n (w + (n - w)) g) := by
      have := hf
      simp only [Nat.sub_self] at this
      exact this
    rw [hf', filled_all _ _ _ (by omega)]

example : bollingerChk (fun x : ℚ => x) [1, 3, 5] 2 1 = some ((bollingerB (fun x : ℚ => x) [1, 3, 5] 2 1).map some) :=
  C157_bollinger _ _ 2 (by decide) 1

/-! ## RSI -/

theorem diffChk_eq (xs : List K) (i : Nat) (h1 : 1 ≤ i) (hi : i < xs.length) : diffChk xs i = some (xs.getD i 0 - xs.getD (i - 1) 0) := by
  unfold diffChk
  rw [rd_getD xs 0 i hi, rd_pred_getD xs 0 i h1 (by omega)]
  rfl

/-- **C157 (`rsi_wilder`).** The RSI stays inside the arrays and writes every entry. -/
theorem C157_rsi (xs : List K) (w : Nat) : rsiChk xs w = some ((rsiWilder xs w).map some) := by
  unfold rsiChk rsiWilder
  set n := xs.length with hn
  set G := wilderAvg (gainAt xs) w with hG
  set L := wilderAvg (lossAt xs) w with hL
  set g : Nat → Option K := fun i => if i < w then none else rsiVal (G (i - w)) (L (i - w)) with hg
  dsimp only
  rw [filled_prefix n w none g (fun j hj => by simp [hg, hj])]
  by_cases hlt : n ≤ w
  · rw [if_pos hlt, filled_all _ _ _ hlt]
  · rw [if_neg hlt]
    have mem : ∀ k, k ∈ List.range' 1 w → 1 ≤ k ∧ k < n := by
      intro k hk
      rw [List.mem_range'_1] at hk
      omega
    rw [sumLoop_eq _ (gainAt xs) _ (fun k hk => by rw [diffChk_eq xs k (mem k hk).1 (mem k hk).2]; rfl),
      sumLoop_eq _ (lossAt xs) _ (fun k hk => by
        rw [diffChk_eq xs k (mem k hk).1 (mem k hk).2]
        simp only [Option.map_some, lossAt]
        congr 1
        generalize xs.getD k 0 - xs.getD (k - 1) 0 = d
        rcases lt_trichotomy d 0 with h | h | h
        · simp [h, not_lt.mpr h.le]
        · simp [h]
        · simp [h, not_lt.mpr h.le])]
    have hwr : wr (filled none n w g) (w : Int) (some (rsiVal (G 0) (L 0))) = some (filled none n (w + 1) g) := by
      have := wr_filled none n w g (by omega)
      rw [show g w = rsiVal (G 0) (L 0) by simp [hg]] at this
      exact this
    have hf := fillLoop_filled (rsiStepChk xs w) none n g (fun i => (G (i - (w + 1)), L (i - (w + 1)))) (n - (w + 1)) (w + 1) (by omega) (by
      intro i h1 h2
      unfold rsiStepChk
      rw [diffChk_eq xs i (by omega) (by omega)]
      obtain ⟨m, rfl⟩ : ∃ m, i = w + 1 + m := ⟨i - (w + 1), by omega⟩
      simp only [Option.bind_eq_bind, Option.bind_some, hg, show ¬ w + 1 + m < w by omega, if_false, show w + 1 + m - w = m + 1 by omega,
        show w + 1 + m + 1 - (w + 1) = m + 1 by omega, show w + 1 + m - (w + 1) = m by omega]
      rw [hG, hL]
      simp only [wilderAvg, gainAt, lossAt, show w + (m + 1) = w + 1 + m by omega])
    simp only [Nat.sub_self] at hf
    simp only [Option.bind_eq_bind, Option.bind_some]
    have hwr' : wr (filled none n w g) (w : Int) (some (rsiVal (((List.range' 1 w).map (gainAt xs)).sum / (w : K))
      (((List.range' 1 w).map (lossAt xs)).sum / (w : K)))) = some (filled none n (w + 1) g) := hwr
    rw [hwr']
    simp only [Option.bind_some]
    have hf' : fillLoop (rsiStepChk xs w) (List.range' (w + 1) (n - (w + 1))) (((List.range' 1 w).map (gainAt xs)).sum / (w : K),
      ((List.range' 1 w).map (lossAt xs)).sum / (w : K)) (filled none n (w + 1) g) = some (filled none n (w + 1 + (n - (w + 1))) g) := hf
    rw [hf', filled_all _ _ _ (by omega)]

/-! ## Stochastic oscillator -/

theorem window_nonempty_of {α : Type} (xs : List α) (len i : Nat) (hl : 1 ≤ len) (h1 : len ≤ i + 1) (hi : i < xs.length) : window xs len i ≠ [] := by
  intro h
  have := congrArg List.length h
  simp only [window, List.length_take, List.length_drop, List.length_nil] at this
  omega

theorem stochRangeChk_eq (low high : List K) (len m : Nat) (hl : 1 ≤ len) (hlo : len + m < low.length) (hhi : len + m < high.length) :
    stochRangeChk low high len (len + m) (stochState low high len m) = some (stochState low high len (m + 1)) := by
  unfold stochRangeChk
  rw [rd_sub_getD low 0 (len + m) len (by omega) (by omega), rd_sub_getD high 0 (len + m) len (by omega) (by omega)]
  simp only [Option.bind_eq_bind, Option.bind_some, stochState]
  split
  · simp only [sliceMinChk, sliceMaxChk, window_nonempty_of low len (len + m) hl (by omega) hlo, window_nonempty_of high len (len + m) hl (by omega) hhi,
      if_false, Option.bind_some]
  · rw [rd_getD low 0 _ hlo, rd_getD high 0 _ hhi]
    rfl

/-- **C157 (`stoch_k`).** For lows and highs as long as the closes and a window of at least one the kernel stays inside the arrays and
writes every entry. -/
theorem C157_stoch_k (close low high : List K) (len : Nat) (hl : 1 ≤ len) (h1 : close.length ≤ low.length) (h2 : close.length ≤ high.length) :
    stochKChk close low high len = some ((stochK close low high len).map some) := by
  unfold stochKChk stochK
  set n := close.length with hn
  set S := stochState low high len with hS
  set g : Nat → Option K := fun t => if t + 1 < len then none else stochVal (close.getD t 0) (S (t + 1 - len)) with hg
  dsimp only
  rw [filled_prefix n (len - 1) none g (fun j hj => by simp [hg, show j + 1 < len by omega])]
  by_cases hlt : n < len
  · rw [if_pos hlt, filled_all _ _ _ (by omega)]
  · rw [if_neg hlt]
    simp only [sliceMinChk, sliceMaxChk, window_nonempty_of low len (len - 1) hl (by omega) (by omega),
      window_nonempty_of high len (len - 1) hl (by omega) (by omega), if_false, Option.bind_eq_bind, Option.bind_some]
    rw [rd_pred_getD close 0 len hl (by omega)]
    simp only [Option.bind_some]
    have e : g (len - 1) = stochVal (close.getD (len - 1) 0) (npMin (window low len (len - 1)), npMax (window high len (len - 1))) := by
      simp only [hg, show ¬ len - 1 + 1 < len by omega, if_false, show len - 1 + 1 - len = 0 by omega]
      rfl
    have hwr : wr (filled none n (len - 1) g) ((len : Int) - 1) (some (g (len - 1))) = some (filled none n len g) := by
      rw [show (len : Int) - 1 = ((len - 1 : Nat) : Int) by omega, wr_filled none n (len - 1) g (by omega), show len - 1 + 1 = len by omega]
    rw [e] at hwr
    rw [hwr]
    simp only [Option.bind_some]
    have hf := fillLoop_filled (stochStepChk close low high len) none n g (fun i => S (i - len)) (n - len) len (by omega) (by
      intro i h3 h4
      unfold stochStepChk
      obtain ⟨m, rfl⟩ : ∃ m, i = len + m := ⟨i - len, by omega⟩
      simp only [show len + m - len = m by omega, show len + m + 1 - len = m + 1 by omega]
      rw [hS, stochRangeChk_eq low high len m hl (by omega) (by omega)]
      simp only [Option.bind_eq_bind, Option.bind_some]
      rw [rd_getD close 0 _ (by omega)]
      simp [hg, show ¬ len + m + 1 < len by omega, show len + m + 1 - len = m + 1 by omega, hS])
    simp only [Nat.sub_self] at hf
    have hf' : fillLoop (stochStepChk close low high len) (List.range' len (n - len))
      (npMin (window low len (len - 1)), npMax (window high len (len - 1))) (filled none n len g) = some (filled none n (len + (n - len)) g) := hf
    rw [hf', filled_all _ _ _ (by omega)]

example : stochKChk [(2 : ℚ), 4, 3] [1, 2, 3] [3, 4, 5] 2 = some [some none, some (some 100), some (some (100 / 3))] ∧
    stochKChk [(2 : ℚ), 4, 3] [1] [3] 2 = none := by decide +kernel

/-! ## Distance from the VWAP -/

theorem vwapStepChk_eq (log : K → K) (close volume : List K) (np m : Nat) (isLog : Bool) (hnp : 1 ≤ np) (h : close.length ≤ volume.length)
    (hm : np + m < close.length) (g : Nat → Option K)
    (hg : g = fun i => if i + 1 < np then none else vwapOut log close volume np isLog (i + 1 - np)) :
    vwapStepChk log close volume np isLog (filled none close.length (np + m) g) (np + m)
      (rollSumState (fun k => close.getD k 0 * volume.getD k 0) np m, rollSumState (fun k => volume.getD k 0) np m) =
    some (g (np + m), (rollSumState (fun k => close.getD k 0 * volume.getD k 0) np (m + 1), rollSumState (fun k => volume.getD k 0) np (m + 1))) := by
  unfold vwapStepChk
  rw [rd_sub_getD close 0 (np + m) np (by omega) (by omega), rd_sub_getD volume 0 (np + m) np (by omega) (by omega),
    rd_getD close 0 (np + m) hm, rd_getD volume 0 (np + m) (by omega)]
  have e : g (np + m) = vwapOut log close volume np isLog (m + 1) := by
    simp [hg, show ¬ np + m + 1 < np by omega, show np + m + 1 - np = m + 1 by omega]
  have e' : rd (filled none close.length (np + m) g) (((np + m : Nat) : Int) - 1) = some (some (vwapOut log close volume np isLog m)) := by
    rw [show ((np + m : Nat) : Int) - 1 = ((np + m - 1 : Nat) : Int) by omega, rd_filled _ _ _ _ _ (by omega) (by omega)]
    simp [hg, show ¬ np + m - 1 + 1 < np by omega, show np + m - 1 + 1 - np = m by omega]
  rw [e, e']
  simp only [Option.bind_eq_bind, Option.bind_some, show np + m - np = m by omega, vwapOut, rollSumState, Option.join_some, Option.map_some]
  by_cases hv : rollSumState (fun k => volume.getD k 0) np m + (volume.getD (np + m) 0 - volume.getD m 0) > 0
  · simp only [hv, if_true]
  · simp only [hv, if_false]

/-- **C157 (`vwap_distance`).** For a window of at least one that fits into the series the kernel stays inside the arrays, reads no
entry before it is written and writes every entry exactly when there is a volume for every price. -/
theorem C157_vwap (log : K → K) (close volume : List K) (np : Nat) (isLog : Bool) (hnp : 1 ≤ np) :
    (close.length ≤ volume.length → vwapChk log close volume np isLog = some ((vwapDistance log close volume np isLog).map some)) ∧
    (volume.length < close.length → np ≤ close.length → vwapChk log close volume np isLog = none) := by
  constructor
  · intro h
    unfold vwapChk vwapDistance
    dsimp only
    by_cases hlt : close.length < np
    · rw [if_pos hlt, filled_prefix close.length np none (fun _ => none) (fun _ _ => rfl), filled_all _ _ _ (by omega)]
      congr 2
      exact List.map_congr_left (fun i hi => by
        rw [List.mem_range] at hi
        rw [if_pos (by omega)])
    · rw [if_neg hlt, filled_prefix close.length np none (fun _ => none) (fun _ _ => rfl)]
      set n := close.length with hn
      set g : Nat → Option K := fun i => if i + 1 < np then none else vwapOut log close volume np isLog (i + 1 - np) with hg
      rw [sumLoop_eq _ (fun k => close.getD k 0 * volume.getD k 0) _ (fun k hk => by
          rw [List.mem_range] at hk
          rw [rd_getD close 0 k (by omega), rd_getD volume 0 k (by omega)]; rfl),
        sumLoop_eq _ (fun k => volume.getD k 0) _ (fun k hk => rd_getD volume 0 k (by rw [List.mem_range] at hk; omega))]
      simp only [Option.bind_eq_bind, Option.bind_some]
      set W := rollSumState (fun k => close.getD k 0 * volume.getD k 0) np with hW
      set V := rollSumState (fun k => volume.getD k 0) np with hV
      have hfirst : vwapFirstChk close np (W 0) (V 0) (filled none n np (fun _ => none)) = some (filled none n np g) := by
        have e : g (np - 1) = if V 0 > 0 then some (close.getD (np - 1) 0 / (W 0 / V 0) - 1) else none := by
          simp only [hg, show ¬ np - 1 + 1 < np by omega, if_false, show np - 1 + 1 - np = 0 by omega]
          rfl
        have hwr := wr_filled_over none n np (np - 1) (fun _ => (none : Option K)) g (by omega) (by omega)
          (fun j h1 h2 => by simp [hg, show j + 1 < np by omega])
        unfold vwapFirstChk
        by_cases hv : V 0 > 0
        · rw [if_pos hv] at e ⊢
          rw [rd_pred_getD close 0 np hnp (by omega)]
          simp only [Option.bind_eq_bind, Option.bind_some]
          rw [← e, show (np : Int) - 1 = ((np - 1 : Nat) : Int) by omega, hwr]
        · rw [if_neg hv] at e ⊢
          congr 1
          apply filled_ext
          · rw [length_filled]
          · intro j hj
            rw [filled_getElem? _ _ _ _ _ hj]
            by_cases h1 : j < np
            · by_cases h2 : j = np - 1
              · subst h2; simp [h1, e]
              · simp [hg, h1, show j + 1 < np by omega]
            · simp [h1]
      have hfirst' : vwapFirstChk close np ((List.range np).map (fun k => close.getD k 0 * volume.getD k 0)).sum
        ((List.range np).map (fun k => volume.getD k 0)).sum (filled none n np (fun _ => none)) = some (filled none n np g) := hfirst
      rw [hfirst']
      simp only [Option.bind_some]
      have hf := fillLoop_filled (vwapStepChk log close volume np isLog) none n g (fun i => (W (i - np), V (i - np))) (n - np) np (by omega) (by
        intro i h1 h2
        obtain ⟨m, rfl⟩ : ∃ m, i = np + m := ⟨i - np, by omega⟩
        have := vwapStepChk_eq log close volume np m isLog hnp h (by omega) g hg
        simp only [show np + m - np = m by omega, show np + m + 1 - np = m + 1 by omega]
        exact this)
      simp only [Nat.sub_self] at hf
      have hf' : fillLoop (vwapStepChk log close volume np isLog) (List.range' np (n - np))
        (((List.range np).map (fun k => close.getD k 0 * volume.getD k 0)).sum, ((List.range np).map (fun k => volume.getD k 0)).sum)
        (filled none n np g) = some (filled none n (np + (n - np)) g) := hf
      rw [hf', filled_all _ _ _ (by omega)]
  · intro h h2
    unfold vwapChk
    dsimp only
    rw [if_neg (by omega)]
    by_cases hv : volume.length < np
    · rw [sumLoop_none _ _ volume.length (by simp [hv]) (by
        rw [rd_getD close 0 _ h, rd_beyond volume _ (le_refl _)]; rfl)]
      rfl
    · cases sumLoop (fun k => (rd close (k : Int)).bind (fun c => (rd volume (k : Int)).map (fun v => c * v))) (List.range np) with
      | none => rfl
      | some w =>
        cases sumLoop (fun k => rd volume (k : Int)) (List.range np) with
        | none => rfl
        | some v =>
          simp only [Option.bind_eq_bind, Option.bind_some]
          cases vwapFirstChk close np w v (fillPrefix np none (List.replicate close.length none)) with
          | none => rfl
          | some out =>
            simp only [Option.bind_some]
            apply fillLoop_none _ _ _ _ volume.length (by rw [List.mem_range'_1]; omega)
            intro o s
            unfold vwapStepChk
            rw [rd_beyond volume volume.length (le_refl _)]
            rw [rd_sub_getD close 0 volume.length np (by omega) (by omega), rd_sub_getD volume 0 volume.length np (by omega) (by omega),
              rd_getD close 0 volume.length h]
            rfl

/-- A window of zero periods starts from the last entry of the output, which was never written. -/
theorem C157_vwap_zero (log : K → K) (close volume : List K) (isLog : Bool) (hc : close ≠ []) : vwapChk log close volume 0 isLog = none := by
  have hl : 0 < close.length := List.length_pos_iff.mpr hc
  unfold vwapChk
  dsimp only
  rw [if_neg (by omega)]
  have e : ∀ f : Nat → Option K, sumLoop f (List.range 0) = some 0 := fun f => rfl
  rw [e, e]
  simp only [Option.bind_eq_bind, Option.bind_some, vwapFirstChk, gt_iff_lt, lt_irrefl, if_false]
  obtain ⟨k, hk⟩ : ∃ k, close.length - 0 = k + 1 := ⟨close.length - 1, by omega⟩
  rw [hk, List.range'_succ]
  have h0 : ∀ o, vwapStepChk log close volume 0 isLog o 0 ((0 : K), (0 : K)) = none := by
    intro o
    unfold vwapStepChk
    have hr : rd o ((((0 : Nat) : Int)) - 1) = none := rd_none _ (Or.inl (by decide))
    simp only [hr, Nat.cast_zero, sub_zero]
    cases rd close (0 : Int) with
    | none => rfl
    | some c =>
      cases rd volume (0 : Int) with
      | none => rfl
      | some v => simp [rd]
  simp only [fillLoop, h0]

example : vwapChk (fun x : ℚ => x) [2, 4, 6] [1, 1, 0] 2 false = some [some none, some (some (1 / 3)), some (some (1 / 2))] ∧
    vwapChk (fun x : ℚ => x) [2, 4, 6] [1, 1] 2 false = none ∧
    vwapChk (fun x : ℚ => x) [2, 4] [1, 1] 0 false = none := by decide +kernel

/-! ## Flow acceleration -/

theorem filled_default {α : Type} (n i : Nat) (v : α) (g : Nat → α) (hg : ∀ j, j < i → g j = v) :
    List.replicate n (some v) = filled (some v) n i g := by
  apply filled_ext _ _ _ _ _ (by simp)
  intro j hj
  by_cases h : j < i
  · simp [h, hj, hg j h]
  · simp [h, hj]

/-- **C157 (`comp_flow_acceleration`).** The kernel stays inside the arrays, reads no prefix sum before it is written and writes every
entry. -/
theorem C157_flow (log : K → K) (eps : K) (v : List K) (w r : Nat) :
    flowChk log eps v w r = some ((flowAcceleration log eps v w r).map some) := by
  unfold flowChk flowAcceleration
  dsimp only
  by_cases hc : v.length < w ∨ r ≥ w
  · rw [if_pos hc, if_pos hc]
    congr 1
    apply List.ext_getElem?
    intro j
    by_cases hj : j < v.length
    · simp [tabulate, hj]
    · simp [tabulate, hj]
  · rw [if_neg hc, if_neg hc]
    obtain ⟨h1, h2⟩ := not_or.mp hc
    set n := v.length with hn
    set S := cumAt (fun i => v.getD i 0) with hS
    set g : Nat → Option K := fun i =>
      if i + 1 < w then none else some (log ((S (i + 1) - S (i + 1 - r) + eps) / (S (i + 1 - r) - S (i + 1 - w) + eps))) with hg
    have hw0 : wr (List.replicate (n + 1) none) 0 (some (0 : K)) = some (filled none (n + 1) 1 S) := by
      rw [filled_zero _ _ S]
      exact wr_filled none (n + 1) 0 S (by omega)
    have hs := fillLoop_filled (prefixStepChk v) none (n + 1) S (fun _ => ()) n 1 (by omega) (by
      intro j h3 h4
      unfold prefixStepChk
      rw [show ((j : Int) - 1) = ((j - 1 : Nat) : Int) by omega, rd_filled _ _ _ _ _ (by omega) (by omega), rd_getD v 0 (j - 1) (by omega)]
      obtain ⟨i, rfl⟩ : ∃ i, j = i + 1 := ⟨j - 1, by omega⟩
      simp [hS, cumAt])
    simp only [hw0, Option.bind_eq_bind, Option.bind_some, hs]
    rw [filled_default n (w - 1) none g (fun j hj => by simp [hg, show j + 1 < w by omega])]
    have hf := fillLoop_filled (flowStepChk log eps (filled none (n + 1) (1 + n) S) w r) (some none) n g (fun _ => ()) (n - (w - 1)) (w - 1) (by omega) (by
      intro i h3 h4
      unfold flowStepChk
      rw [show ((i : Int) + 1) = ((i + 1 : Nat) : Int) by omega, show (((i + 1 : Nat) : Int) - (r : Int)) = ((i + 1 - r : Nat) : Int) by omega,
        show (((i + 1 : Nat) : Int) - (w : Int)) = ((i + 1 - w : Nat) : Int) by omega,
        rd_filled _ _ _ _ _ (by omega) (by omega), rd_filled _ _ _ _ _ (by omega) (by omega), rd_filled _ _ _ _ _ (by omega) (by omega)]
      simp [hg, show ¬ i + 1 < w by omega])
    rw [hf, filled_all _ _ _ (by omega)]

/-! ## VPIN -/

theorem cumStepChk_eq {A : Type} [Zero A] [Add A] (n i : Nat) (f : Nat → A) (hi : i < n) :
    cumStepChk (filled none (n + 1) (i + 1) (cumAt f)) i (f i) = some (filled none (n + 1) (i + 2) (cumAt f)) := by
  unfold cumStepChk
  rw [rd_filled _ _ _ _ _ (by omega) (by omega)]
  simp only [Option.join_some, Option.bind_some]
  rw [show ((i : Int) + 1) = ((i + 1 : Nat) : Int) by omega]
  exact wr_filled none (n + 1) (i + 1) (cumAt f) (by omega)

theorem cumDiffChk_eq {A : Type} [Zero A] [Add A] [Sub A] (n i w : Nat) (f : Nat → A) (hi : i < n) (hw : w ≤ i + 1) :
    cumDiffChk (filled none (n + 1) (i + 2) (cumAt f)) w i = some (cumAt f (i + 1) - cumAt f (i + 1 - w)) := by
  unfold cumDiffChk
  rw [show ((i : Int) + 1) = ((i + 1 : Nat) : Int) by omega, show (((i + 1 : Nat) : Int) - (w : Int)) = ((i + 1 - w : Nat) : Int) by omega,
    rd_filled _ _ _ _ _ (by omega) (by omega), rd_filled _ _ _ _ _ (by omega) (by omega)]
  rfl

/-- The running sums of `vpin` after the first `i` bars. -/
def vpinSumsAt (b s : List (Option K)) (i : Nat) : VpinSums K :=
  ⟨filled none (b.length + 1) (i + 1) (cumAt (vpinTerm (fun x _ => x) b s)), filled none (b.length + 1) (i + 1) (cumAt (vpinTerm (fun _ y => y) b s)),
    filled none (b.length + 1) (i + 1) (cumAt (vpinTerm (fun x y => |x - y|) b s)), filled none (b.length + 1) (i + 1) (cumAt (vpinNan b s))⟩

/-- The value of `vpin` at position `i`. -/
def vpinAt (eps : K) (b s : List (Option K)) (w i : Nat) : Option K := (vpin eps b s w).getD i none

theorem vpin_tabulate (eps : K) (b s : List (Option K)) (w : Nat) : vpin eps b s w = tabulate b.length (vpinAt eps b s w) := by
  apply List.ext_getElem?
  intro i
  by_cases hi : i < b.length
  · have hl : i < (vpin eps b s w).length := by simp [vpin, tabulate, hi]
    rw [List.getElem?_eq_getElem hl]
    simp [tabulate, hi, vpinAt, List.getElem?_eq_getElem hl]
  · rw [List.getElem?_eq_none (by simp [vpin, tabulate]; omega), List.getElem?_eq_none (by simp [tabulate]; omega)]

theorem vpinValChk_eq (eps : K) (b s : List (Option K)) (w i : Nat) (hi : i < b.length) :
    vpinValChk eps (vpinSumsAt b s (i + 1)) w i = some (vpinAt eps b s w i) := by
  have e : vpinAt eps b s w i = if w ≤ i + 1 ∧ cumAt (vpinNan b s) (i + 1) - cumAt (vpinNan b s) (i + 1 - w) = 0 then
      (if (cumAt (vpinTerm (fun x _ => x) b s) (i + 1) - cumAt (vpinTerm (fun x _ => x) b s) (i + 1 - w)) +
          (cumAt (vpinTerm (fun _ y => y) b s) (i + 1) - cumAt (vpinTerm (fun _ y => y) b s) (i + 1 - w)) > eps then
        some ((cumAt (vpinTerm (fun x y => |x - y|) b s) (i + 1) - cumAt (vpinTerm (fun x y => |x - y|) b s) (i + 1 - w)) /
          ((cumAt (vpinTerm (fun x _ => x) b s) (i + 1) - cumAt (vpinTerm (fun x _ => x) b s) (i + 1 - w)) +
          (cumAt (vpinTerm (fun _ y => y) b s) (i + 1) - cumAt (vpinTerm (fun _ y => y) b s) (i + 1 - w)))) else none)
      else none := by
    simp [vpinAt, vpin, tabulate, hi]
  rw [e]
  unfold vpinValChk
  by_cases hw : w ≤ i + 1
  · simp only [hw, if_true, true_and, vpinSumsAt, cumDiffChk_eq b.length i w _ hi hw, Option.bind_eq_bind, Option.bind_some]
    by_cases hd : cumAt (vpinNan b s) (i + 1) - cumAt (vpinNan b s) (i + 1 - w) = 0
    · rw [if_pos hd, if_pos hd]
    · rw [if_neg hd, if_neg hd]
  · simp only [hw, if_false, false_and]

theorem vpinStepChk_eq (eps : K) (b s : List (Option K)) (w i : Nat) (o : List (Option (Option K))) (h : b.length ≤ s.length) (hi : i < b.length) :
    vpinStepChk eps b s w o i (vpinSumsAt b s i) = some (vpinAt eps b s w i, vpinSumsAt b s (i + 1)) := by
  have e1 : (vpinAdds (b.getD i none) (s.getD i none)).1.1 = vpinTerm (fun x _ => x) b s i := by
    unfold vpinTerm; cases b.getD i none <;> cases s.getD i none <;> rfl
  have e2 : (vpinAdds (b.getD i none) (s.getD i none)).1.2 = vpinTerm (fun _ y => y) b s i := by
    unfold vpinTerm; cases b.getD i none <;> cases s.getD i none <;> rfl
  have e3 : (vpinAdds (b.getD i none) (s.getD i none)).2.1 = vpinTerm (fun x y => |x - y|) b s i := by
    unfold vpinTerm; cases b.getD i none <;> cases s.getD i none <;> rfl
  have e4 : (vpinAdds (b.getD i none) (s.getD i none)).2.2 = vpinNan b s i := by
    unfold vpinNan; cases b.getD i none <;> cases s.getD i none <;> rfl
  unfold vpinStepChk
  rw [rd_getD b none i hi, rd_getD s none i (by omega)]
  simp only [Option.bind_eq_bind, Option.bind_some, e1, e2, e3, e4]
  simp only [vpinSumsAt, cumStepChk_eq b.length i _ hi, Option.bind_some]
  have := vpinValChk_eq eps b s w i hi
  simp only [vpinSumsAt] at this
  rw [this]
  rfl

/-- **C157 (`vpin`).** The kernel stays inside the arrays and reads no running sum before it is written exactly when there is a sold
volume for every bought volume. -/
theorem C157_vpin (eps : K) (b s : List (Option K)) (w : Nat) :
    (b.length ≤ s.length → vpinChk eps b s w = some ((vpin eps b s w).map some)) ∧ (s.length < b.length → vpinChk eps b s w = none) := by
  have h0 : ∀ {A : Type} [Zero A] [Add A] (f : Nat → A), wr (List.replicate (b.length + 1) none) 0 (some (0 : A)) =
      some (filled none (b.length + 1) 1 (cumAt f)) := by
    intro A _ _ f
    rw [filled_zero _ _ (cumAt f)]
    exact wr_filled none (b.length + 1) 0 (cumAt f) (by omega)
  have hz : ∀ {A : Type} [Zero A] [Add A] (f f' : Nat → A), filled none (b.length + 1) 1 (cumAt f) = filled none (b.length + 1) 1 (cumAt f') := by
    intro A _ _ f f'
    have := (h0 f).symm.trans (h0 f')
    exact Option.some.inj this
  constructor
  · intro h
    unfold vpinChk
    rw [h0 (vpinTerm (fun x _ => x) b s), h0 (vpinNan b s)]
    simp only [Option.bind_eq_bind, Option.bind_some]
    have e : (⟨filled none (b.length + 1) 1 (cumAt (vpinTerm (fun x _ => x) b s)), filled none (b.length + 1) 1 (cumAt (vpinTerm (fun x _ => x) b s)),
      filled none (b.length + 1) 1 (cumAt (vpinTerm (fun x _ => x) b s)), filled none (b.length + 1) 1 (cumAt (vpinNan b s))⟩ : VpinSums K) =
      vpinSumsAt b s 0 := by
      unfold vpinSumsAt
      congr 1
      · exact hz _ _
      · exact hz _ _
    rw [e, vpin_tabulate, filled_default b.length 0 none (vpinAt eps b s w) (fun j hj => absurd hj (by omega)), List.range_eq_range']
    have hf := fillLoop_filled (vpinStepChk eps b s w) (some none) b.length (vpinAt eps b s w) (vpinSumsAt b s) b.length 0 (by omega)
      (fun i _ hi => vpinStepChk_eq eps b s w i _ h (by omega))
    rw [hf, filled_all _ _ _ (by omega)]
  · intro h
    unfold vpinChk
    rw [h0 (vpinTerm (fun x _ => x) b s), h0 (vpinNan b s)]
    simp only [Option.bind_eq_bind, Option.bind_some]
    apply fillLoop_none _ _ _ _ s.length (by simp [h])
    intro o a
    unfold vpinStepChk
    rw [rd_getD b none _ h, rd_beyond s _ (le_refl _)]
    rfl

example : vpinChk (1 / 10 : ℚ) [some 1, some 3] [some 1, some 1] 2 = some [some none, some (some (1 / 3))] ∧
    vpinChk (1 / 10 : ℚ) [some 1, some 3] [some 1] 2 = none := by decide +kernel

end FinML
