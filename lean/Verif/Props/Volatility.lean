/-
C55: time-decayed deviations (`volatility.py` `ewmst_mean0`, `ewmst`).
C56: ATR, realised volatility, z-score, burst ratio, percentage change, rate of change, Parkinson range.
-/
import Verif.Props.Variance
import Verif.Props.Causal

set_option linter.unusedSectionVars false

namespace FinML

variable {K : Type} [Field K] [LinearOrder K] [IsStrictOrderedRing K]

/-! ## C55: time-decayed deviations -/

/-- Weight of observation `j` seen from position `i`: `(1 - q_j) q_{j+1} ⋯ q_i`, where `q_k` is the decay over the gap before sample `k`. -/
def tdWeight (q : Nat → K) (i j : Nat) : K := (1 - q j) * ((List.range' (j + 1) (i - j)).map q).prod

theorem tdWeight_self (q : Nat → K) (i : Nat) : tdWeight q i i = 1 - q i := by simp [tdWeight]

theorem tdWeight_succ (q : Nat → K) (i j : Nat) (h : j ≤ i) : tdWeight q (i + 1) j = q (i + 1) * tdWeight q i j := by
  unfold tdWeight
  rw [show i + 1 - j = (i - j) + 1 by omega, List.range'_concat, List.map_append, List.prod_append]
  simp only [List.map_cons, List.map_nil, List.prod_cons, List.prod_nil, mul_one, one_mul]
  rw [show j + 1 + (i - j) = i + 1 by omega]
  ring

/-- Weighted sum of `f j` over the observations `1, …, i`. -/
def tdSum (q : Nat → K) (i : Nat) (f : Nat → K) : K := ((List.range' 1 i).map (fun j => tdWeight q i j * f j)).sum

theorem tdSum_zero (q : Nat → K) (f : Nat → K) : tdSum q 0 f = 0 := by simp [tdSum]

theorem tdSum_succ (q : Nat → K) (i : Nat) (f : Nat → K) : tdSum q (i + 1) f = (1 - q (i + 1)) * f (i + 1) + q (i + 1) * tdSum q i f := by
  unfold tdSum
  rw [List.range'_concat, List.map_append, List.sum_append]
  simp only [List.map_cons, List.map_nil, List.sum_cons, List.sum_nil, add_zero, one_mul]
  rw [show 1 + i = i + 1 by omega, tdWeight_self, ← List.sum_map_mul_left, add_comm]
  congr 2
  apply List.map_congr_left
  intro j hj
  rw [List.mem_range'_1] at hj
  rw [tdWeight_succ _ _ _ (by omega)]
  ring

/-- **C55.**  `ewmst_mean0` is NaN at the first position and afterwards the floored root of `Σ w y² / Σ w` over the present observations, with weights
`(1 - q_j) q_{j+1} ⋯ q_i`; NaN while the weights sum to 0. -/
theorem C55_ewmst_mean0_exact (sqrt : K → K) (decay : Int → K) (floor : K) (ts : List Int) (y : List (Option K)) (i : Nat) (hi : i < y.length) :
    let q := fun k => decay (ts.getD k 0 - ts.getD (k - 1) 0)
    let U := tdSum q i (fun j => ((y.getD j none).map (fun v => v * v)).getD 0)
    let V := tdSum q i (fun j => if (y.getD j none).isSome then 1 else 0)
    (ewmstMean0 sqrt decay floor ts y)[i]? = some (if 1 ≤ i ∧ 0 < V then some (floorStd sqrt floor (U / V)) else none) := by
  intro q U V
  have key : ∀ i, ewmst0State decay ts y i = (tdSum q i (fun j => ((y.getD j none).map (fun v => v * v)).getD 0),
      tdSum q i (fun j => if (y.getD j none).isSome then 1 else 0)) := by
    intro i
    induction i with
    | zero => rw [ewmst0State, tdSum_zero, tdSum_zero]
    | succ i ih =>
      rw [ewmst0State, ih, tdSum_succ, tdSum_succ]
      have hq : decayAt decay ts (i + 1) = q (i + 1) := rfl
      cases h : y.getD (i + 1) none with
      | none => simp [hq]
      | some v => simp [hq]
  unfold ewmstMean0
  rw [tabulate_get?, if_pos hi]
  congr 1
  by_cases h0 : i = 0
  · rw [if_pos h0, if_neg (by omega)]
  · rw [if_neg h0, key]
    simp only
    by_cases hv : V > 0
    · rw [if_pos hv, if_pos ⟨by omega, hv⟩]
    · rw [if_neg hv, if_neg (fun h => hv h.2)]

example : ewmstMean0 (fun x => x) (fun _ => (1 : ℚ) / 2) 0 [0, 1, 2] [some 1, some 2, none] = [none, some 4, some 4] := by decide +kernel

/-- **C55.**  With a correct square root the output is never below the floor (nor negative when the floor is non-negative). -/
theorem C55_floor (sqrt : K → K) (floor var : K) : floor ≤ floorStd sqrt floor var := by
  unfold floorStd
  simp only
  generalize (if var < 0 then 0 else var) = v
  split
  · exact le_refl _
  · rename_i h; exact not_lt.mp h

/-- **C55.**  The state of `ewmst` is that of the weighted sums in which a missing observation counts as 0 with full weight. -/
theorem ewmstState_eq (decay : Int → K) (ts : List Int) (y : List (Option K)) (i : Nat) :
    let q := fun k => decay (ts.getD k 0 - ts.getD (k - 1) 0)
    (ewmstState decay ts y i).sw = tdSum q i (fun _ => 1) ∧
    (ewmstState decay ts y i).sw2 = ((List.range' 1 i).map (fun j => tdWeight q i j ^ 2)).sum ∧
    (ewmstState decay ts y i).sy = tdSum q i (fun j => (y.getD j none).getD 0) ∧
    (ewmstState decay ts y i).sy2 = tdSum q i (fun j => (y.getD j none).getD 0 ^ 2) := by
  intro q
  induction i with
  | zero => simp [ewmstState, tdSum_zero]
  | succ i ih =>
    obtain ⟨h1, h2, h3, h4⟩ := ih
    have hq : decayAt decay ts (i + 1) = q (i + 1) := rfl
    rw [ewmstState, tdSum_succ, tdSum_succ, tdSum_succ]
    simp only [h1, h2, h3, h4, hq]
    refine ⟨by ring, ?_, ?_, ?_⟩
    · rw [List.range'_concat, List.map_append, List.sum_append]
      simp only [List.map_cons, List.map_nil, List.sum_cons, List.sum_nil, add_zero, one_mul]
      rw [show 1 + i = i + 1 by omega, tdWeight_self, ← List.sum_map_mul_left, add_comm, pow_two (1 - q (i + 1))]
      congr 2
      apply List.map_congr_left
      intro j hj
      rw [List.mem_range'_1] at hj
      rw [tdWeight_succ _ _ _ (by omega)]
      ring
    · cases y.getD (i + 1) none <;> simp [orZero]
    · cases y.getD (i + 1) none <;> simp [sqOrZero]

/-- **C55.**  For `i ≥ 1` and a positive total weight, `ewmst` is the floored root of the unbiased weighted variance
`Σ w (v - mean)² / (Σw - Σw²/Σw)` of all observations `1..i`, a missing one counting as 0; it is 0 (then floored) when the correction or the variance is
not positive. -/
theorem C55_ewmst_exact (sqrt : K → K) (decay : Int → K) (floor : K) (ts : List Int) (y : List (Option K)) (i : Nat) (hi : i < y.length) (h1 : 1 ≤ i) :
    let q := fun k => decay (ts.getD k 0 - ts.getD (k - 1) 0)
    let o := (List.range' 1 i).map (fun j => (tdWeight q i j, (y.getD j none).getD 0))
    let W := obsSum (fun w _ => w) o
    let D := W - obsSum (fun w _ => w ^ 2) o / W
    let N := obsSum (fun w v => w * (v - obsSum (fun w v => w * v) o / W) ^ 2) o
    (0 < W → (ewmst sqrt decay floor ts y)[i]? = some (some (
      let s := sqrt (if 0 < D ∧ 0 < N then weightedVar o else 0)
      if s < floor then floor else s))) ∧
    (¬ 0 < W → (ewmst sqrt decay floor ts y)[i]? = some none) := by
  intro q o W D N
  obtain ⟨e1, e2, e3, e4⟩ := ewmstState_eq decay ts y i
  have f1 : (ewmstState decay ts y i).sw = W := by
    rw [e1]; simp only [W, o, obsSum, tdSum, List.map_map]; congr 1
    apply List.map_congr_left; intro j _; simp [q]
  have f2 : (ewmstState decay ts y i).sw2 = obsSum (fun w _ => w ^ 2) o := by
    rw [e2]; simp only [o, obsSum, List.map_map]; congr 1
  have f3 : (ewmstState decay ts y i).sy = obsSum (fun w v => w * v) o := by
    rw [e3]; simp only [o, obsSum, tdSum, List.map_map]; congr 1
  have f4 : (ewmstState decay ts y i).sy2 = obsSum (fun w v => w * v ^ 2) o := by
    rw [e4]; simp only [o, obsSum, tdSum, List.map_map]; congr 1
  unfold ewmst
  rw [tabulate_get?, if_pos hi, if_neg (by omega)]
  unfold ewmstVal
  rw [f1, f2, f3, f4]
  constructor
  · intro hW
    rw [if_pos hW]
    simp only
    have hW0 : W ≠ 0 := ne_of_gt hW
    have hraw : obsSum (fun w v => w * v ^ 2) o / W - obsSum (fun w v => w * v) o / W * (obsSum (fun w v => w * v) o / W) = N / W := by
      show _ = obsSum (fun w v => w * (v - obsSum (fun w v => w * v) o / W) ^ 2) o / W
      rw [obsSum_dev, show obsSum (fun w _ => w) o = W from rfl]
      field_simp
      ring
    rw [hraw]
    have hND : (0 < D ∧ 0 < N / W) ↔ (0 < D ∧ 0 < N) := by
      constructor
      · rintro ⟨a, b⟩
        refine ⟨a, ?_⟩
        have := mul_pos b hW
        rwa [div_mul_cancel₀ _ hW0] at this
      · rintro ⟨a, b⟩; exact ⟨a, div_pos b hW⟩
    have hvar : N / W * (W / D) = weightedVar o := by
      show N / W * (W / D) = N / D
      rw [div_mul_div_comm, mul_comm N W, mul_div_mul_left _ _ hW0]
    by_cases hc : 0 < D ∧ 0 < N
    · rw [if_pos (hND.mpr hc), if_pos hc, hvar]
    · rw [if_neg (fun h => hc (hND.mp h)), if_neg hc]
  · intro hW
    rw [if_neg hW]

example : ewmst (fun x => x) (fun _ => (1 : ℚ) / 2) 0 [0, 1, 2] [some 5, some 1, some 3] = [none, some 0, some 2] := by decide +kernel

/-- **C55 fails for `ewmst`.**  A missing observation is not skipped: replacing every NaN by the value 0 gives the same output. -/
theorem C55_ewmst_nan_counts_as_zero (sqrt : K → K) (decay : Int → K) (floor : K) (ts : List Int) (y : List (Option K)) :
    ewmst sqrt decay floor ts y = ewmst sqrt decay floor ts (y.map (fun v => some (v.getD 0))) := by
  have hget : ∀ i, i < y.length → orZero ((y.map (fun v => some (v.getD 0))).getD i none) = orZero (y.getD i none) ∧
      sqOrZero ((y.map (fun v => some (v.getD 0))).getD i none) = sqOrZero (y.getD i none) := by
    intro i hi
    rw [List.getD_eq_getElem _ _ (by simpa using hi), List.getD_eq_getElem _ _ hi, List.getElem_map]
    cases y[i] <;> simp [orZero, sqOrZero]
  unfold ewmst
  rw [List.length_map]
  apply Eq.symm
  apply tabulate_congr
  intro i hi
  have : ewmstState decay ts (y.map (fun v => some (v.getD 0))) i = ewmstState decay ts y i := by
    induction i with
    | zero => rfl
    | succ i ih =>
      rw [ewmstState, ewmstState, ih (by omega), (hget (i + 1) hi).1, (hget (i + 1) hi).2]
  rw [this]

/-- **C55 fails for `ewmst`.**  So a gap in the data changes the estimate: two equal observations around a NaN get a positive deviation, while `ewmst_mean0` ignores the
gap. -/
theorem C55_ewmst_nan_not_ignored :
    ∃ (decay : Int → ℚ) (ts : List Int) (y : List (Option ℚ)), (∀ dt, 0 < decay dt ∧ decay dt < 1) ∧ (∀ v ∈ y, v = none ∨ v = some 1) ∧
      (ewmst (fun x => x) decay 0 ts y)[3]? ≠ some (some 0) ∧ (ewmstMean0 (fun x => x) decay 0 ts y)[3]? = some (some 1) := by
  refine ⟨fun _ => 1 / 2, [0, 1, 2, 3], [some 1, some 1, none, some 1], fun _ => by norm_num, by decide +kernel, by decide +kernel, by decide +kernel⟩

/-! ## C56: ATR and window statistics -/

/-- **C56.**  The simple ATR at a full window is the mean of the true ranges present in the window (NaN if there is none), except at index 2 when that bar is
missing entirely. -/
theorem C56_atr_sma (high low close tr out : List (Option K)) (w i : Nat) (h : atr high low close w false false = .ok out)
    (ht : trueRange high low close = .ok tr) (hi : i < high.length) :
    out[i]? = some (
      let v := ((tr.drop (i + 1 - w)).take w).filterMap id
      if i + 1 < w ∨ (i = 2 ∧ high.getD 2 none = none ∧ low.getD 2 none = none ∧ close.getD 2 none = none) ∨ v = [] then none
      else some (v.sum / (v.length : K))) := by
  unfold atr at h
  rw [ht] at h
  injection h with h
  subst h
  rw [tabulate_get?, if_pos hi]
  simp only [Bool.false_eq_true, if_false]
  congr 1
  by_cases hw : i + 1 < w
  · rw [if_pos hw, if_pos (Or.inl hw)]
  rw [if_neg hw]
  unfold atrSma
  by_cases h2 : i = 2 ∧ high.getD 2 none = none ∧ low.getD 2 none = none ∧ close.getD 2 none = none
  · rw [if_pos (by obtain ⟨rfl, a, b, c⟩ := h2; rw [a, b, c]; simp), if_pos (Or.inr (Or.inl h2))]
  rw [if_neg (by
    rintro ⟨rfl, a, b, c⟩
    exact h2 ⟨rfl, Option.isNone_iff_eq_none.mp a, Option.isNone_iff_eq_none.mp b, Option.isNone_iff_eq_none.mp c⟩)]
  unfold validMean validOf
  rw [show window tr w i = (tr.drop (i + 1 - w)).take w from rfl]
  generalize ((tr.drop (i + 1 - w)).take w).filterMap id = v
  simp only
  by_cases hv : v = []
  · subst hv; rw [if_neg (by simp), if_pos (Or.inr (Or.inr rfl))]
  · rw [if_pos (List.length_pos_iff.mpr hv), if_neg (by
      rintro (h | h | h)
      · exact hw h
      · exact h2 h
      · exact hv h)]

example : trueRange [some (3 : ℚ), some 5] [some 1, some 4] [some 2, some 4] = .ok [some 2, some 3] ∧
    atr [some (3 : ℚ), some 5] [some 1, some 4] [some 2, some 4] 2 false false = .ok [none, some (5 / 2)] := by decide +kernel

/-- **C56.**  The exponential ATR starts from the mean of the present true ranges of the first window and then follows `((w-1) ATR + TR)/w`. -/
theorem C56_atr_ema_step (high low close tr out : List (Option K)) (w i : Nat) (h : atr high low close w true false = .ok out)
    (ht : trueRange high low close = .ok tr) (hi : i < high.length) (hw : 1 ≤ w) :
    (i + 1 < w → out[i]? = some none) ∧
    (i + 1 = w → out[i]? = some (let v := (tr.take w).filterMap id; if v = [] then none else some (v.sum / (v.length : K)))) ∧
    (w < i + 1 → ∀ x a, tr.getD i none = some x → out[i - 1]? = some (some a) → out[i]? = some (some ((((w : K) - 1) * a + x) / (w : K)))) ∧
    (w < i + 1 → (tr.getD i none = none ∨ out[i - 1]? = some none) → out[i]? = some none) := by
  have hget : ∀ j, j < high.length → out[j]? = some (if j + 1 < w then none else atrEma tr w (j + 1 - w)) := by
    intro j hj
    unfold atr at h
    rw [ht] at h
    injection h with h
    subst h
    rw [tabulate_get?, if_pos hj]
    simp only [Bool.false_eq_true, if_false, if_true]
  rw [hget i hi, hget (i - 1) (by omega)]
  refine ⟨fun h => by rw [if_pos h], ?_, ?_, ?_⟩
  · intro h
    rw [if_neg (by omega), show i + 1 - w = 0 by omega, atrEma]
    unfold validMean validOf
    congr 1
    generalize (tr.take w).filterMap id = v
    simp only
    by_cases hv : v = []
    · subst hv; simp
    · rw [if_pos (List.length_pos_iff.mpr hv), if_neg hv]
  · intro h x a hx ha
    rw [if_neg (by omega), show i - 1 + 1 - w = i - w by omega] at ha
    injection ha with ha
    rw [if_neg (by omega), show i + 1 - w = (i - w) + 1 by omega, atrEma, show w + (i - w) = i by omega, hx, ha]
  · intro h hn
    rw [if_neg (by omega), show i + 1 - w = (i - w) + 1 by omega, atrEma, show w + (i - w) = i by omega]
    rcases hn with hn | hn
    · rw [hn]
    · rw [if_neg (by omega), show i - 1 + 1 - w = i - w by omega] at hn
      injection hn with hn
      rw [hn]
      cases tr.getD i none <;> rfl

example : atr [some (3 : ℚ), some 5, some 6] [some 1, some 4, some 5] [some 2, some 4, some 5] 2 true false =
    .ok [none, some (5 / 2), some (9 / 4)] := by decide +kernel

/-- **C56 fails for the exponential ATR.**  One missing true range makes every later value NaN, whatever follows. -/
theorem C56_atr_ema_never_recovers (high low close tr out : List (Option K)) (w i j : Nat) (h : atr high low close w true false = .ok out)
    (ht : trueRange high low close = .ok tr) (hw : 1 ≤ w) (hwi : w ≤ i) (hij : i ≤ j) (hj : j < high.length) (hnan : tr.getD i none = none) :
    out[j]? = some none := by
  induction j with
  | zero => omega
  | succ j ih =>
    rcases Nat.eq_or_lt_of_le hij with he | hlt
    · subst he
      exact (C56_atr_ema_step high low close tr out w _ h ht hj hw).2.2.2 (by omega) (Or.inl hnan)
    · have := ih (by omega) (by omega)
      exact (C56_atr_ema_step high low close tr out w _ h ht hj hw).2.2.2 (by omega) (Or.inr this)

/-- Non-vacuity: bar 2 is missing, every later value is NaN though the later bars are complete. -/
example : atr [some 3, some 3, none, some 3, some (3 : ℚ)] [some 1, some 1, some 1, some 1, some 1] [some 2, some 2, some 2, some 2, some 2] 2 true false =
    .ok [none, some 2, none, none, none] := by decide +kernel

/-- **C56 fails for the simple ATR.**  A missing bar at index 2 gives NaN, while the same missing bar at another index gives the mean of the rest of the
window. -/
theorem C56_atr_index_two_special :
    ∃ (high low close : List (Option ℚ)) (out : List (Option ℚ)), atr high low close 2 false false = .ok out ∧
      high.getD 2 none = none ∧ high.getD 5 none = none ∧ out[2]? = some none ∧ out[5]? = some (some 2) ∧
      high.take 3 = (high.drop 3).take 3 ∧ low.take 3 = (low.drop 3).take 3 ∧ close.take 3 = (close.drop 3).take 3 := by
  refine ⟨[some 3, some 3, none, some 3, some 3, none], [some 1, some 1, none, some 1, some 1, none], [some 2, some 2, none, some 2, some 2, none], _, rfl, ?_⟩
  decide +kernel

/-- **C56.**  Normalisation divides by the mid price when it is present and positive, and otherwise leaves the value (in price units) as it is. -/
theorem C56_atr_normalize (high low close raw out : List (Option K)) (w i : Nat) (ema : Bool) (hr : atr high low close w ema false = .ok raw)
    (hn : atr high low close w ema true = .ok out) (hi : i < high.length) (a h l : K) (ha : raw[i]? = some (some a))
    (hh : high.getD i none = some h) (hl : low.getD i none = some l) :
    out[i]? = some (some (if (h + l) / 2 > 0 then a / ((h + l) / 2) else a)) := by
  unfold atr at hr hn
  cases ht : trueRange high low close with
  | error e => rw [ht] at hr; cases hr
  | ok tr =>
    rw [ht] at hr hn
    injection hr with hr
    injection hn with hn
    subst hr; subst hn
    rw [tabulate_get?, if_pos hi] at ha ⊢
    injection ha with ha
    simp only [Bool.false_eq_true, if_false] at ha
    simp only [if_true]
    rw [ha]
    unfold atrNormalize
    rw [hh, hl]
    simp only
    congr 1
    split <;> rfl

example : atr [some 3, some (5 : ℚ)] [some 1, some 3] [some 2, some 4] 1 false true = .ok [some 1, some (3 / 4)] := by decide +kernel

/-- **C56.**  Realised volatility of a full window: the root of the mean square of the present returns (divisor `n - 1` for the sample version); NaN below two
returns. -/
theorem C56_realized_vol (sqrt : K → K) (r : List (Option K)) (w i : Nat) (isSample : Bool) (hi : i < r.length) :
    (realizedVol sqrt r w isSample)[i]? = some (
      let v := ((r.drop (i + 1 - w)).take w).filterMap id
      if w ≤ i + 1 ∧ 2 ≤ v.length then some (sqrt ((v.map (fun x => x ^ 2)).sum / (if isSample then (v.length : K) - 1 else (v.length : K)))) else none) := by
  unfold realizedVol
  rw [rolling_get? _ _ _ _ hi]
  congr 1
  simp only
  by_cases hw : i + 1 < w
  · rw [if_pos hw, if_neg (by omega)]
  rw [if_neg hw]
  unfold realizedWin validOf
  rw [show window r w i = (r.drop (i + 1 - w)).take w from rfl]
  generalize ((r.drop (i + 1 - w)).take w).filterMap id = v
  simp only
  by_cases h : v.length > 1
  · rw [if_pos h, if_pos (show w ≤ i + 1 ∧ 2 ≤ v.length from ⟨by omega, h⟩)]
  · rw [if_neg h, if_neg (show ¬ (w ≤ i + 1 ∧ 2 ≤ v.length) by omega)]

example : realizedVol (fun x => x) [some 1, none, some (3 : ℚ)] 3 true = [none, none, some 10] := by decide +kernel

/-- **C56.**  The z-score of a full window is the deviation of its last value from the mean, in units of the standard deviation with `ddof`; NaN when that is
zero. -/
theorem C56_zscore (sqrt : K → K) (xs : List K) (w ddof i : Nat) (hi : i < xs.length) (h0 : 1 ≤ w) :
    (zscore sqrt xs w ddof)[i]? = some (
      let l := (xs.drop (i + 1 - w)).take w
      let sd := sqrt (twoPassVar ddof l)
      if w ≤ i + 1 ∧ sd ≠ 0 then some ((xs.getD i 0 - l.sum / (w : K)) / sd) else none) := by
  unfold zscore
  rw [rolling_get? _ _ _ _ hi]
  congr 1
  simp only
  by_cases hw : i + 1 < w
  · rw [if_pos hw, if_neg (by omega)]
  rw [if_neg hw]
  unfold zscoreWin
  have hlen := window_length xs w i hi (by omega)
  have hlast := window_getLastD xs 0 w i hi (by omega) h0
  simp only [hlast]
  rw [show window xs w i = (xs.drop (i + 1 - w)).take w from rfl] at hlen ⊢
  unfold twoPassVar
  rw [hlen]
  generalize sqrt (List.sum (List.map (fun x => (x - (List.take w (List.drop (i + 1 - w) xs)).sum / (w : K)) ^ 2) (List.take w (List.drop (i + 1 - w) xs))) /
    ((w : K) - (ddof : K))) = sd
  by_cases hz : sd ≠ 0
  · rw [if_pos hz, if_pos ⟨by omega, hz⟩]
  · rw [if_neg hz, if_neg (fun h => hz h.2)]

example : zscore (fun _ => (2 : ℚ)) [1, 2, 6] 3 0 = [none, none, some (3 / 2)] := by decide +kernel

/-- **C56.**  The burst ratio of a full window is its last value over its median, NaN unless the median is positive. -/
theorem C56_burst_ratio (xs : List K) (w i : Nat) (hi : i < xs.length) (h0 : 1 ≤ w) (hw : w ≤ i + 1) :
    ∃ m, IsMedian ((xs.drop (i + 1 - w)).take w) m ∧ (burstRatio xs w)[i]? = some (if m > 0 then some (xs.getD i 0 / m) else none) := by
  have hne : window xs w i ≠ [] := by
    intro h; have := window_length xs w i hi hw; rw [h] at this; simp at this; omega
  refine ⟨npMedian (window xs w i), npMedian_isMedian _ hne, ?_⟩
  unfold burstRatio
  rw [rolling_get? _ _ _ _ hi, if_neg (by omega), window_getLastD xs 0 w i hi hw h0]

example : burstRatio [1, 3, (8 : ℚ)] 3 = [none, none, some (8 / 3)] := by decide +kernel

/-- **C56.**  Percentage change and rate of change compare with the value `p` positions earlier. -/
theorem C56_pct_change_roc (xs : List K) (p i : Nat) (hi : i < xs.length) :
    (pctChange xs p)[i]? = some (if p ≤ i ∧ 0 < xs.getD (i - p) 0 then some ((xs.getD i 0 - xs.getD (i - p) 0) / xs.getD (i - p) 0) else none) ∧
    (roc xs p)[i]? = some (if p ≤ i then some (100 * ((xs.getD i 0 - xs.getD (i - p) 0) / xs.getD (i - p) 0)) else none) := by
  unfold pctChange roc
  rw [tabulate_get?, if_pos hi, tabulate_get?, if_pos hi]
  constructor
  · congr 1
    by_cases h : i < p
    · rw [if_pos h, if_neg (by omega)]
    · rw [if_neg h]
      simp only
      by_cases h' : xs.getD (i - p) 0 > 0
      · rw [if_pos h', if_pos ⟨by omega, h'⟩]
      · rw [if_neg h', if_neg (fun hc => h' hc.2)]
  · congr 1
    by_cases h : i < p
    · rw [if_pos h, if_neg (by omega)]
    · rw [if_neg h, if_pos (by omega), mul_comm]

example : pctChange [2, 3, (0 : ℚ)] 1 = [none, some (1 / 2), some (-1)] ∧ roc [2, (3 : ℚ)] 1 = [none, some 50] := by decide +kernel

/-- **C56.**  The Parkinson range is `log(high/low)² / (4 log 2)`, non-negative when `log 2` is positive. -/
theorem C56_parkinson (log : K → K) (high low : List K) (i : Nat) (hi : i < high.length) :
    ∃ x, (parkinson log high low)[i]? = some x ∧ x = log (high.getD i 0 / low.getD i 0) ^ 2 / (4 * log 2) ∧ (0 < log 2 → 0 ≤ x) := by
  refine ⟨log (high.getD i 0 / low.getD i 0) ^ 2 / (4 * log 2), ?_, rfl, fun h => div_nonneg (sq_nonneg _) (by linarith)⟩
  unfold parkinson
  rw [tabulate_get?, if_pos hi, mul_comm]

example : parkinson (fun x => x) [4] [(2 : ℚ)] = [1 / 2] := by decide +kernel

end FinML
