/-
C168: how long one observation is remembered, continued: returns, true ranges, variance ratio and the deviations that
decay with time.  `finmlkit/feature/core/utils.py`, `momentum.py`, `volatility.py`.
-/
import Verif.Props.Memory
import Verif.Props.Volatility

set_option linter.unusedSectionVars false

namespace FinML

variable {K : Type} [Field K] [LinearOrder K] [IsStrictOrderedRing K]

/-! ## Helpers -/

theorem agree_tabulate {β : Type} (n n' : Nat) (f g : Nat → β) (a b : Nat) (hn : n' = n) (h : ∀ k, a ≤ k → k ≤ b → g k = f k) :
    AgreeOn (tabulate n f) (tabulate n' g) a b := by
  subst hn
  refine ⟨by rw [length_tabulate, length_tabulate], fun k h1 h2 => ?_⟩
  rw [tabulate_get?, tabulate_get?, h k h1 h2]

theorem trueRangeAt_agree (high low close high' low' close' : List (Option K)) (k : Nat)
    (h1 : high'.getD k none = high.getD k none) (h2 : low'.getD k none = low.getD k none)
    (h3 : 1 ≤ k → close'.getD (k - 1) none = close.getD (k - 1) none) :
    trueRangeAt high' low' close' k = trueRangeAt high low close k := by
  unfold trueRangeAt
  by_cases hk : k = 0
  · subst hk
    rw [if_pos rfl, if_pos rfl, h1, h2]
  · rw [if_neg hk, if_neg hk, h1, h2, h3 (by omega)]

/-! ## C168 -/

/-- **C168 (rates of change).** The rate of change and the relative change depend on two observations only, the current
one and the one `p` positions before. -/
theorem C168_rates (xs ys : List K) (p i : Nat) (hlen : ys.length = xs.length) (h1 : ys.getD i 0 = xs.getD i 0)
    (h2 : ys.getD (i - p) 0 = xs.getD (i - p) 0) :
    (roc ys p)[i]? = (roc xs p)[i]? ∧ (pctChange ys p)[i]? = (pctChange xs p)[i]? := by
  constructor
  · unfold roc
    rw [tabulate_get?, tabulate_get?, hlen, h1, h2]
  · unfold pctChange
    rw [tabulate_get?, tabulate_get?, hlen]
    simp only [h1, h2]

example : (roc [9, 4, 7, (5 : ℚ)] 2)[3]? = (roc [8, 4, 6, (5 : ℚ)] 2)[3]? ∧ (roc [9, 4, 7, (5 : ℚ)] 2)[3]? = some (some 25) := by
  decide +kernel

/-- **C168 (lagged returns).** A lagged return depends on two prices only, the current one and the last one at least a
window before; which one that is depends on the timestamps alone. -/
theorem C168_lagged (log : K → K) (ts : List Int) (xs ys : List K) (w : Int) (isLog : Bool) (out out' : List (Ext K)) (i : Nat)
    (h : laggedReturns log ts xs w isLog = .ok out) (h' : laggedReturns log ts ys w isLog = .ok out')
    (hlen : ys.length = xs.length) (h1 : ys.getD i 0 = xs.getD i 0)
    (h2 : ys.getD (searchRight ts (ts.getD i 0 - w) - 1) 0 = xs.getD (searchRight ts (ts.getD i 0 - w) - 1) 0) :
    out'[i]? = out[i]? := by
  unfold laggedReturns at h h'
  by_cases hw : w ≤ 0
  · rw [if_pos hw] at h; cases h
  rw [if_neg hw] at h h'
  injection h with h
  injection h' with h'
  subst h h'
  rw [tabulate_get?, tabulate_get?, hlen]
  have e : (((searchRight ts (ts.getD i 0 - w) : Nat) : Int) - 1).toNat = searchRight ts (ts.getD i 0 - w) - 1 := by omega
  simp only [e, h1, h2]

example : laggedReturns (fun x : ℚ => x) [0, 10, 25, 40] [5, 2, 9, 3] 15 false = .ok [.nan, .nan, .fin (7 / 2), .fin (-2 / 3)] ∧
    laggedReturns (fun x : ℚ => x) [0, 10, 25, 40] [7, 1, 9, 3] 15 false = .ok [.nan, .nan, .fin 8, .fin (-2 / 3)] := by
  decide +kernel

/-- **C168 (simple average true range).** The simple ATR of `w` bars depends on `w` highs and lows and on `w + 1`
closes, normalised or not. -/
theorem C168_atr_sma (high low close high' low' close' out out' : List (Option K)) (w i : Nat) (norm : Bool) (hw : 1 ≤ w)
    (h : atr high low close w false norm = .ok out) (h' : atr high' low' close' w false norm = .ok out')
    (h1 : AgreeOn high high' (i + 1 - w) i) (h2 : AgreeOn low low' (i + 1 - w) i) (h3 : AgreeOn close close' (i - w) i) :
    out'[i]? = out[i]? := by
  unfold atr trueRange at h h'
  by_cases hl : high.length = low.length ∧ low.length = close.length
  swap
  · rw [if_neg hl] at h; cases h
  rw [if_pos hl] at h
  rw [if_pos (by rw [h1.len, h2.len, h3.len]; exact hl)] at h'
  simp only at h h'
  injection h with h
  injection h' with h'
  subst h h'
  rw [tabulate_get?, tabulate_get?, h1.len]
  have hT : AgreeOn (tabulate high.length (trueRangeAt high low close)) (tabulate high.length (trueRangeAt high' low' close'))
      (i + 1 - w) i := by
    refine agree_tabulate _ _ _ _ _ _ rfl ?_
    intro k a b
    exact trueRangeAt_agree _ _ _ _ _ _ k (h1.getD none k a b) (h2.getD none k a b)
      (fun hk => h3.getD none (k - 1) (by omega) (by omega))
  have g1 := h1.getD none i (by omega) (le_refl _)
  have g2 := h2.getD none i (by omega) (le_refl _)
  have g3 := h3.getD none i (by omega) (le_refl _)
  by_cases hi : i + 1 < w
  · simp only [if_pos hi, atrNormalize, g1, g2]
  · simp only [if_neg hi, Bool.false_eq_true, if_false, atrSma, atrNormalize, g1, g2, g3, hT.window (by omega)]

example : atr [some 9, some 5, some (6 : ℚ)] [some 1, some 4, some 5] [some 8, some 4, some 5] 1 false true =
      .ok [some (8 / 5), some (8 / 9), some (4 / 11)] ∧
    atr [some 7, some 5, some (6 : ℚ)] [some 3, some 4, some 5] [some 8, some 4, some 5] 1 false true =
      .ok [some (4 / 5), some (8 / 9), some (4 / 11)] := by decide +kernel

/-- **C168 (exponential average true range).** The exponential ATR never forgets: if two series of bars agree after
position `i` (their closes from `i` on) and both have an ATR at `i`, then `n` bars later either both are missing or
their difference is the difference at `i` times `((w-1)/w)^n`. -/
theorem C168_atr_ema (high low close high' low' close' out out' : List (Option K)) (w i n : Nat) (a a' : K) (hw : 1 ≤ w)
    (h : atr high low close w true false = .ok out) (h' : atr high' low' close' w true false = .ok out')
    (hlen : high'.length = high.length) (hi : w ≤ i + 1) (hn : i + n < high.length)
    (h1 : ∀ j, i < j → high'.getD j none = high.getD j none) (h2 : ∀ j, i < j → low'.getD j none = low.getD j none)
    (h3 : ∀ j, i ≤ j → close'.getD j none = close.getD j none) (ha : out[i]? = some (some a)) (ha' : out'[i]? = some (some a')) :
    (out[i + n]? = some none ∧ out'[i + n]? = some none) ∨
    ∃ b b', out[i + n]? = some (some b) ∧ out'[i + n]? = some (some b') ∧ b' - b = (((w : K) - 1) / (w : K)) ^ n * (a' - a) := by
  have w0 : (w : K) ≠ 0 := by
    have : (0 : K) < (w : K) := by exact_mod_cast hw
    exact this.ne'
  obtain ⟨tr, ht⟩ : ∃ tr, trueRange high low close = .ok tr := by
    unfold atr at h
    cases e : trueRange high low close with
    | error m => rw [e] at h; cases h
    | ok tr => exact ⟨tr, rfl⟩
  obtain ⟨tr', ht'⟩ : ∃ tr, trueRange high' low' close' = .ok tr := by
    unfold atr at h'
    cases e : trueRange high' low' close' with
    | error m => rw [e] at h'; cases h'
    | ok tr => exact ⟨tr, rfl⟩
  have htr : ∀ j, i < j → tr'.getD j none = tr.getD j none := by
    intro j hj
    unfold trueRange at ht ht'
    split at ht
    swap
    · cases ht
    split at ht'
    swap
    · cases ht'
    injection ht with ht
    injection ht' with ht'
    subst ht ht'
    rw [List.getD_eq_getElem?_getD, List.getD_eq_getElem?_getD, tabulate_get?, tabulate_get?, hlen,
      trueRangeAt_agree high low close high' low' close' j (h1 j hj) (h2 j hj) (fun _ => h3 (j - 1) (by omega))]
  induction n with
  | zero => exact Or.inr ⟨a, a', ha, ha', by simp⟩
  | succ n ih =>
    obtain ⟨-, -, s3, s4⟩ := C56_atr_ema_step high low close tr out w (i + n + 1) h ht hn hw
    obtain ⟨-, -, r3, r4⟩ := C56_atr_ema_step high' low' close' tr' out' w (i + n + 1) h' ht' (by rw [hlen]; exact hn) hw
    rw [show i + n + 1 - 1 = i + n by omega] at s3 s4 r3 r4
    rw [htr (i + n + 1) (by omega)] at r3 r4
    rw [← Nat.add_assoc]
    rcases ih (by omega) with ⟨p, q⟩ | ⟨b, b', p, q, e⟩
    · exact Or.inl ⟨s4 (by omega) (Or.inr p), r4 (by omega) (Or.inr q)⟩
    · cases hx : tr.getD (i + n + 1) none with
      | none => exact Or.inl ⟨s4 (by omega) (Or.inl hx), r4 (by omega) (Or.inl hx)⟩
      | some x =>
        refine Or.inr ⟨_, _, s3 (by omega) x b hx p, r3 (by omega) x b' hx q, ?_⟩
        rw [pow_succ, div_sub_div_same, show ((w : K) - 1) * b' + x - (((w : K) - 1) * b + x) = ((w : K) - 1) * (b' - b) by ring, e]
        field_simp

example : atr [some 9, some 5, some (6 : ℚ)] [some 1, some 4, some 5] [some 8, some 4, some 5] 2 true false =
      .ok [none, some 6, some 4] ∧
    atr [some 7, some 5, some (6 : ℚ)] [some 3, some 4, some 5] [some 8, some 4, some 5] 2 true false =
      .ok [none, some 4, some 3] := by decide +kernel

/-- **C168 (variance ratio).** The variance ratio of `w` returns depends on the last `w + 4` prices. -/
theorem C168_variance_ratio (log : K → K) (isLog : Bool) (price price' : List (Option K)) (w ddof i : Nat)
    (h : AgreeOn price price' (i - w - 3) i) :
    (varianceRatio log isLog price' w ddof)[i]? = (varianceRatio log isLog price w ddof)[i]? := by
  have a1 : AgreeOn (tabulate price.length (vrReturn log isLog price)) (tabulate price.length (vrReturn log isLog price'))
      (i - w - 2) i := by
    refine agree_tabulate _ _ _ _ _ _ rfl ?_
    intro k x y
    unfold vrReturn
    by_cases hk : k = 0
    · rw [if_pos hk, if_pos hk]
    · rw [if_neg hk, if_neg hk, h.getD none k (by omega) y, h.getD none (k - 1) (by omega) (by omega)]
  have a4 : AgreeOn (tabulate price.length (vrReturn4 (tabulate price.length (vrReturn log isLog price))))
      (tabulate price.length (vrReturn4 (tabulate price.length (vrReturn log isLog price')))) (i + 1 - w) i := by
    refine agree_tabulate _ _ _ _ _ _ rfl ?_
    intro k x y
    unfold vrReturn4
    by_cases hk : k < 4
    · rw [if_pos hk, if_pos hk]
    · rw [if_neg hk, if_neg hk, a1.getD none k (by omega) y, a1.getD none (k - 1) (by omega) (by omega),
        a1.getD none (k - 2) (by omega) (by omega), a1.getD none (k - 3) (by omega) (by omega)]
  have b1 : AgreeOn (tabulate price.length (vrReturn log isLog price)) (tabulate price.length (vrReturn log isLog price'))
      (i + 1 - w) i := ⟨a1.len, fun k x y => a1.same k (by omega) y⟩
  unfold varianceRatio
  rw [h.len]
  by_cases hn : price.length < w + 4
  · rw [if_pos hn, if_pos hn]
  · rw [if_neg hn, if_neg hn]
    simp only
    rw [tabulate_get?, tabulate_get?]
    unfold rollingVariance
    rw [List.getD_eq_getElem?_getD, List.getD_eq_getElem?_getD, List.getD_eq_getElem?_getD, List.getD_eq_getElem?_getD,
      rolling_agree _ b1, rolling_agree _ a4]

example : (varianceRatio id false [some 9, some 1, some 2, some 4, some 5, some 4, some (6 : ℚ)] 2 1)[6]? =
      (varianceRatio id false [some 3, some 1, some 2, some 4, some 5, some 4, some (6 : ℚ)] 2 1)[6]? ∧
    (varianceRatio id false [some 9, some 1, some 2, some 4, some 5, some 4, some (6 : ℚ)] 2 1)[6]? ≠ some none := by
  decide +kernel

/-- **C168 (deviation with time decay).** If two series agree after position `t`, the weighted sums behind `ewmst` differ
by amounts that have decayed by the time elapsed since `t`, however many observations that time holds; the sums of
weights do not depend on the observations at all. -/
theorem C168_ewmst (decay : Int → K) (ts : List Int) (y y' : List (Option K)) (t n : Nat) (h0 : decay 0 = 1)
    (hmul : ∀ a b, decay (a + b) = decay a * decay b) (hsame : ∀ j, t < j → y'.getD j none = y.getD j none) :
    let s := ewmstState decay ts y
    let s' := ewmstState decay ts y'
    let f := decay (ts.getD (t + n) 0 - ts.getD t 0)
    (s' (t + n)).sw = (s (t + n)).sw ∧ (s' (t + n)).sw2 = (s (t + n)).sw2 ∧
    (s' (t + n)).sy - (s (t + n)).sy = f * ((s' t).sy - (s t).sy) ∧
    (s' (t + n)).sy2 - (s (t + n)).sy2 = f * ((s' t).sy2 - (s t).sy2) := by
  intro s s' f
  have hw : ∀ m, (s' m).sw = (s m).sw ∧ (s' m).sw2 = (s m).sw2 := by
    intro m
    induction m with
    | zero => exact ⟨rfl, rfl⟩
    | succ m ih =>
      simp only [s, s', ewmstState] at ih ⊢
      rw [ih.1, ih.2]
      exact ⟨rfl, rfl⟩
  refine ⟨(hw _).1, (hw _).2, ?_⟩
  induction n with
  | zero => simp [f, h0]
  | succ n ih =>
    have hf : f = decayAt decay ts (t + n + 1) * decay (ts.getD (t + n) 0 - ts.getD t 0) := by
      simp only [f, decayAt]
      rw [← hmul]
      congr 1
      rw [← Nat.add_assoc, show t + n + 1 - 1 = t + n by omega]; omega
    obtain ⟨i1, i2⟩ := ih
    rw [hf, ← Nat.add_assoc]
    simp only [s, s', ewmstState] at i1 i2 ⊢
    rw [hsame (t + n + 1) (by omega)]
    constructor
    · rw [add_sub_add_left_eq_sub, ← mul_sub, i1]; ring
    · rw [add_sub_add_left_eq_sub, ← mul_sub, i2]; ring

/-- The same for the zero-mean deviation `ewmst_mean0`, whose sum of weights forgets at the same rate which observations
were missing. -/
theorem C168_ewmst_mean0 (decay : Int → K) (ts : List Int) (y y' : List (Option K)) (t n : Nat) (h0 : decay 0 = 1)
    (hmul : ∀ a b, decay (a + b) = decay a * decay b) (hsame : ∀ j, t < j → y'.getD j none = y.getD j none) :
    let s := ewmst0State decay ts y
    let s' := ewmst0State decay ts y'
    let f := decay (ts.getD (t + n) 0 - ts.getD t 0)
    (s' (t + n)).1 - (s (t + n)).1 = f * ((s' t).1 - (s t).1) ∧ (s' (t + n)).2 - (s (t + n)).2 = f * ((s' t).2 - (s t).2) := by
  intro s s' f
  induction n with
  | zero => simp [f, h0]
  | succ n ih =>
    have hf : f = decayAt decay ts (t + n + 1) * decay (ts.getD (t + n) 0 - ts.getD t 0) := by
      simp only [f, decayAt]
      rw [← hmul]
      congr 1
      rw [← Nat.add_assoc, show t + n + 1 - 1 = t + n by omega]; omega
    obtain ⟨i1, i2⟩ := ih
    rw [hf, ← Nat.add_assoc]
    simp only [s, s', ewmst0State] at i1 i2 ⊢
    rw [hsame (t + n + 1) (by omega)]
    cases y.getD (t + n + 1) none with
    | none =>
      constructor
      · simp only; rw [← mul_sub, i1]; ring
      · simp only; rw [← mul_sub, i2]; ring
    | some v =>
      constructor
      · simp only; rw [add_sub_add_left_eq_sub, ← mul_sub, i1]; ring
      · simp only; rw [add_sub_add_left_eq_sub, ← mul_sub, i2]; ring

/-- Non-vacuity: one observation, then the same span of time with one observation or with two; the decay is
`2 ^ (-elapsed)`. -/
example : let d : Int → ℚ := fun k => (1 / 2) ^ k
    (d 0 = 1 ∧ d (1 + 2) = d 1 * d 2) ∧
    (ewmstState d [0, 1, 4] [none, some 8, some 1] 2).sy - (ewmstState d [0, 1, 4] [none, some 0, some 1] 2).sy = 1 / 2 ∧
    (ewmstState d [0, 1, 2, 4] [none, some 8, none, some 1] 3).sy - (ewmstState d [0, 1, 2, 4] [none, some 0, none, some 1] 3).sy = 1 / 2 ∧
    (ewmst0State d [0, 1, 4] [none, some 2, some 1] 2).2 - (ewmst0State d [0, 1, 4] [none, none, some 1] 2).2 = 1 / 16 := by
  decide +kernel

end FinML
