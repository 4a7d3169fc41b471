/-
C130: true range, average true range, flow acceleration and burst ratio in float64.
-/
import Verif.Model.Float64Range
import Verif.Props.Ohlcv64
import Verif.Lemmas.Indicators
import Mathlib.Algebra.Order.Ring.Pow

set_option linter.unusedSectionVars false

namespace FinML

/-! ### Relative error -/

/-- `y` is `x` after at most `k` roundings: `x (1-u)^k ≤ y ≤ x (1+u)^k` with `u = 2^-53`. -/
def Rounds (k : Nat) (x y : ℚ) : Prop := x * (1 - 1 / 2 ^ 53) ^ k ≤ y ∧ y ≤ x * (1 + 1 / 2 ^ 53) ^ k

theorem lowPow_nonneg (k : Nat) : (0 : ℚ) ≤ (1 - 1 / 2 ^ 53) ^ k := pow_nonneg (by norm_num) k
theorem lowPow_pos (k : Nat) : (0 : ℚ) < (1 - 1 / 2 ^ 53) ^ k := pow_pos (by norm_num) k
theorem highPow_pos (k : Nat) : (0 : ℚ) < (1 + 1 / 2 ^ 53) ^ k := pow_pos (by norm_num) k

theorem Rounds.nonneg {k : Nat} {x y : ℚ} (hx : 0 ≤ x) (h : Rounds k x y) : 0 ≤ y :=
  le_trans (mul_nonneg hx (lowPow_nonneg k)) h.1

theorem Rounds.mono {k j : Nat} {x y : ℚ} (hx : 0 ≤ x) (h : Rounds k x y) (hk : k ≤ j) : Rounds j x y := by
  constructor
  · exact le_trans (mul_le_mul_of_nonneg_left (pow_le_pow_of_le_one (by norm_num) (by norm_num) hk) hx) h.1
  · exact le_trans h.2 (mul_le_mul_of_nonneg_left (pow_le_pow_right₀ (by norm_num) hk) hx)

theorem Rounds.f64 {k : Nat} {x y : ℚ} (hx : 0 ≤ x) (h : Rounds k x y) : Rounds (k + 1) x (f64 y) := by
  have hf := f64_factor (h.nonneg hx)
  constructor
  · calc x * (1 - 1 / 2 ^ 53) ^ (k + 1) = x * (1 - 1 / 2 ^ 53) ^ k * (1 - 1 / 2 ^ 53) := by rw [pow_succ]; ring
      _ ≤ y * (1 - 1 / 2 ^ 53) := mul_le_mul_of_nonneg_right h.1 (by norm_num)
      _ ≤ _ := hf.1
  · calc FinML.f64 y ≤ y * (1 + 1 / 2 ^ 53) := hf.2
      _ ≤ x * (1 + 1 / 2 ^ 53) ^ k * (1 + 1 / 2 ^ 53) := mul_le_mul_of_nonneg_right h.2 (by norm_num)
      _ = _ := by rw [pow_succ]; ring

theorem Rounds.refl (x : ℚ) : Rounds 0 x x := by simp [Rounds]

theorem Rounds.add {k : Nat} {x y a b : ℚ} (h : Rounds k x y) (g : Rounds k a b) : Rounds k (x + a) (y + b) := by
  constructor
  · linarith [h.1, g.1, add_mul x a ((1 - 1 / 2 ^ 53 : ℚ) ^ k)]
  · linarith [h.2, g.2, add_mul x a ((1 + 1 / 2 ^ 53 : ℚ) ^ k)]

theorem Rounds.mul_left {k : Nat} {x y : ℚ} (h : Rounds k x y) {c : ℚ} (hc : 0 ≤ c) : Rounds k (c * x) (c * y) := by
  constructor
  · rw [mul_assoc]; exact mul_le_mul_of_nonneg_left h.1 hc
  · rw [mul_assoc]; exact mul_le_mul_of_nonneg_left h.2 hc

theorem Rounds.div {k : Nat} {x y : ℚ} (h : Rounds k x y) {c : ℚ} (hc : 0 ≤ c) : Rounds k (x / c) (y / c) := by
  have := h.mul_left (inv_nonneg.mpr hc)
  rwa [inv_mul_eq_div, inv_mul_eq_div] at this

/-- A rounded quotient of rounded numbers. -/
theorem rounds_quotient {k j : Nat} {x y m n : ℚ} (hx : 0 ≤ x) (hm : 0 < m) (h : Rounds k x y) (g : Rounds j m n) :
    x / m * ((1 - 1 / 2 ^ 53) ^ (k + 1) / (1 + 1 / 2 ^ 53) ^ j) ≤ FinML.f64 (y / n) ∧
    FinML.f64 (y / n) ≤ x / m * ((1 + 1 / 2 ^ 53) ^ (k + 1) / (1 - 1 / 2 ^ 53) ^ j) := by
  have hn : 0 < n := lt_of_lt_of_le (mul_pos hm (lowPow_pos j)) g.1
  have hy := h.nonneg hx
  have hf := f64_factor (div_nonneg hy hn.le)
  have l1 : x / m * ((1 - 1 / 2 ^ 53) ^ k / (1 + 1 / 2 ^ 53) ^ j) ≤ y / n := by
    rw [div_mul_div_comm]
    exact div_le_div₀ hy h.1 hn g.2
  have l2 : y / n ≤ x / m * ((1 + 1 / 2 ^ 53) ^ k / (1 - 1 / 2 ^ 53) ^ j) := by
    rw [div_mul_div_comm]
    exact div_le_div₀ (mul_nonneg hx (highPow_pos k).le) h.2 (mul_pos hm (lowPow_pos j)) g.1
  constructor
  · refine le_trans (le_of_eq ?_) (le_trans (mul_le_mul_of_nonneg_right l1 (by norm_num : (0 : ℚ) ≤ 1 - 1 / 2 ^ 53)) hf.1)
    rw [pow_succ]; ring
  · refine le_trans hf.2 (le_trans (mul_le_mul_of_nonneg_right l2 (by norm_num : (0 : ℚ) ≤ 1 + 1 / 2 ^ 53)) (le_of_eq ?_))
    rw [pow_succ]; ring

/-! ### True range -/

theorem f64_abs (x : ℚ) : f64 |x| = |f64 x| := by
  rcases le_total 0 x with h | h
  · rw [abs_of_nonneg h, abs_of_nonneg (f64_nonneg h)]
  · have := f64_nonneg (neg_nonneg.mpr h)
    rw [abs_of_nonpos h, f64_neg, abs_of_nonpos (by rw [f64_neg] at this; linarith)]

theorem f64_max (x y : ℚ) : f64 (max x y) = max (f64 x) (f64 y) := by
  rcases le_total x y with h | h
  · rw [max_eq_right h, max_eq_right (f64_mono h)]
  · rw [max_eq_left h, max_eq_left (f64_mono h)]

theorem trueRangeAt64_eq (high low close : List (Option ℚ)) (i : Nat) :
    trueRangeAt64 high low close i = (trueRangeAt high low close i).map f64 := by
  unfold trueRangeAt64 trueRangeAt
  by_cases h0 : i = 0
  · simp only [h0, if_true]
    cases high.getD 0 none <;> cases low.getD 0 none <;> rfl
  · simp only [h0, if_false]
    cases high.getD i none <;> cases low.getD i none <;> cases close.getD (i - 1) none <;>
      simp [f64_max, f64_abs]

/-- **C130.** The float64 true range is the exact true range, rounded once: it is exactly what rounding the true value would give,
and NaN in the same places. -/
theorem C130_true_range (high low close : List (Option ℚ)) :
    trueRange64 high low close = (trueRange high low close).map (fun tr => tr.map (Option.map f64)) := by
  unfold trueRange64 trueRange
  split
  · simp only [Except.map, tabulate, List.map_map]
    congr 1
    apply List.map_congr_left
    intro i _
    exact trueRangeAt64_eq high low close i
  · rfl

/-- All values of a column are non-negative. -/
def NonnegCol (l : List (Option ℚ)) : Prop := ∀ x, some x ∈ l → 0 ≤ x

theorem trueRange_nonneg (high low close : List (Option ℚ)) (h0 : ∀ a b, high.getD 0 none = some a → low.getD 0 none = some b → b ≤ a)
    (tr : List (Option ℚ)) (h : trueRange high low close = .ok tr) : NonnegCol tr := by
  unfold trueRange at h
  split at h
  · simp only [Except.ok.injEq] at h
    subst h
    intro x hx
    simp only [tabulate, List.mem_map, List.mem_range] at hx
    obtain ⟨i, _, hi⟩ := hx
    unfold trueRangeAt at hi
    split at hi
    · split at hi
      · rename_i a b ha hb
        simp only [Option.some.injEq] at hi
        linarith [h0 a b ha hb]
      · cases hi
    · split at hi
      · simp only [Option.some.injEq] at hi
        rw [← hi]
        exact le_trans (abs_nonneg _) (le_max_right _ _)
      · cases hi
  · cases h

/-! ### Averages -/

theorem validOf_map_f64 (l : List (Option ℚ)) : validOf (l.map (Option.map f64)) = (validOf l).map f64 := by
  unfold validOf
  induction l with
  | nil => rfl
  | cons o l ih => cases o <;> simpa using ih

/-- Two optional values are both missing, or related. -/
def OptRel (R : ℚ → ℚ → Prop) : Option ℚ → Option ℚ → Prop
  | none, none => True
  | some x, some y => R x y
  | _, _ => False

theorem validMean64_rel (l : List (Option ℚ)) (h : NonnegCol l) (w : Nat) (hw : l.length ≤ w) :
    OptRel (fun x y => 0 ≤ x ∧ Rounds (w + 2) x y) (validMean l) (validMean64 (l.map (Option.map f64))) := by
  unfold validMean validMean64
  simp only [validOf_map_f64, List.length_map]
  have hv : ∀ x ∈ validOf l, 0 ≤ x := by
    intro x hx
    unfold validOf at hx
    rw [List.mem_filterMap] at hx
    obtain ⟨o, ho, rfl⟩ := hx
    exact h x ho
  have hlen : (validOf l).length ≤ w := le_trans (List.length_filterMap_le _ _) hw
  split
  · have hb := fold64_bounds (fun v : ℚ => f64 v) (fun v => v) (1 / 2 ^ 53) (1 - 1 / 2 ^ 53) (1 + 1 / 2 ^ 53) rfl (by norm_num) (by norm_num)
      (validOf l) 0 0 0 (fun t ht => ⟨hv t ht, f64_factor (hv t ht)⟩) le_rfl (by simp) (by simp)
    have e : sum64 ((validOf l).map f64) = (validOf l).foldl (fun s t => f64 (s + f64 t)) 0 := by
      unfold sum64; rw [List.foldl_map]
    have hs : 0 ≤ (validOf l).sum := List.sum_nonneg hv
    have hr : Rounds ((validOf l).length + 1) (validOf l).sum (sum64 ((validOf l).map f64)) := by
      rw [e]
      simp only [zero_add, List.map_id'] at hb
      refine ⟨?_, ?_⟩
      · rw [pow_succ']; exact hb.1
      · rw [pow_succ']; exact hb.2
    have hd := (hr.div (Nat.cast_nonneg (validOf l).length)).f64 (div_nonneg hs (Nat.cast_nonneg _))
    exact ⟨div_nonneg hs (Nat.cast_nonneg _), hd.mono (div_nonneg hs (Nat.cast_nonneg _)) (by omega)⟩
  · trivial

theorem nonnegCol_sub {l m : List (Option ℚ)} (h : NonnegCol l) (hs : ∀ o ∈ m, o ∈ l) : NonnegCol m :=
  fun x hx => h x (hs _ hx)

theorem getD_map_f64 (tr : List (Option ℚ)) (i : Nat) : (tr.map (Option.map f64)).getD i none = (tr.getD i none).map f64 := by
  simp only [List.getD_eq_getElem?_getD, List.getElem?_map]
  cases tr[i]? <;> simp

theorem atrEma64_rel (tr : List (Option ℚ)) (h : NonnegCol tr) (w : Nat) (hw : 1 ≤ w) (m : Nat) :
    OptRel (fun x y => 0 ≤ x ∧ Rounds (w + 2 + 3 * m) x y) (atrEma tr w m) (atrEma64 (tr.map (Option.map f64)) w m) := by
  induction m with
  | zero =>
    have := validMean64_rel (tr.take w) (nonnegCol_sub h (fun o ho => List.mem_of_mem_take ho)) w (by simp)
    simpa [atrEma, atrEma64, List.map_take] using this
  | succ m ih =>
    simp only [atrEma, atrEma64, getD_map_f64]
    have hx : ∀ x, tr.getD (w + m) none = some x → 0 ≤ x := by
      intro x hx
      apply h
      rw [List.getD_eq_getElem?_getD] at hx
      cases hg : tr[w + m]? with
      | none => rw [hg] at hx; cases hx
      | some o => rw [hg] at hx; simp only [Option.getD_some] at hx; rw [← hx]; exact List.mem_of_getElem? hg
    cases ht : tr.getD (w + m) none with
    | none =>
      simp only [Option.map_none]
      trivial
    | some x =>
      simp only [Option.map_some]
      have hx0 := hx x ht
      cases ha : atrEma tr w m with
      | none =>
        rw [ha] at ih
        cases hb : atrEma64 (tr.map (Option.map f64)) w m with
        | none => trivial
        | some b => rw [hb] at ih; exact ih.elim
      | some a =>
        rw [ha] at ih
        cases hb : atrEma64 (tr.map (Option.map f64)) w m with
        | none => rw [hb] at ih; exact ih.elim
        | some b =>
          rw [hb] at ih
          obtain ⟨ha0, hr⟩ := ih
          have hw1 : (0 : ℚ) ≤ (w : ℚ) - 1 := by
            have : (1 : ℚ) ≤ w := by exact_mod_cast hw
            linarith
          have hm0 : 0 ≤ ((w : ℚ) - 1) * a := mul_nonneg hw1 ha0
          have h1 := (hr.mul_left hw1).f64 hm0
          have h2 : Rounds (w + 2 + 3 * m + 1) x (f64 x) := ((Rounds.refl x).f64 hx0).mono hx0 (by omega)
          have h3 := (h1.add h2).f64 (by linarith)
          have h4 := (h3.div (Nat.cast_nonneg w)).f64 (div_nonneg (by linarith) (Nat.cast_nonneg w))
          exact ⟨div_nonneg (by linarith) (Nat.cast_nonneg w), h4.mono (div_nonneg (by linarith) (Nat.cast_nonneg w)) (by omega)⟩

/-- The number of roundings between the exact and the float64 average true range at index `i`. -/
def atrRoundings (w : Nat) (ema : Bool) (i : Nat) : Nat := if ema then w + 2 + 3 * (i + 1 - w) else w + 2

theorem atr64_at (high low close : List (Option ℚ)) (w : Nat) (hw : 1 ≤ w) (ema : Bool)
    (h0 : ∀ a b, high.getD 0 none = some a → low.getD 0 none = some b → b ≤ a)
    (tr : List (Option ℚ)) (h : trueRange high low close = .ok tr) (i : Nat) :
    OptRel (fun x y => 0 ≤ x ∧ Rounds (atrRoundings w ema i) x y)
      (if i + 1 < w then none else if ema then atrEma tr w (i + 1 - w) else atrSma high low close tr w i)
      (if i + 1 < w then none else if ema then atrEma64 (tr.map (Option.map f64)) w (i + 1 - w)
        else atrSma64 high low close (tr.map (Option.map f64)) w i) := by
  have hn := trueRange_nonneg high low close h0 tr h
  by_cases hi : i + 1 < w
  · simp only [hi, if_true]; trivial
  · simp only [hi, if_false]
    cases ema with
    | true =>
      simp only [if_true, atrRoundings]
      exact atrEma64_rel tr hn w hw _
    | false =>
      simp only [Bool.false_eq_true, if_false, atrRoundings]
      unfold atrSma atrSma64
      split
      · trivial
      · have := validMean64_rel (window tr w i) (nonnegCol_sub hn (fun o ho => List.mem_of_mem_drop (List.mem_of_mem_take ho))) w
          (by simp [window])
        simpa [window, List.map_take, List.map_drop] using this

/-- **C130.** The float64 average true range is NaN exactly where the exact one is; elsewhere it differs from it by `w + 2` roundings,
or with the exponential average by three more for every bar after the first window. -/
theorem C130_atr (high low close : List (Option ℚ)) (w : Nat) (hw : 1 ≤ w) (ema : Bool)
    (h0 : ∀ a b, high.getD 0 none = some a → low.getD 0 none = some b → b ≤ a)
    (x : List (Option ℚ)) (h : atr high low close w ema false = .ok x) :
    ∃ y, atr64 high low close w ema false = .ok y ∧ y.length = x.length ∧
      ∀ i, i < x.length → OptRel (fun a b => a * (1 - 1 / 2 ^ 53) ^ atrRoundings w ema i ≤ b ∧
        b ≤ a * (1 + 1 / 2 ^ 53) ^ atrRoundings w ema i) (x.getD i none) (y.getD i none) := by
  unfold atr at h
  cases ht : trueRange high low close with
  | error e => rw [ht] at h; cases h
  | ok tr =>
    rw [ht] at h
    simp only [Except.ok.injEq] at h
    have h64 : trueRange64 high low close = .ok (tr.map (Option.map f64)) := by rw [C130_true_range, ht]; rfl
    unfold atr64
    rw [h64]
    refine ⟨_, rfl, by rw [← h]; simp [tabulate], fun i hi => ?_⟩
    have hi' : i < high.length := by rw [← h] at hi; simpa [tabulate] using hi
    rw [← h, tabulate_getD _ _ _ _ hi', tabulate_getD _ _ _ _ hi']
    have := atr64_at high low close w hw ema h0 tr ht i
    revert this
    simp only [Bool.false_eq_true, if_false]
    generalize (if i + 1 < w then none else if ema = true then atrEma tr w (i + 1 - w) else atrSma high low close tr w i) = a
    generalize (if i + 1 < w then none else if ema = true then atrEma64 (tr.map (Option.map f64)) w (i + 1 - w)
      else atrSma64 high low close (tr.map (Option.map f64)) w i) = b
    intro this
    cases a <;> cases b <;> first | exact this.2 | exact this

example : (∀ a b, ([some 3, some 5] : List (Option ℚ)).getD 0 none = some a → ([some 2, some 4] : List (Option ℚ)).getD 0 none = some b → b ≤ a) ∧
    (atr ([some 3, some 5] : List (Option ℚ)) [some 2, some 4] [some 2, some 5] 2 false false).toOption = some [none, some 2] := by
  refine ⟨?_, by decide +kernel⟩
  intro a b ha hb
  simp at ha hb
  rw [← ha, ← hb]; norm_num

/-- **C130.** With normalisation the mid price adds one rounding to the value and two below the fraction; a mid price that is not
positive leaves the value as it is, in float64 in the same places. -/
theorem C130_atr_normalized (high low close : List (Option ℚ)) (w : Nat) (hw : 1 ≤ w) (ema : Bool)
    (h0 : ∀ a b, high.getD 0 none = some a → low.getD 0 none = some b → b ≤ a)
    (x : List (Option ℚ)) (h : atr high low close w ema true = .ok x) :
    ∃ y, atr64 high low close w ema true = .ok y ∧ y.length = x.length ∧
      ∀ i, i < x.length → OptRel (fun a b =>
        a * ((1 - 1 / 2 ^ 53) ^ (atrRoundings w ema i + 1) / (1 + 1 / 2 ^ 53) ^ 2) ≤ b ∧
        b ≤ a * ((1 + 1 / 2 ^ 53) ^ (atrRoundings w ema i + 1) / (1 - 1 / 2 ^ 53) ^ 2)) (x.getD i none) (y.getD i none) := by
  unfold atr at h
  cases ht : trueRange high low close with
  | error e => rw [ht] at h; cases h
  | ok tr =>
    rw [ht] at h
    simp only [Except.ok.injEq] at h
    have h64 : trueRange64 high low close = .ok (tr.map (Option.map f64)) := by rw [C130_true_range, ht]; rfl
    unfold atr64
    rw [h64]
    refine ⟨_, rfl, by rw [← h]; simp [tabulate], fun i hi => ?_⟩
    have hi' : i < high.length := by rw [← h] at hi; simpa [tabulate] using hi
    rw [← h, tabulate_getD _ _ _ _ hi', tabulate_getD _ _ _ _ hi']
    have := atr64_at high low close w hw ema h0 tr ht i
    revert this
    simp only [if_true]
    generalize (if i + 1 < w then none else if ema = true then atrEma tr w (i + 1 - w) else atrSma high low close tr w i) = a
    generalize (if i + 1 < w then none else if ema = true then atrEma64 (tr.map (Option.map f64)) w (i + 1 - w)
      else atrSma64 high low close (tr.map (Option.map f64)) w i) = b
    generalize atrRoundings w ema i = k
    intro this
    cases a with
    | none =>
      cases b with
      | none => trivial
      | some b => exact this.elim
    | some a =>
      cases b with
      | none => exact this.elim
      | some b =>
        obtain ⟨ha0, hr⟩ := this
        have hplain : a * ((1 - 1 / 2 ^ 53) ^ (k + 1) / (1 + 1 / 2 ^ 53) ^ 2) ≤ b ∧
            b ≤ a * ((1 + 1 / 2 ^ 53) ^ (k + 1) / (1 - 1 / 2 ^ 53) ^ 2) := by
          have hm := hr.mono ha0 (Nat.le_succ k)
          constructor
          · refine le_trans (mul_le_mul_of_nonneg_left ?_ ha0) hm.1
            exact div_le_self (lowPow_nonneg _) (by norm_num)
          · refine le_trans hm.2 (mul_le_mul_of_nonneg_left ?_ ha0)
            exact le_div_self (highPow_pos _).le (by norm_num) (by norm_num)
        unfold atrNormalize atrNormalize64
        cases hh : high.getD i none with
        | none => exact hplain
        | some p =>
          cases hl : low.getD i none with
          | none => exact hplain
          | some q =>
            simp only []
            by_cases hpos : 0 < (p + q) / 2
            · have hpq : 0 ≤ p + q := by linarith
              have hmid : Rounds 2 ((p + q) / 2) (f64 (f64 (p + q) / 2)) :=
                (((Rounds.refl (p + q)).f64 hpq).div (by norm_num : (0 : ℚ) ≤ 2)).f64 hpos.le
              have hmp : 0 < f64 (f64 (p + q) / 2) := lt_of_lt_of_le (mul_pos hpos (lowPow_pos 2)) hmid.1
              rw [if_pos hpos, if_pos hmp]
              exact rounds_quotient ha0 hpos hr hmid
            · have hle : (p + q) / 2 ≤ 0 := not_lt.mp hpos
              have hm : f64 (f64 (p + q) / 2) ≤ 0 := by
                have h1 : f64 (p + q) ≤ 0 := by have := f64_mono (show p + q ≤ 0 by linarith); rwa [f64_zero] at this
                have := f64_mono (show f64 (p + q) / 2 ≤ 0 by linarith)
                rwa [f64_zero] at this
              rw [if_neg hpos, if_neg (not_lt.mpr hm)]
              exact hplain

-- a series with a missing bar, both averages
example : atr64 [some 2, some 3, none, some 5, some 4] [some 1, some 2, none, some 3, some 3] [some 1, some 2, none, some 4, some 4] 2
      true false = .ok [none, some (3/2), none, none, none] ∧
    atr64 [some 2, some 3, none, some 5, some 4] [some 1, some 2, none, some 3, some 3] [some 1, some 2, none, some 4, some 4] 2
      false false = .ok [none, some (3/2), none, none, some 1] ∧
    (∀ a b : ℚ, [some (2 : ℚ), some 3].getD 0 none = some a → [some (1 : ℚ), some 2].getD 0 none = some b → b ≤ a) := by
  refine ⟨by decide +kernel, by decide +kernel, ?_⟩
  intro a b ha hb
  simp at ha hb
  linarith

/-! ### Flow acceleration -/

/-- The volume of the first `n` bars. -/
def volumeOf (v : List ℚ) (n : Nat) : ℚ := (v.take n).sum

theorem volumeOf_succ (v : List ℚ) (n : Nat) : volumeOf v (n + 1) = volumeOf v n + v.getD n 0 := by
  unfold volumeOf
  rw [List.take_add_one, List.sum_append, List.getD_eq_getElem?_getD]
  cases v[n]? <;> simp

theorem getD_nonneg {v : List ℚ} (hv : ∀ x ∈ v, 0 ≤ x) (n : Nat) : 0 ≤ v.getD n 0 := by
  rw [List.getD_eq_getElem?_getD]
  cases h : v[n]? with
  | none => simp
  | some x => exact hv x (List.mem_of_getElem? h)

theorem volumeOf_nonneg {v : List ℚ} (hv : ∀ x ∈ v, 0 ≤ x) (n : Nat) : 0 ≤ volumeOf v n :=
  List.sum_nonneg (fun x hx => hv x (List.mem_of_mem_take hx))

theorem volumeOf_mono {v : List ℚ} (hv : ∀ x ∈ v, 0 ≤ x) {a b : Nat} (h : a ≤ b) : volumeOf v a ≤ volumeOf v b := by
  induction b, h using Nat.le_induction with
  | base => exact le_rfl
  | succ b _ ih => rw [volumeOf_succ]; linarith [getD_nonneg hv b]

theorem prefix64_rounds {v : List ℚ} (hv : ∀ x ∈ v, 0 ≤ x) (n : Nat) : Rounds n (volumeOf v n) (prefix64 v n) := by
  induction n with
  | zero => simp [Rounds, volumeOf, prefix64]
  | succ n ih =>
    rw [volumeOf_succ]
    have h0 := getD_nonneg hv n
    exact (ih.add ((Rounds.refl _).mono h0 (Nat.zero_le n))).f64 (add_nonneg (volumeOf_nonneg hv n) h0)

theorem rounds_abs {k : Nat} {x y : ℚ} (hx : 0 ≤ x) (h : Rounds k x y) : |y - x| ≤ ((1 + 1 / 2 ^ 53) ^ k - 1) * x := by
  have hb : (2 : ℚ) ≤ (1 + 1 / 2 ^ 53) ^ k + (1 - 1 / 2 ^ 53) ^ k := by
    have h1 := one_add_mul_le_pow (show (-2 : ℚ) ≤ 1 / 2 ^ 53 by norm_num) k
    have h2 := one_add_mul_le_pow (show (-2 : ℚ) ≤ -(1 / 2 ^ 53) by norm_num) k
    have e : (1 : ℚ) + -(1 / 2 ^ 53) = 1 - 1 / 2 ^ 53 := by ring
    rw [e] at h2
    nlinarith
  rw [abs_le]
  constructor
  · have := mul_le_mul_of_nonneg_right hb hx
    nlinarith [h.1]
  · nlinarith [h.2]

/-- **C130.** The volume of a stretch of bars, as the flow acceleration computes it from the running total, is off by at most the rounding
of the whole running total, not of the stretch. -/
theorem C130_flow_volume (v : List ℚ) (hv : ∀ x ∈ v, 0 ≤ x) (a b : Nat) (hab : a ≤ b) :
    |flowPart64 v a b - ((v.take b).drop a).sum| ≤ 2 * ((1 + 1 / 2 ^ 53) ^ (b + 1) - 1) * (v.take b).sum := by
  have hsplit : ((v.take b).drop a).sum = volumeOf v b - volumeOf v a := by
    unfold volumeOf
    have := List.sum_take_add_sum_drop (v.take b) a
    rw [List.take_take, min_eq_left hab] at this
    linarith
  rw [hsplit]
  show _ ≤ 2 * ((1 + 1 / 2 ^ 53) ^ (b + 1) - 1) * volumeOf v b
  have hS := volumeOf_nonneg hv b
  have hA := volumeOf_nonneg hv a
  have hm := volumeOf_mono hv hab
  have eb := rounds_abs hS (prefix64_rounds hv b)
  have ea' := rounds_abs hA (prefix64_rounds hv a)
  set q : ℚ := (1 + 1 / 2 ^ 53) ^ b with hq
  have hq1 : 1 ≤ q := one_le_pow₀ (by norm_num)
  have ea : |prefix64 v a - volumeOf v a| ≤ (q - 1) * volumeOf v b := by
    have hp : (1 + 1 / 2 ^ 53 : ℚ) ^ a ≤ q := pow_le_pow_right₀ (by norm_num) hab
    have hp1 : (1 : ℚ) ≤ (1 + 1 / 2 ^ 53 : ℚ) ^ a := one_le_pow₀ (by norm_num)
    refine le_trans ea' ?_
    exact mul_le_mul (by linarith) hm hA (by linarith)
  have hd : |prefix64 v b - prefix64 v a - (volumeOf v b - volumeOf v a)| ≤ 2 * (q - 1) * volumeOf v b := by
    have e : prefix64 v b - prefix64 v a - (volumeOf v b - volumeOf v a) =
      (prefix64 v b - volumeOf v b) - (prefix64 v a - volumeOf v a) := by ring
    rw [e]
    refine le_trans (abs_sub _ _) ?_
    linarith
  have hr := f64_relErr (prefix64 v b - prefix64 v a)
  have hx : |prefix64 v b - prefix64 v a| ≤ volumeOf v b + 2 * (q - 1) * volumeOf v b := by
    have := abs_sub_abs_le_abs_sub (prefix64 v b - prefix64 v a) (volumeOf v b - volumeOf v a)
    rw [abs_of_nonneg (show 0 ≤ volumeOf v b - volumeOf v a by linarith)] at this
    linarith
  unfold flowPart64
  have ht := abs_sub_le (f64 (prefix64 v b - prefix64 v a)) (prefix64 v b - prefix64 v a) (volumeOf v b - volumeOf v a)
  have hu : |prefix64 v b - prefix64 v a| / 2 ^ 53 ≤ (volumeOf v b + 2 * (q - 1) * volumeOf v b) * (1 / 2 ^ 53) := by
    rw [div_eq_mul_one_div]; exact mul_le_mul_of_nonneg_right hx (by norm_num)
  rw [pow_succ, ← hq]
  nlinarith [mul_nonneg hS (show (0 : ℚ) ≤ 1 / 2 ^ 53 by norm_num)]

example : (∀ x ∈ ([1, 1 / 2 ^ 60, 3] : List ℚ), 0 ≤ x) ∧ flowPart64 [1, 1 / 2 ^ 60, 3] 1 3 = 3 := by decide +kernel

theorem prefix64_int (z : List Int) (hz : ∀ x ∈ z, 0 ≤ x) (hs : z.sum ≤ 2 ^ 53) (n : Nat) :
    prefix64 (z.map (fun x : Int => (x : ℚ))) n = (((z.take n).sum : Int) : ℚ) := by
  induction n with
  | zero => simp [prefix64]
  | succ n ih =>
    have hsum : (z.take (n + 1)).sum = (z.take n).sum + z.getD n 0 := by
      rw [List.take_add_one, List.sum_append, List.getD_eq_getElem?_getD]
      cases z[n]? <;> simp
    have hg : (z.map (fun x : Int => (x : ℚ))).getD n 0 = ((z.getD n 0 : Int) : ℚ) := by
      simp only [List.getD_eq_getElem?_getD, List.getElem?_map]
      cases z[n]? <;> simp
    have h1 : 0 ≤ (z.take (n + 1)).sum := List.sum_nonneg (fun x hx => hz x (List.mem_of_mem_take hx))
    have h2 : (z.take (n + 1)).sum ≤ z.sum := by
      have := List.sum_take_add_sum_drop z (n + 1)
      have h3 : 0 ≤ (z.drop (n + 1)).sum := List.sum_nonneg (fun x hx => hz x (List.mem_of_mem_drop hx))
      omega
    unfold prefix64
    rw [ih, hg, ← Int.cast_add, ← hsum]
    exact f64_int _ (by rw [abs_of_nonneg h1]; omega)

/-- **C130.** Whole-number volumes with a total below `2^53` lose nothing. -/
theorem C130_flow_exact (z : List Int) (hz : ∀ x ∈ z, 0 ≤ x) (hs : z.sum ≤ 2 ^ 53) (a b : Nat) (hab : a ≤ b) :
    flowPart64 (z.map (fun x : Int => (x : ℚ))) a b = ((((z.take b).drop a).sum : Int) : ℚ) := by
  have hsplit : ((z.take b).drop a).sum = (z.take b).sum - (z.take a).sum := by
    have := List.sum_take_add_sum_drop (z.take b) a
    rw [List.take_take, min_eq_left hab] at this
    omega
  have h0 : 0 ≤ ((z.take b).drop a).sum :=
    List.sum_nonneg (fun x hx => hz x (List.mem_of_mem_take (List.mem_of_mem_drop hx)))
  have h1 : ((z.take b).drop a).sum ≤ z.sum := by
    have := List.sum_take_add_sum_drop z b
    have h3 : 0 ≤ (z.drop b).sum := List.sum_nonneg (fun x hx => hz x (List.mem_of_mem_drop hx))
    have h4 : 0 ≤ (z.take a).sum := List.sum_nonneg (fun x hx => hz x (List.mem_of_mem_take hx))
    omega
  unfold flowPart64
  rw [prefix64_int z hz hs, prefix64_int z hz hs, ← Int.cast_sub, ← hsplit]
  exact f64_int _ (by rw [abs_of_nonneg h0]; omega)

example : (∀ x ∈ ([1, 4, 3] : List Int), 0 ≤ x) ∧ ([1, 4, 3] : List Int).sum ≤ 2 ^ 53 ∧ flowPart64 [1, 4, 3] 1 3 = 7 := by decide +kernel

/-- **C130.** The flow acceleration is missing at exactly the positions where the exact one is, and elsewhere is the logarithm of the ratio of
the two rounded parts. -/
theorem C130_flow_column (log log64 : ℚ → ℚ) (eps : ℚ) (v : List ℚ) (w r i : Nat) (hi : i < v.length) :
    ((flowAcceleration64 log64 eps v w r)[i]? = some none ↔ (flowAcceleration log eps v w r)[i]? = some none) ∧
    (w ≤ i + 1 → r < w → (flowAcceleration64 log64 eps v w r)[i]? =
      some (some (log64 (f64 (f64 (flowPart64 v (i + 1 - r) (i + 1) + eps) / f64 (flowPart64 v (i + 1 - w) (i + 1 - r) + eps))))) ∧
      (flowAcceleration log eps v w r)[i]? ≠ some none) := by
  unfold flowAcceleration64 flowAcceleration
  by_cases h : v.length < w ∨ r ≥ w
  · simp only [if_pos h, tabulate_get?, if_pos hi]
    refine ⟨trivial, fun h1 h2 => ?_⟩
    omega
  · simp only [if_neg h, tabulate_get?, if_pos hi]
    by_cases h2 : i + 1 < w
    · simp only [if_pos h2]
      exact ⟨trivial, fun h3 => by omega⟩
    · simp only [if_neg h2]
      exact ⟨by simp, fun _ _ => ⟨rfl, by simp⟩⟩

example : flowAcceleration64 (fun x => x) 0 [1, 2, 6] 2 1 = [none, some 2, some 3] := by decide +kernel

/-- A violation: one bar of volume `2^53`, long before the window, makes the volume 1 of a later bar disappear, and the next bar's 3 becomes
4: with windows of 2 and 1 bars the ratio is about `4/eps` instead of about 3. -/
theorem C130_flow_lost :
    flowPart64 [9007199254740992, 1, 3] 1 2 = 0 ∧ flowPart64 [9007199254740992, 1, 3] 2 3 = 4 ∧
    3 * 10 ^ 12 < flowRatio64 (f64 (1 / 10 ^ 12)) [9007199254740992, 1, 3] 2 1 2 := by
  refine ⟨by decide +kernel, by decide +kernel, by decide +kernel⟩

/-! ### Burst ratio -/

theorem npMedian64_rounds (l : List ℚ) (h : ∀ x ∈ l, 0 ≤ x) :
    0 ≤ npMedian l ∧ Rounds 2 (npMedian l) (npMedian64 l) ∧ (l.length % 2 = 1 → npMedian64 l = npMedian l) := by
  have hs : ∀ x ∈ l.insertionSort (· ≤ ·), 0 ≤ x := fun x hx => h x ((List.mem_insertionSort (· ≤ ·)).mp hx)
  unfold npMedian npMedian64
  simp only [List.length_insertionSort]
  have g1 := getD_nonneg hs (l.length / 2)
  have g2 := getD_nonneg hs (l.length / 2 - 1)
  by_cases ho : l.length % 2 = 1
  · simp only [ho, if_true]
    exact ⟨g1, (Rounds.refl _).mono g1 (by omega), fun _ => trivial⟩
  · simp only [ho, if_false]
    have g := add_nonneg g2 g1
    exact ⟨by linarith, (((Rounds.refl _).f64 g).div (by norm_num : (0 : ℚ) ≤ 2)).f64 (by linarith), fun h => absurd h (by simp)⟩

/-- **C130.** Burst ratio of non-negative values: NaN in the same places, equal to the rounded exact ratio for odd windows, and within one
rounding above and two below the fraction for even ones. -/
theorem C130_burst (xs : List ℚ) (h : ∀ x ∈ xs, 0 ≤ x) (w i : Nat) (hi : i < xs.length) :
    OptRel (fun a b => a * ((1 - 1 / 2 ^ 53) ^ 1 / (1 + 1 / 2 ^ 53) ^ 2) ≤ b ∧ b ≤ a * ((1 + 1 / 2 ^ 53) ^ 1 / (1 - 1 / 2 ^ 53) ^ 2) ∧
        (w % 2 = 1 → b = f64 a))
      ((burstRatio xs w).getD i none) ((burstRatio64 xs w).getD i none) := by
  unfold burstRatio burstRatio64 rolling
  rw [tabulate_getD _ _ _ _ hi, tabulate_getD _ _ _ _ hi]
  by_cases hw : i + 1 < w
  · simp only [hw, if_true]; trivial
  · simp only [hw, if_false]
    have hlen : (window xs w i).length = w := by simp [window]; omega
    have hn : ∀ x ∈ window xs w i, 0 ≤ x := fun x hx => h x (List.mem_of_mem_drop (List.mem_of_mem_take hx))
    obtain ⟨m0, mr, mo⟩ := npMedian64_rounds _ hn
    have hlast : 0 ≤ (window xs w i).getLastD 0 := by
      rw [List.getLastD_eq_getLast?]
      cases hg : (window xs w i).getLast? with
      | none => simp
      | some x => exact hn x (List.mem_of_getLast? hg)
    by_cases hp : 0 < npMedian (window xs w i)
    · have hp' : 0 < npMedian64 (window xs w i) := lt_of_lt_of_le (mul_pos hp (lowPow_pos 2)) mr.1
      rw [if_pos hp, if_pos hp']
      have := rounds_quotient hlast hp (Rounds.refl _) mr
      exact ⟨this.1, this.2, fun hodd => by rw [mo (by rw [hlen]; exact hodd)]⟩
    · have hz : npMedian (window xs w i) = 0 := le_antisymm (not_lt.mp hp) m0
      have hz' : ¬ 0 < npMedian64 (window xs w i) := by
        have := mr.2
        rw [hz, zero_mul] at this
        exact not_lt.mpr this
      rw [if_neg hp, if_neg hz']
      trivial

example : burstRatio64 [1, 2, 3, 10] 3 = [none, none, some (3/2), some (f64 (10/3))] ∧ burstRatio64 [0, 0, 5] 2 = [none, none, some 2] := by
  decide +kernel

end FinML
