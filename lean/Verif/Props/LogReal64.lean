/-
C146: return attribution and the VWAP distance of float64 prices against the real logarithms.
-/
import Verif.Model.Float64Vwap
import Verif.Props.Balance64
import Verif.Props.Bollinger64
import Verif.Props.Cusum64

set_option linter.unusedSectionVars false

namespace FinML

/-! ### Return attribution -/

theorem abs_div_conc (x : ℝ) (c : Int) (hc : 0 < c) : |x / (c : ℝ)| ≤ |x| := by
  have h1 : (1 : ℝ) ≤ (c : ℝ) := by exact_mod_cast hc
  rw [abs_div, abs_of_pos (by linarith : (0 : ℝ) < c)]
  exact div_le_self (abs_nonneg _) h1

/-- One bar: the float64 share of a return against the real one. -/
theorem shared_err (log64 : ℚ → ℚ) (hlog : LogAccurate log64) (close : List ℚ) (conc : List Int) (hpos : ∀ x ∈ close, 0 < x) (L : ℝ)
    (hL0 : 0 ≤ L) (hL : ∀ i, i + 1 < close.length → |Real.log ((close.getD (i + 1) 0 / close.getD i 0 : ℚ) : ℝ)| ≤ L) (j : Nat)
    (hj : j < close.length) :
    |((sharedReturn (fun x => log64 (f64 x)) close conc j : ℚ) : ℝ) - sharedReturn Real.log (toReals close) conc j| ≤ (L + 2) / 2 ^ 52 ∧
    |sharedReturn Real.log (toReals close) conc j| ≤ L := by
  unfold sharedReturn
  have hp : ∀ k < close.length, 0 < close.getD k 0 := fun k hk => by
    rw [List.getD_eq_getElem _ _ hk]; exact hpos _ (List.getElem_mem _)
  rw [toReals_getD, toReals_getD]
  by_cases h : j = 0 ∨ close.getD (j - 1) 0 = 0 ∨ conc.getD j 0 ≤ 0
  · rw [if_pos h, if_pos (by rwa [Rat.cast_eq_zero])]
    simp only [Rat.cast_zero, sub_zero, abs_zero]
    exact ⟨by positivity, hL0⟩
  · rw [if_neg h, if_neg (by rwa [Rat.cast_eq_zero])]
    push Not at h
    obtain ⟨i, rfl⟩ : ∃ i, j = i + 1 := ⟨j - 1, by omega⟩
    rw [Nat.add_sub_cancel] at h ⊢
    have hq : 0 < close.getD (i + 1) 0 / close.getD i 0 := div_pos (hp _ hj) (hp _ (by omega))
    have e := ret64_err log64 hlog _ hq L (hL i hj)
    rw [Rat.cast_div, Rat.cast_intCast]
    constructor
    · rw [← sub_div]
      refine (abs_div_conc _ _ h.2.2).trans ?_
      rw [← Rat.cast_div]
      exact e
    · refine (abs_div_conc _ _ h.2.2).trans ?_
      rw [← Rat.cast_div]
      exact hL i hj

theorem filterMap_abs_sum {α : Type} (f : α → Option ℚ) (l : List α) :
    ((l.filterMap f).map (fun x => |x|)).sum = (l.map (fun a => |(f a).getD 0|)).sum := by
  induction l with
  | nil => rfl
  | cons a l ih =>
    rw [List.filterMap_cons, List.map_cons, List.sum_cons, ← ih]
    cases h : f a with
    | none => simp
    | some x => simp

theorem attrTerms_abs (log : ℚ → ℚ) (close : List ℚ) (conc : List Int) (s : Nat × Nat) (h : s.2 < close.length) :
    ((attrTerms (logReturns log close) conc s).map (fun x => |x|)).sum =
      ((List.range' s.1 (s.2 + 1 - s.1)).map (fun j => |sharedReturn log close conc j|)).sum := by
  unfold attrTerms
  rw [filterMap_abs_sum]
  congr 1
  apply List.map_congr_left
  intro j hj
  rw [List.mem_range'_1] at hj
  rw [logReturns_get log close j (by omega)]
  unfold sharedReturn
  by_cases h1 : j = 0 ∨ close.getD (j - 1) 0 = 0
  · rw [if_pos h1, if_pos (by tauto)]
    rfl
  · rw [if_neg h1]
    simp only
    by_cases h2 : conc.getD j 0 > 0
    · rw [if_pos h2, if_neg, Option.getD_some]
      push Not at h1 ⊢
      exact ⟨h1.1, h1.2, h2⟩
    · rw [if_neg h2, if_pos, Option.getD_none]
      right; right; omega

theorem sum_err {α : Type} (f : α → ℚ) (g : α → ℝ) (l : List α) (ε : ℝ) (h : ∀ a ∈ l, |(f a : ℝ) - g a| ≤ ε) :
    |(((l.map f).sum : ℚ) : ℝ) - (l.map g).sum| ≤ l.length * ε := by
  induction l with
  | nil => simp
  | cons a l ih =>
    rw [List.map_cons, List.map_cons, List.sum_cons, List.sum_cons, List.length_cons]
    have h1 := h a (by simp)
    have h2 := ih (fun b hb => h b (List.mem_cons_of_mem _ hb))
    rw [Rat.cast_add, Nat.cast_succ]
    rw [show (f a : ℝ) + ((l.map f).sum : ℚ) - (g a + (l.map g).sum) = (f a - g a) + (((l.map f).sum : ℚ) - (l.map g).sum) by ring]
    have := abs_add_le ((f a : ℝ) - g a) (((l.map f).sum : ℚ) - (l.map g).sum)
    linarith

theorem sum_abs_le {α : Type} (f : α → ℚ) (l : List α) (B : ℝ) (h : ∀ a ∈ l, |(f a : ℝ)| ≤ B) :
    (((l.map (fun a => |f a|)).sum : ℚ) : ℝ) ≤ l.length * B := by
  induction l with
  | nil => simp
  | cons a l ih =>
    rw [List.map_cons, List.sum_cons, List.length_cons]
    have h1 := h a (by simp)
    have h2 := ih (fun b hb => h b (List.mem_cons_of_mem _ hb))
    rw [Rat.cast_add, Rat.cast_abs, Nat.cast_succ]
    linarith

/-- **C146.** The return attribution of a label over `m` bars, computed from float64 prices, differs from the real one by at most
`m (m + 2) (L + 2) / 2^52`, where `L` bounds the absolute log returns from bar to bar. -/
theorem C146_attribution (log64 : ℚ → ℚ) (hlog : LogAccurate log64) (close : List ℚ) (conc : List Int) (hpos : ∀ x ∈ close, 0 < x) (L : ℝ)
    (hL0 : 0 ≤ L) (hL : ∀ i, i + 1 < close.length → |Real.log ((close.getD (i + 1) 0 / close.getD i 0 : ℚ) : ℝ)| ≤ L) (s : Nat × Nat)
    (hs : s.2 < close.length) (hm : s.2 + 1 - s.1 ≤ 2 ^ 40) :
    |((attribution64 (logReturns (fun x => log64 (f64 x)) close) conc s : ℚ) : ℝ) -
      abs (attrSum (logReturns Real.log (toReals close)) conc s)| ≤
      (s.2 + 1 - s.1 : Nat) * ((s.2 + 1 - s.1 : Nat) + 2) * (L + 2) / 2 ^ 52 := by
  have hlen : (toReals close).length = close.length := by unfold toReals; rw [List.length_map]
  have e1 := C135_attribution_error (logReturns (fun x => log64 (f64 x)) close) conc s
  rw [attrTerms_abs _ _ _ _ hs] at e1
  rw [attrSum_eq _ _ _ _ hs] at e1
  rw [attrSum_eq _ _ _ _ (by rw [hlen]; exact hs)]
  have hb : ∀ j ∈ List.range' s.1 (s.2 + 1 - s.1), j < close.length := fun j hj => by
    rw [List.mem_range'_1] at hj; omega
  have E := fun j hj => shared_err log64 hlog close conc hpos L hL0 hL j (hb j hj)
  have e2 := sum_err (sharedReturn (fun x => log64 (f64 x)) close conc) (sharedReturn Real.log (toReals close) conc) _ _ (fun j hj => (E j hj).1)
  have e3 := sum_abs_le (sharedReturn (fun x => log64 (f64 x)) close conc) (List.range' s.1 (s.2 + 1 - s.1)) (L + (L + 2) / 2 ^ 52)
    (fun j hj => by
      obtain ⟨a, b⟩ := E j hj
      have := abs_sub_abs_le_abs_sub ((sharedReturn (fun x => log64 (f64 x)) close conc j : ℚ) : ℝ) (sharedReturn Real.log (toReals close) conc j)
      linarith)
  rw [List.length_range'] at e2 e3
  generalize s.2 + 1 - s.1 = m at *
  generalize ((List.range' s.1 m).map (sharedReturn Real.log (toReals close) conc)).sum = R at *
  generalize ((List.range' s.1 m).map (sharedReturn (fun x => log64 (f64 x)) close conc)).sum = F at *
  generalize ((List.range' s.1 m).map (fun j => |sharedReturn (fun x => log64 (f64 x)) close conc j|)).sum = A at *
  generalize attribution64 (logReturns (fun x => log64 (f64 x)) close) conc s = w at *
  have hA : 0 ≤ ((1 + 1 / 2 ^ 53 : ℚ) ^ (m + 1) - 1) * A := (abs_nonneg _).trans e1
  have fu := factor_up (m + 1) 0 (by omega)
  rw [pow_zero, div_one, add_zero] at fu
  have p1 : (1 : ℚ) ≤ (1 + 1 / 2 ^ 53) ^ (m + 1) := one_le_pow₀ (by norm_num)
  generalize (1 + 1 / 2 ^ 53 : ℚ) ^ (m + 1) = P at *
  have e1' := (Rat.cast_le (K := ℝ)).mpr e1
  have fu' := (Rat.cast_le (K := ℝ)).mpr fu
  have p1' := (Rat.cast_le (K := ℝ)).mpr p1
  push_cast at e1' fu' p1'
  have hm0 : (0 : ℝ) ≤ (m : ℝ) := by positivity
  have t := abs_abs_sub_abs_le (F : ℝ) R
  have t2 := abs_sub_le (w : ℝ) |(F : ℝ)| |R|
  have g : ((P : ℝ) - 1) * A ≤ (4 / 3 * ((m : ℝ) + 1) / 2 ^ 53) * (m * (L + (L + 2) / 2 ^ 52)) := by
    calc ((P : ℝ) - 1) * A ≤ ((P : ℝ) - 1) * (m * (L + (L + 2) / 2 ^ 52)) := mul_le_mul_of_nonneg_left e3 (by linarith)
      _ ≤ _ := mul_le_mul_of_nonneg_right (by linarith) (by positivity)
  have k : (4 / 3 * ((m : ℝ) + 1) / 2 ^ 53) * (m * (L + (L + 2) / 2 ^ 52)) ≤ m * (m + 1) * (L + 2) / 2 ^ 52 := by
    have h1 : L + (L + 2) / 2 ^ 52 ≤ 3 / 2 * (L + 2) := by
      have : (L + 2) / 2 ^ 52 ≤ (L + 2) / 2 := div_le_div_of_nonneg_left (by linarith) (by norm_num) (by norm_num)
      linarith
    calc (4 / 3 * ((m : ℝ) + 1) / 2 ^ 53) * (m * (L + (L + 2) / 2 ^ 52)) ≤ (4 / 3 * ((m : ℝ) + 1) / 2 ^ 53) * (m * (3 / 2 * (L + 2))) :=
          mul_le_mul_of_nonneg_left (mul_le_mul_of_nonneg_left h1 hm0) (by positivity)
      _ = _ := by ring
  have fin : (m : ℝ) * ((L + 2) / 2 ^ 52) + m * (m + 1) * (L + 2) / 2 ^ 52 = m * (m + 2) * (L + 2) / 2 ^ 52 := by ring
  linarith

example (log64 : ℚ → ℚ) (hlog : LogAccurate log64) :
    |((attribution64 (logReturns (fun x => log64 (f64 x)) [1, 1, 1]) [1, 1, 1] (1, 2) : ℚ) : ℝ) -
      abs (attrSum (logReturns Real.log (toReals [1, 1, 1])) [1, 1, 1] (1, 2))| ≤ (2 : Nat) * ((2 : Nat) + 2) * (0 + 2) / 2 ^ 52 :=
  C146_attribution log64 hlog [1, 1, 1] [1, 1, 1] (by simp) 0 le_rfl (fun i hi => by
    have : i = 0 ∨ i = 1 := by simp at hi; omega
    rcases this with rfl | rfl <;> simp) (1, 2) (by simp) (by norm_num)

/-- **C146.** The attribution of a label that meets no other is the absolute log return from the bar before it to its last bar, up to the
same error. -/
theorem C146_isolated (log64 : ℚ → ℚ) (hlog : LogAccurate log64) (close : List ℚ) (conc : List Int) (hpos : ∀ x ∈ close, 0 < x) (L : ℝ)
    (hL0 : 0 ≤ L) (hL : ∀ i, i + 1 < close.length → |Real.log ((close.getD (i + 1) 0 / close.getD i 0 : ℚ) : ℝ)| ≤ L) (s : Nat × Nat)
    (h1 : 1 ≤ s.1) (h12 : s.1 ≤ s.2) (hs : s.2 < close.length) (hm : s.2 + 1 - s.1 ≤ 2 ^ 40)
    (hconc : ∀ j, s.1 ≤ j → j ≤ s.2 → conc.getD j 0 = 1) :
    |((attribution64 (logReturns (fun x => log64 (f64 x)) close) conc s : ℚ) : ℝ) -
      abs (Real.log (close.getD s.2 0 : ℚ) - Real.log (close.getD (s.1 - 1) 0 : ℚ))| ≤
      (s.2 + 1 - s.1 : Nat) * ((s.2 + 1 - s.1 : Nat) + 2) * (L + 2) / 2 ^ 52 := by
  have hlen : (toReals close).length = close.length := by unfold toReals; rw [List.length_map]
  have h := C28_isolated_label Real.log (fun a b ha hb => Real.log_div ha.ne' hb.ne') (toReals close) conc s h1 h12 (by rw [hlen]; exact hs)
    (fun x hx => by
      unfold toReals at hx
      obtain ⟨q, hq, rfl⟩ := List.mem_map.mp hx
      exact_mod_cast hpos q hq) hconc
  simp only [returnAttribution, Bool.false_eq_true, if_false, List.map_cons, List.map_nil, Except.ok.injEq, List.cons.injEq, and_true] at h
  rw [toReals_getD, toReals_getD] at h
  rw [← h]
  exact C146_attribution log64 hlog close conc hpos L hL0 hL s hs hm

/-- A price that doubles twice: the label over the last bar is worth `log 2`. -/
example (log64 : ℚ → ℚ) (hlog : LogAccurate log64) :
    |((attribution64 (logReturns (fun x => log64 (f64 x)) [1, 2, 4]) [1, 1, 1] (2, 2) : ℚ) : ℝ) - Real.log 2| ≤ 9 / 2 ^ 52 := by
  have h2 := Real.log_two_gt_d9
  have h3 := Real.log_two_lt_d9
  have h4 : Real.log 4 = 2 * Real.log 2 := by
    rw [show (4 : ℝ) = 2 ^ 2 by norm_num, Real.log_pow]
    norm_num
  have := C146_isolated log64 hlog [1, 2, 4] [1, 1, 1] (by simp) 1 zero_le_one (fun i hi => by
    have hi' : i = 0 ∨ i = 1 := by simp at hi; omega
    rcases hi' with rfl | rfl
    · simp only [List.getD_cons_zero, List.getD_cons_succ]
      rw [show (((2 : ℚ) / 1 : ℚ) : ℝ) = 2 by norm_num, abs_of_pos (by linarith)]
      linarith
    · simp only [List.getD_cons_zero, List.getD_cons_succ]
      rw [show (((4 : ℚ) / 2 : ℚ) : ℝ) = 2 by norm_num, abs_of_pos (by linarith)]
      linarith) (2, 2) (by norm_num) (le_refl _) (by simp) (by norm_num) (fun j a b => by
        have : j = 2 := by simp at a b; omega
        rw [this]; rfl)
  simp only [List.getD_cons_zero, List.getD_cons_succ] at this
  norm_num [h4] at this
  have e : (2 : ℝ) * Real.log 2 - Real.log 2 = Real.log 2 := by ring
  rw [e, abs_of_pos (by linarith : 0 < Real.log 2)] at this
  norm_num
  exact this

/-! ### VWAP distance -/

/-- The running sums of the VWAP: relative errors below `ε`. -/
theorem vwap_sums_near (close volume : List ℚ) (w n : Nat) (P V ε : ℚ) (hw : 2 ≤ w) (hl : close.length = volume.length)
    (h : w + n ≤ close.length) (hN : w + n ≤ 2 ^ 40) (hc : ∀ c ∈ close, 0 ≤ c ∧ c ≤ P) (hv : ∀ v ∈ volume, 0 ≤ v ∧ v ≤ V)
    (h1 : 6 * ((w + n : Nat) : ℚ) * (w * V) / 2 ^ 53 ≤ ε * (window volume w (w + n - 1)).sum)
    (h2 : 8 * ((w + n : Nat) : ℚ) * (w * (P * V)) / 2 ^ 53 ≤
      ε * (List.zipWith (· * ·) (window close w (w + n - 1)) (window volume w (w + n - 1))).sum) :
    ∃ s, (vwapSums64 close volume w)[n]? = some s ∧
      |s.1 - (List.zipWith (· * ·) (window close w (w + n - 1)) (window volume w (w + n - 1))).sum| ≤
        ε * (List.zipWith (· * ·) (window close w (w + n - 1)) (window volume w (w + n - 1))).sum ∧
      |s.2 - (window volume w (w + n - 1)).sum| ≤ ε * (window volume w (w + n - 1)).sum := by
  have hP : 0 ≤ P := by
    cases close with
    | nil => simp at h; omega
    | cons c l => exact (hc c (by simp)).1.trans (hc c (by simp)).2
  have hV : 0 ≤ V := by
    cases volume with
    | nil => rw [hl] at h; simp at h; omega
    | cons c l => exact (hv c (by simp)).1.trans (hv c (by simp)).2
  have hz : ∀ x ∈ List.zipWith (fun c v => f64 (c * v)) close volume, |x| ≤ P * V * (1 + 1 / 2 ^ 53) := by
    intro x hx
    obtain ⟨c, hc', v, hv', rfl⟩ := mem_zipWith_exists _ _ _ _ hx
    obtain ⟨c0, c1⟩ := hc c hc'
    obtain ⟨v0, v1⟩ := hv v hv'
    have p : c * v ≤ P * V := mul_le_mul c1 v1 v0 hP
    rw [abs_of_nonneg (f64_nonneg (mul_nonneg c0 v0))]
    refine (f64_mono p).trans ?_
    have := f64_relErr (P * V)
    rw [abs_of_nonneg (mul_nonneg hP hV)] at this
    have := (abs_le.mp this).2
    linarith
  obtain ⟨s1, e1, b1, -⟩ := runSums64_err (List.zipWith (fun c v => f64 (c * v)) close volume) w n _ hw
    (by rw [List.length_zipWith, ← hl, min_self]; exact h) hN hz
  obtain ⟨s2, e2, b2, -⟩ := runSums64_err volume w n V hw (by omega) hN (fun v hv' => by
    rw [abs_of_nonneg (hv v hv').1]; exact (hv v hv').2)
  refine ⟨(s1, s2), ?_, ?_, b2.trans h1⟩
  · unfold vwapSums64
    rw [List.getElem?_zip_eq_some]
    exact ⟨e1, e2⟩
  · refine le_trans ?_ h2
    rw [window_zipWith] at b1
    have wl1 : (window close w (w + n - 1)).length ≤ w := by unfold window; rw [List.length_take]; omega
    have hcw : ∀ c ∈ window close w (w + n - 1), 0 ≤ c ∧ c ≤ P := fun c hc' => hc c (List.mem_of_mem_drop (List.mem_of_mem_take hc'))
    have hvw : ∀ v ∈ window volume w (w + n - 1), 0 ≤ v ∧ v ≤ V := fun v hv' => hv v (List.mem_of_mem_drop (List.mem_of_mem_take hv'))
    generalize window close w (w + n - 1) = cw at *
    generalize window volume w (w + n - 1) = vw at *
    have pr : |(List.zipWith (fun c v => f64 (c * v)) cw vw).sum - (List.zipWith (· * ·) cw vw).sum| ≤ cw.length * (P * V / 2 ^ 53) := by
      clear b1 b2 e1 e2 h1 h2 wl1
      induction cw generalizing vw with
      | nil => simp
      | cons c cw ih =>
        cases vw with
        | nil => simp; positivity
        | cons v vw =>
          have := ih (fun c hc' => hcw c (List.mem_cons_of_mem _ hc')) vw (fun v hv' => hvw v (List.mem_cons_of_mem _ hv'))
          rw [List.zipWith_cons_cons, List.zipWith_cons_cons, List.sum_cons, List.sum_cons, List.length_cons]
          have r := f64_relErr (c * v)
          obtain ⟨c0, c1⟩ := hcw c (by simp)
          obtain ⟨v0, v1⟩ := hvw v (by simp)
          rw [abs_of_nonneg (mul_nonneg c0 v0)] at r
          have p : c * v / 2 ^ 53 ≤ P * V / 2 ^ 53 := div_le_div_of_nonneg_right (mul_le_mul c1 v1 v0 hP) (by norm_num)
          have t := abs_add_le (f64 (c * v) - c * v) ((List.zipWith (fun c v => f64 (c * v)) cw vw).sum - (List.zipWith (· * ·) cw vw).sum)
          rw [show f64 (c * v) + (List.zipWith (fun c v => f64 (c * v)) cw vw).sum - (c * v + (List.zipWith (· * ·) cw vw).sum) =
            (f64 (c * v) - c * v) + ((List.zipWith (fun c v => f64 (c * v)) cw vw).sum - (List.zipWith (· * ·) cw vw).sum) by ring]
          push_cast
          linarith
    have t := abs_sub_le s1 (List.zipWith (fun c v => f64 (c * v)) cw vw).sum (List.zipWith (· * ·) cw vw).sum
    have hQ : 0 ≤ P * V := mul_nonneg hP hV
    generalize P * V = Q at *
    have wlq : (cw.length : ℚ) ≤ w := by exact_mod_cast wl1
    have pr2 : (cw.length : ℚ) * (Q / 2 ^ 53) ≤ w * (Q / 2 ^ 53) := mul_le_mul_of_nonneg_right wlq (by positivity)
    have hNq : (1 : ℚ) ≤ ((w + n : Nat) : ℚ) := by exact_mod_cast (by omega : 1 ≤ w + n)
    generalize ((w + n : Nat) : ℚ) = N at *
    have hT : 0 ≤ (w : ℚ) * Q / 2 ^ 53 := by positivity
    generalize hTe : (w : ℚ) * Q / 2 ^ 53 = T at *
    have k1 : 6 * N * (w * (Q * (1 + 1 / 2 ^ 53))) / 2 ^ 53 = 6 * N * T * (1 + 1 / 2 ^ 53) := by rw [← hTe]; ring
    have k2 : 8 * N * (w * Q) / 2 ^ 53 = 8 * N * T := by rw [← hTe]; ring
    have k3 : w * (Q / 2 ^ 53) = T := by rw [← hTe]; ring
    rw [k1] at b1
    rw [k2]
    rw [k3] at pr2
    have hNT : T ≤ N * T := le_mul_of_one_le_left hT hNq
    have k4 : 6 * N * T * (1 + 1 / 2 ^ 53) = 6 * (N * T) + 6 / 2 ^ 53 * (N * T) := by ring
    have k5 : 6 / 2 ^ 53 * (N * T) ≤ N * T := mul_le_of_le_one_left (by linarith) (by norm_num)
    linarith

theorem vwapOut64_at (log64 : ℚ → ℚ) (close volume : List ℚ) (w n : Nat) (isLog : Bool) (s : ℚ × ℚ) (hw : 1 ≤ w)
    (hs : (vwapSums64 close volume w)[n]? = some s) (h : 0 < s.2) :
    vwapOut64 log64 close volume w isLog n = some (if isLog = true ∧ n ≠ 0 then vwapDistLog64 log64 (close.getD (w + n - 1) 0) s
      else vwapDistVal64 (close.getD (w + n - 1) 0) s) := by
  cases n with
  | zero =>
    simp only [vwapOut64, List.getD_eq_getElem?_getD, hs, Option.getD_some]
    rw [if_pos h, if_neg (by simp)]
    simp
  | succ m =>
    simp only [vwapOut64, List.getD_eq_getElem?_getD, hs, Option.getD_some]
    rw [if_pos h, show w + (m + 1) - 1 = w + m by omega]
    cases isLog <;> simp

/-- **C146.** VWAP distance in float64.  Let the prices be at most `P`, the volumes at most `V`, and let `ε ≤ 1/8` be the share that the
rounding of the running sums may reach of the window's volume and value.  The simple distance is the exact one up to
`4 (ε + 4 / 2^53) (close / vwap + 1)`. -/
theorem C146_vwap_simple (log64 : ℚ → ℚ) (close volume : List ℚ) (w n : Nat) (P V ε : ℚ) (hw : 2 ≤ w) (hl : close.length = volume.length)
    (h : w + n ≤ close.length) (hN : w + n ≤ 2 ^ 40) (hc : ∀ c ∈ close, 0 ≤ c ∧ c ≤ P) (hv : ∀ v ∈ volume, 0 ≤ v ∧ v ≤ V)
    (hS : 0 < (window volume w (w + n - 1)).sum)
    (hD : 0 < (List.zipWith (· * ·) (window close w (w + n - 1)) (window volume w (w + n - 1))).sum) (hε : ε ≤ 1 / 8)
    (h1 : 6 * ((w + n : Nat) : ℚ) * (w * V) / 2 ^ 53 ≤ ε * (window volume w (w + n - 1)).sum)
    (h2 : 8 * ((w + n : Nat) : ℚ) * (w * (P * V)) / 2 ^ 53 ≤
      ε * (List.zipWith (· * ·) (window close w (w + n - 1)) (window volume w (w + n - 1))).sum) (isLog : Bool)
    (hlog : isLog = true → n = 0) :
    let q := close.getD (w + n - 1) 0 /
      ((List.zipWith (· * ·) (window close w (w + n - 1)) (window volume w (w + n - 1))).sum / (window volume w (w + n - 1)).sum)
    ∃ r, (vwapDistance64 log64 close volume w isLog)[w + n - 1]? = some (some r) ∧ |r - (q - 1)| ≤ 4 * (ε + 4 / 2 ^ 53) * (q + 1) := by
  intro q
  have hqd : q = close.getD (w + n - 1) 0 /
      ((List.zipWith (· * ·) (window close w (w + n - 1)) (window volume w (w + n - 1))).sum / (window volume w (w + n - 1)).sum) := rfl
  clear_value q
  obtain ⟨s, es, a1, a2⟩ := vwap_sums_near close volume w n P V ε hw hl h hN hc hv h1 h2
  have hc0 : 0 ≤ close.getD (w + n - 1) 0 := by
    rw [List.getD_eq_getElem _ _ (by omega)]; exact (hc _ (List.getElem_mem _)).1
  generalize (List.zipWith (· * ·) (window close w (w + n - 1)) (window volume w (w + n - 1))).sum = D at *
  generalize (window volume w (w + n - 1)).sum = S at *
  have hε0 : 0 ≤ ε := by
    by_contra hneg
    have : ε * S < 0 := mul_neg_of_neg_of_pos (not_le.mp hneg) hS
    have := (abs_nonneg _).trans a2
    linarith
  obtain ⟨l1, u1⟩ := abs_le.mp a1
  obtain ⟨l2, u2⟩ := abs_le.mp a2
  have hεD : ε * D ≤ 1 / 8 * D := mul_le_mul_of_nonneg_right hε hD.le
  have hεS : ε * S ≤ 1 / 8 * S := mul_le_mul_of_nonneg_right hε hS.le
  have hs1 : 0 < s.1 := by linarith
  have hs2 : 0 < s.2 := by linarith
  refine ⟨vwapDistVal64 (close.getD (w + n - 1) 0) s, ?_, ?_⟩
  · unfold vwapDistance64
    rw [List.getElem?_map, List.getElem?_range (by omega), Option.map_some, if_neg (by omega), show w + n - 1 + 1 - w = n by omega,
      vwapOut64_at log64 close volume w n isLog s (by omega) es hs2, if_neg (by tauto)]
  · have e := C90_vwap_distance_error (close.getD (w + n - 1) 0) s hc0 hs1 hs2
    have hq : q = close.getD (w + n - 1) 0 * S / D := by rw [hqd, div_div_eq_mul_div]
    have hq' : close.getD (w + n - 1) 0 / (s.1 / s.2) = close.getD (w + n - 1) 0 * s.2 / s.1 := div_div_eq_mul_div _ _ _
    rw [hq'] at e
    generalize close.getD (w + n - 1) 0 = c at *
    have hq0 : 0 ≤ q := by rw [hq]; positivity
    have m1 : c * s.2 / s.1 ≤ q * (1 + 3 * ε) := by
      rw [div_le_iff₀ hs1, hq]
      have g : (1 + ε) ≤ (1 + 3 * ε) * (1 - ε) := by nlinarith
      calc c * s.2 ≤ c * (S * (1 + ε)) := mul_le_mul_of_nonneg_left (by linarith) hc0
        _ ≤ c * (S * ((1 + 3 * ε) * (1 - ε))) := mul_le_mul_of_nonneg_left (mul_le_mul_of_nonneg_left g hS.le) hc0
        _ = c * S / D * (1 + 3 * ε) * (D * (1 - ε)) := by field_simp
        _ ≤ c * S / D * (1 + 3 * ε) * s.1 := mul_le_mul_of_nonneg_left (by linarith) (by positivity)
    have m2 : q * (1 - 3 * ε) ≤ c * s.2 / s.1 := by
      rw [le_div_iff₀ hs1, hq]
      have g : (1 - 3 * ε) * (1 + ε) ≤ 1 - ε := by nlinarith
      calc c * S / D * (1 - 3 * ε) * s.1 ≤ c * S / D * (1 - 3 * ε) * (D * (1 + ε)) :=
            mul_le_mul_of_nonneg_left (by linarith) (mul_nonneg (by positivity) (by linarith))
        _ = c * (S * ((1 - 3 * ε) * (1 + ε))) := by field_simp
        _ ≤ c * (S * (1 - ε)) := mul_le_mul_of_nonneg_left (mul_le_mul_of_nonneg_left g hS.le) hc0
        _ ≤ c * s.2 := mul_le_mul_of_nonneg_left (by linarith) hc0
    generalize c * s.2 / s.1 = z at *
    generalize vwapDistVal64 c s = r at *
    have z2 : z ≤ 2 * q := by
      have : q * (1 + 3 * ε) ≤ q * 2 := mul_le_mul_of_nonneg_left (by linarith) hq0
      linarith
    have e2 : 6 / 2 ^ 53 * (z + 1) ≤ 6 / 2 ^ 53 * (2 * (q + 1)) := mul_le_mul_of_nonneg_left (by linarith) (by norm_num)
    have t : |z - q| ≤ 3 * (ε * q) := by
      rw [abs_le]; constructor <;> linarith
    have t2 := abs_sub_le r (z - 1) (q - 1)
    rw [show z - 1 - (q - 1) = z - q by ring] at t2
    have k : 4 * (ε + 4 / 2 ^ 53) * (q + 1) = 4 * (ε * q) + 4 * ε + 16 / 2 ^ 53 * (q + 1) := by ring
    have k2 : 0 ≤ ε * q := mul_nonneg hε0 hq0
    have k3 : 6 / 2 ^ 53 * (2 * (q + 1)) ≤ 16 / 2 ^ 53 * (q + 1) := by
      rw [show (6 : ℚ) / 2 ^ 53 * (2 * (q + 1)) = 12 / 2 ^ 53 * (q + 1) by ring]
      exact mul_le_mul_of_nonneg_right (by norm_num) (by linarith)
    linarith

example :
    let close : List ℚ := [100, 101, 99, 102]
    let volume : List ℚ := [3, 2, 4, 3]
    (∀ c ∈ close, 0 ≤ c ∧ c ≤ 102) ∧ (∀ v ∈ volume, 0 ≤ v ∧ v ≤ 4) ∧ 0 < (window volume 2 3).sum ∧
    6 * ((2 + 2 : Nat) : ℚ) * ((2 : Nat) * 4) / 2 ^ 53 ≤ 1 / 2 ^ 45 * (window volume 2 3).sum ∧
    8 * ((2 + 2 : Nat) : ℚ) * ((2 : Nat) * (102 * 4)) / 2 ^ 53 ≤
      1 / 2 ^ 45 * (List.zipWith (· * ·) (window close 2 3) (window volume 2 3)).sum := by decide +kernel

theorem log_near {x X ε : ℝ} (hX : 0 < X) (hε0 : 0 ≤ ε) (hε : ε ≤ 1 / 8) (h : |x - X| ≤ ε * X) :
    0 < x ∧ |Real.log x - Real.log X| ≤ 2 * ε := by
  obtain ⟨l, u⟩ := abs_le.mp h
  have hεX : ε * X ≤ 1 / 8 * X := mul_le_mul_of_nonneg_right hε hX.le
  have hx : 0 < x := by linarith
  refine ⟨hx, ?_⟩
  rw [← Real.log_div hx.ne' hX.ne']
  have hr : 0 < x / X := div_pos hx hX
  have r1 : x / X ≤ 1 + ε := by rw [div_le_iff₀ hX]; linarith
  have r2 : X / x ≤ 1 + 2 * ε := by
    rw [div_le_iff₀ hx]
    have : (1 + 2 * ε) * (X * (1 - ε)) ≤ (1 + 2 * ε) * x := mul_le_mul_of_nonneg_left (by linarith) (by linarith)
    have g : 1 ≤ (1 + 2 * ε) * (1 - ε) := by nlinarith
    have := mul_le_mul_of_nonneg_left g hX.le
    linarith
  have u1 := Real.log_le_sub_one_of_pos hr
  have u2 := Real.log_le_sub_one_of_pos (inv_pos.mpr hr)
  rw [Real.log_inv, inv_div] at u2
  rw [abs_le]
  constructor <;> linarith

/-- **C146.** The log distance, under the same bounds and with positive prices: the real `log (close / vwap)` up to
`4 ε + (|log (close / vwap)| + 5) / 2^52`. -/
theorem C146_vwap_log (log64 : ℚ → ℚ) (hlog : LogAccurate log64) (close volume : List ℚ) (w n : Nat) (P V ε : ℚ) (hw : 2 ≤ w) (hn : n ≠ 0)
    (hl : close.length = volume.length) (h : w + n ≤ close.length) (hN : w + n ≤ 2 ^ 40) (hc : ∀ c ∈ close, 0 < c ∧ c ≤ P)
    (hv : ∀ v ∈ volume, 0 ≤ v ∧ v ≤ V) (hS : 0 < (window volume w (w + n - 1)).sum)
    (hD : 0 < (List.zipWith (· * ·) (window close w (w + n - 1)) (window volume w (w + n - 1))).sum) (hε : ε ≤ 1 / 8)
    (h1 : 6 * ((w + n : Nat) : ℚ) * (w * V) / 2 ^ 53 ≤ ε * (window volume w (w + n - 1)).sum)
    (h2 : 8 * ((w + n : Nat) : ℚ) * (w * (P * V)) / 2 ^ 53 ≤
      ε * (List.zipWith (· * ·) (window close w (w + n - 1)) (window volume w (w + n - 1))).sum) :
    let q := close.getD (w + n - 1) 0 /
      ((List.zipWith (· * ·) (window close w (w + n - 1)) (window volume w (w + n - 1))).sum / (window volume w (w + n - 1)).sum)
    ∃ r, (vwapDistance64 log64 close volume w true)[w + n - 1]? = some (some r) ∧
      |(r : ℝ) - Real.log (q : ℚ)| ≤ 4 * ε + (|Real.log (q : ℚ)| + 5) / 2 ^ 52 := by
  intro q
  have hqd : q = close.getD (w + n - 1) 0 /
      ((List.zipWith (· * ·) (window close w (w + n - 1)) (window volume w (w + n - 1))).sum / (window volume w (w + n - 1)).sum) := rfl
  clear_value q
  obtain ⟨s, es, a1, a2⟩ := vwap_sums_near close volume w n P V ε hw hl h hN (fun c hc' => ⟨(hc c hc').1.le, (hc c hc').2⟩) hv h1 h2
  have hc0 : 0 < close.getD (w + n - 1) 0 := by
    rw [List.getD_eq_getElem _ _ (by omega)]; exact (hc _ (List.getElem_mem _)).1
  generalize (List.zipWith (· * ·) (window close w (w + n - 1)) (window volume w (w + n - 1))).sum = D at *
  generalize (window volume w (w + n - 1)).sum = S at *
  have hε0 : 0 ≤ ε := by
    by_contra hneg
    have : ε * S < 0 := mul_neg_of_neg_of_pos (not_le.mp hneg) hS
    have := (abs_nonneg _).trans a2
    linarith
  have a1' := (Rat.cast_le (K := ℝ)).mpr a1
  have a2' := (Rat.cast_le (K := ℝ)).mpr a2
  push_cast at a1' a2'
  have hε' : (ε : ℝ) ≤ 1 / 8 := by have := (Rat.cast_le (K := ℝ)).mpr hε; push_cast at this; exact this
  have hε0' : (0 : ℝ) ≤ ε := by exact_mod_cast hε0
  have hD' : (0 : ℝ) < D := by exact_mod_cast hD
  have hS' : (0 : ℝ) < S := by exact_mod_cast hS
  obtain ⟨p1, b1⟩ := log_near hD' hε0' hε' a1'
  obtain ⟨p2, b2⟩ := log_near hS' hε0' hε' a2'
  have hs1 : 0 < s.1 := by exact_mod_cast p1
  have hs2 : 0 < s.2 := by exact_mod_cast p2
  refine ⟨vwapDistLog64 log64 (close.getD (w + n - 1) 0) s, ?_, ?_⟩
  · unfold vwapDistance64
    rw [List.getElem?_map, List.getElem?_range (by omega), Option.map_some, if_neg (by omega), show w + n - 1 + 1 - w = n by omega,
      vwapOut64_at log64 close volume w n true s (by omega) es hs2, if_pos ⟨rfl, hn⟩]
  · have hq : Real.log (q : ℚ) = Real.log (close.getD (w + n - 1) 0 : ℚ) - (Real.log D - Real.log S) := by
      rw [hqd, Rat.cast_div, Rat.cast_div, Real.log_div (by exact_mod_cast hc0.ne') (by positivity), Real.log_div hD'.ne' hS'.ne']
    generalize close.getD (w + n - 1) 0 = c at *
    have hc' : (0 : ℝ) < c := by exact_mod_cast hc0
    have hv0 : 0 < s.1 / s.2 := div_pos hs1 hs2
    have hf := f64_pos' hv0
    have hfr : (0 : ℝ) < (f64 (s.1 / s.2) : ℚ) := by exact_mod_cast hf
    have e1 := log_f64 (s.1 / s.2) hv0
    rw [Rat.cast_div, Real.log_div p1.ne' p2.ne'] at e1
    have e3 : Real.log ((c / f64 (s.1 / s.2) : ℚ) : ℝ) = Real.log c - Real.log (f64 (s.1 / s.2) : ℚ) := by
      rw [Rat.cast_div, Real.log_div hc'.ne' hfr.ne']
    have near : |Real.log ((c / f64 (s.1 / s.2) : ℚ) : ℝ) - Real.log (q : ℚ)| ≤ 4 * ε + 1 / 2 ^ 52 := by
      rw [e3, hq]
      obtain ⟨x1, x2⟩ := abs_le.mp b1
      obtain ⟨y1, y2⟩ := abs_le.mp b2
      obtain ⟨z1, z2⟩ := abs_le.mp e1
      rw [abs_le]
      constructor <;> linarith
    have hL : |Real.log ((c / f64 (s.1 / s.2) : ℚ) : ℝ)| ≤ |Real.log (q : ℚ)| + 2 := by
      have := abs_sub_abs_le_abs_sub (Real.log ((c / f64 (s.1 / s.2) : ℚ) : ℝ)) (Real.log (q : ℚ))
      have k : (1 : ℝ) / 2 ^ 52 ≤ 1 := by norm_num
      linarith
    have e2 := ret64_err log64 hlog (c / f64 (s.1 / s.2)) (div_pos hc0 hf) _ hL
    have t := abs_sub_le ((vwapDistLog64 log64 c s : ℚ) : ℝ) (Real.log ((c / f64 (s.1 / s.2) : ℚ) : ℝ)) (Real.log (q : ℚ))
    have e2' : |((vwapDistLog64 log64 c s : ℚ) : ℝ) - Real.log ((c / f64 (s.1 / s.2) : ℚ) : ℝ)| ≤ (|Real.log (q : ℚ)| + 2 + 2) / 2 ^ 52 := e2
    have k : (|Real.log (q : ℚ)| + 2 + 2) / 2 ^ 52 + 1 / 2 ^ 52 = (|Real.log (q : ℚ)| + 5) / 2 ^ 52 := by ring
    linarith

/-- Prices around 100 and volumes around 3 over a window of two bars: `ε = 2^-45` is enough. -/
example :
    let close : List ℚ := [100, 101, 99, 102]
    let volume : List ℚ := [3, 2, 4, 3]
    close.length = volume.length ∧ 2 + 2 ≤ close.length ∧ (∀ c ∈ close, 0 < c ∧ c ≤ 102) ∧ (∀ v ∈ volume, 0 ≤ v ∧ v ≤ 4) ∧
    0 < (window volume 2 3).sum ∧ 0 < (List.zipWith (· * ·) (window close 2 3) (window volume 2 3)).sum ∧
    6 * ((2 + 2 : Nat) : ℚ) * ((2 : Nat) * 4) / 2 ^ 53 ≤ 1 / 2 ^ 45 * (window volume 2 3).sum ∧
    8 * ((2 + 2 : Nat) : ℚ) * ((2 : Nat) * (102 * 4)) / 2 ^ 53 ≤
      1 / 2 ^ 45 * (List.zipWith (· * ·) (window close 2 3) (window volume 2 3)).sum := by
  decide +kernel

/-- **C146.** The first value of a log column is the simple distance, not the logarithm: with the last close at twice the VWAP it is 1,
while `log 2 < 0.7`. -/
theorem C146_vwap_log_first (log64 : ℚ → ℚ) :
    (vwapDistance64 log64 [1, 4] [2, 1] 2 true)[1]? = some (some 1) ∧ ([1, 4].getD 1 0 : ℚ) / ((1 * 2 + 4 * 1) / (2 + 1)) = 2 := by
  have h0 : (vwapDistance64 log64 [1, 4] [2, 1] 2 true)[1]? = some (vwapOut64 log64 [1, 4] [2, 1] 2 true 0) := rfl
  have h1 : vwapOut64 log64 [1, 4] [2, 1] 2 true 0 = vwapOut64 id [1, 4] [2, 1] 2 true 0 := rfl
  rw [h0, h1]
  exact ⟨by decide +kernel, by decide +kernel⟩

/-- C146: before the window is full the distance is missing, and there is one row per bar. -/
theorem C146_vwap_missing (log64 : ℚ → ℚ) (close volume : List ℚ) (w : Nat) (isLog : Bool) :
    (vwapDistance64 log64 close volume w isLog).length = close.length ∧
    ∀ i, i < close.length → i + 1 < w → (vwapDistance64 log64 close volume w isLog)[i]? = some none := by
  unfold vwapDistance64
  refine ⟨by simp, fun i hi h => ?_⟩
  rw [List.getElem?_map, List.getElem?_range hi]
  simp [h]

example : vwapDistance64 id [1, 4, 2] [2, 1, 1] 3 false = [none, none, some 0] := by decide +kernel

end FinML
