/-
C32: the exponentially weighted moving average (`finmlkit/feature/core/ma.py` `ewma`), and the closed form of Wilder
smoothing used by RSI and ADX.
-/
import Verif.Lemmas.Indicators

set_option linter.unusedSectionVars false

namespace FinML

variable {K : Type} [Field K] [LinearOrder K] [IsStrictOrderedRing K]

/-- `x(t) + q x(t-1) + … + q^t x(0)`. -/
def discounted (q : K) (x : Nat → K) (t : Nat) : K := ((List.range (t + 1)).map (fun k => q ^ k * x (t - k))).sum

theorem discounted_zero (q : K) (x : Nat → K) : discounted q x 0 = x 0 := by simp [discounted]

theorem discounted_succ (q : K) (x : Nat → K) (t : Nat) : discounted q x (t + 1) = x (t + 1) + q * discounted q x t := by
  unfold discounted
  rw [List.range_succ_eq_map, List.map_cons, List.sum_cons, List.map_map, ← List.sum_map_mul_left]
  congr 1
  · simp
  · congr 1
    apply List.map_congr_left
    intro k hk
    simp only [Function.comp_apply, Nat.succ_eq_add_one]
    rw [show t + 1 - (k + 1) = t - k by omega]
    ring

theorem discounted_mono (q : K) (hq : 0 ≤ q) (x y : Nat → K) (t : Nat) (h : ∀ i, i ≤ t → x i ≤ y i) :
    discounted q x t ≤ discounted q y t := by
  unfold discounted
  apply sum_map_le
  intro k hk
  exact mul_le_mul_of_nonneg_left (h _ (by omega)) (pow_nonneg hq k)

theorem discounted_const (q c : K) (t : Nat) : discounted q (fun _ => c) t = c * discounted q (fun _ => 1) t := by
  unfold discounted
  rw [← List.sum_map_mul_left]
  congr 1
  apply List.map_congr_left
  intro k _
  ring

theorem discounted_one_pos (q : K) (hq : 0 ≤ q) (t : Nat) : 0 < discounted q (fun _ => (1 : K)) t := by
  induction t with
  | zero => simp [discounted]
  | succ t ih =>
    rw [discounted_succ]
    have := mul_nonneg hq ih.le
    linarith

theorem ewmaState_eq (y : List K) (q : K) (t : Nat) :
    ewmaState y q t = (discounted q (fun i => y.getD i 0) t, discounted q (fun _ => 1) t) := by
  induction t with
  | zero => rw [ewmaState, discounted_zero, discounted_zero]
  | succ t ih => rw [ewmaState, ih, discounted_succ, discounted_succ]

/-- **C32.**  For every series and span at least 1, output `t` is `Σ (1-a)^k y[t-k] / Σ (1-a)^k` over the whole history, with
`a = 2/(span+1)`. -/
theorem C32_ewma_closed_form (y : List K) (span : Nat) (h : 1 ≤ span) :
    ∃ out, ewma y span = .ok out ∧ out.length = y.length ∧
      ∀ t, t < y.length → out[t]? = some
        (((List.range (t + 1)).map (fun k => (1 - 2 / ((span : K) + 1)) ^ k * y.getD (t - k) 0)).sum /
          ((List.range (t + 1)).map (fun k => (1 - 2 / ((span : K) + 1)) ^ k)).sum) := by
  refine ⟨_, by unfold ewma; rw [if_neg (by omega)], length_tabulate _ _, ?_⟩
  intro t ht
  rw [tabulate_get?, if_pos ht, ewmaState_eq]
  simp only [discounted, mul_one]

example : ewma [1, 2, 4] 3 = .ok [1, (5 : ℚ) / 3, 3] := by decide +kernel

/-- **C32.**  A span below 1 is rejected. -/
theorem C32_ewma_bad_span (y : List K) : ∃ e, ewma y 0 = .error e := ⟨_, rfl⟩

/-- **C32.**  Every output lies between any bounds of the history up to that point. -/
theorem C32_ewma_within_history (y : List K) (span : Nat) (out : List K) (h : ewma y span = .ok out) (t : Nat) (ht : t < y.length)
    (lo hi : K) (hlo : ∀ j, j ≤ t → lo ≤ y.getD j 0) (hhi : ∀ j, j ≤ t → y.getD j 0 ≤ hi) :
    lo ≤ out.getD t 0 ∧ out.getD t 0 ≤ hi := by
  unfold ewma at h
  split at h
  · cases h
  rename_i hs
  injection h with h
  subst h
  rw [tabulate_getD _ _ _ _ ht, ewmaState_eq]
  have hspan : (1 : K) ≤ (span : K) := by exact_mod_cast (by omega : 1 ≤ span)
  have hq : (0 : K) ≤ 1 - 2 / ((span : K) + 1) := by
    rw [sub_nonneg, div_le_one (by linarith)]; linarith
  have hp := discounted_one_pos (1 - 2 / ((span : K) + 1)) hq t
  constructor
  · rw [le_div_iff₀ hp, ← discounted_const]
    exact discounted_mono _ hq _ _ _ (fun i hi => hlo i hi)
  · rw [div_le_iff₀ hp, ← discounted_const]
    exact discounted_mono _ hq _ _ _ (fun i hi => hhi i hi)

example : (1 : ℚ) ≤ ([1, (5 : ℚ) / 3, 3] : List ℚ).getD 2 0 ∧ ([1, (5 : ℚ) / 3, 3] : List ℚ).getD 2 0 ≤ 4 := by decide +kernel

theorem ewmaState_take (y : List K) (q : K) (k t : Nat) (h : t < k) : ewmaState (y.take k) q t = ewmaState y q t := by
  rw [ewmaState_eq, ewmaState_eq]
  congr 1
  unfold discounted
  congr 1
  apply List.map_congr_left
  intro j hj
  simp only []
  rw [getD_take_lt _ _ _ _ (by omega)]

/-- **C32.**  Later data do not change earlier outputs. -/
theorem C32_ewma_causal (y : List K) (span k : Nat) (out : List K) (h : ewma y span = .ok out) :
    ewma (y.take k) span = .ok (out.take k) := by
  unfold ewma at h ⊢
  split at h
  · cases h
  rename_i hs
  injection h with h
  subst h
  rw [if_neg hs, List.length_take]
  show Except.ok _ = Except.ok _
  congr 1
  apply tabulate_causal
  intro i hk _
  rw [ewmaState_take _ _ _ _ hk]

example : ewma (([1, 2, 4] : List ℚ).take 2) 3 = .ok (([1, 5 / 3, 3] : List ℚ).take 2) := by decide +kernel

/-! ## Wilder smoothing -/

/-- Wilder averaging in closed form: the initial mean decays geometrically and each later value enters with weight `q^age / w`,
`q = (w-1)/w`. -/
theorem wilderAvg_closed_form (x : Nat → K) (w m : Nat) (hw : 1 ≤ w) :
    wilderAvg x w m = (((w : K) - 1) / (w : K)) ^ m * (((List.range' 1 w).map x).sum / (w : K)) +
      ((List.range m).map (fun k => (((w : K) - 1) / (w : K)) ^ k * x (w + m - k))).sum / (w : K) := by
  have hw0 : (w : K) ≠ 0 := by exact_mod_cast (by omega : w ≠ 0)
  induction m with
  | zero => simp [wilderAvg]
  | succ m ih =>
    rw [wilderAvg, ih, List.range_succ_eq_map, List.map_cons, List.sum_cons, List.map_map]
    have hsum : ((List.range m).map ((fun k => (((w : K) - 1) / (w : K)) ^ k * x (w + (m + 1) - k)) ∘ Nat.succ)).sum
        = (((w : K) - 1) / (w : K)) * ((List.range m).map (fun k => (((w : K) - 1) / (w : K)) ^ k * x (w + m - k))).sum := by
      rw [← List.sum_map_mul_left]
      congr 1
      apply List.map_congr_left
      intro k _
      simp only [Function.comp_apply, Nat.succ_eq_add_one]
      rw [show w + (m + 1) - (k + 1) = w + m - k by omega]
      ring
    rw [hsum]
    simp only [pow_zero, one_mul, Nat.sub_zero]
    generalize ((List.range m).map (fun k => (((w : K) - 1) / (w : K)) ^ k * x (w + m - k))).sum = S
    generalize ((List.range' 1 w).map x).sum = T
    generalize hQ : (((w : K) - 1) / (w : K)) ^ m = Q
    rw [pow_succ, hQ]
    field_simp
    ring

/-- Wilder sums in closed form. -/
theorem wilderSum_closed_form (x : Nat → K) (len m : Nat) :
    wilderSum x len m = (1 - 1 / (len : K)) ^ m * ((List.range' 1 len).map x).sum +
      ((List.range m).map (fun k => (1 - 1 / (len : K)) ^ k * x (len + m - k))).sum := by
  induction m with
  | zero => simp [wilderSum]
  | succ m ih =>
    rw [wilderSum, ih, List.range_succ_eq_map, List.map_cons, List.sum_cons, List.map_map]
    have hsum : ((List.range m).map ((fun k => (1 - 1 / (len : K)) ^ k * x (len + (m + 1) - k)) ∘ Nat.succ)).sum
        = (1 - 1 / (len : K)) * ((List.range m).map (fun k => (1 - 1 / (len : K)) ^ k * x (len + m - k))).sum := by
      rw [← List.sum_map_mul_left]
      congr 1
      apply List.map_congr_left
      intro k _
      simp only [Function.comp_apply, Nat.succ_eq_add_one]
      rw [show len + (m + 1) - (k + 1) = len + m - k by omega]
      ring
    rw [hsum]
    simp only [pow_zero, one_mul, Nat.sub_zero]
    ring

end FinML
