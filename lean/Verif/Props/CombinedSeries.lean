/-
C172: moving averages and rolling variances of combined series.  `finmlkit/feature/core/ma.py`,
`finmlkit/feature/core/volatility.py:rolling_variance_nb`.  Two series of the same length are a list of pairs.
-/
import Verif.Props.Ewma
import Verif.Props.Variance

set_option linter.unusedSectionVars false

namespace FinML

variable {K : Type} [Field K] [LinearOrder K] [IsStrictOrderedRing K]

theorem window_map_fn {α β : Type} (f : α → β) (xs : List α) (w i : Nat) : window (xs.map f) w i = (window xs w i).map f := by
  unfold window
  rw [List.map_take, List.map_drop]

theorem sum_map_combine (a b : K) (l : List (K × K)) :
    (l.map (fun p => a * p.1 + b * p.2)).sum = a * (l.map Prod.fst).sum + b * (l.map Prod.snd).sum := by
  induction l with
  | nil => simp
  | cons p l ih => simp only [List.map_cons, List.sum_cons, ih]; ring

/-- **C172 (moving average).** The moving average of `a·x + b·y` is the same combination of the moving averages. -/
theorem C172_sma (z : List (K × K)) (a b : K) (w i : Nat) (r s : K) (h1 : (sma (z.map Prod.fst) w)[i]? = some (some r))
    (h2 : (sma (z.map Prod.snd) w)[i]? = some (some s)) :
    (sma (z.map (fun p => a * p.1 + b * p.2)) w)[i]? = some (some (a * r + b * s)) := by
  have hi : i < z.length := by
    by_contra hc
    rw [List.getElem?_eq_none (by unfold sma rolling; rw [length_tabulate, List.length_map]; omega)] at h1
    cases h1
  unfold sma at h1 h2 ⊢
  rw [rolling_get? _ _ _ _ (by rw [List.length_map]; exact hi), window_map_fn] at h1 h2 ⊢
  by_cases hw : i + 1 < w
  · rw [if_pos hw] at h1; cases h1
  rw [if_neg hw, Option.some.injEq, Option.some.injEq] at h1 h2 ⊢
  rw [sum_map_combine, ← h1, ← h2]
  ring

theorem ewma_discounted (y : List K) (span : Nat) (out : List K) (h : ewma y span = .ok out) :
    1 ≤ span ∧ out.length = y.length ∧ ∀ t, t < y.length → out[t]? = some (discounted (1 - 2 / ((span : K) + 1)) (fun i => y.getD i 0) t /
      discounted (1 - 2 / ((span : K) + 1)) (fun _ => 1) t) := by
  unfold ewma at h
  split at h
  · cases h
  rename_i hs
  injection h with h
  subst h
  refine ⟨by omega, length_tabulate _ _, ?_⟩
  intro t ht
  rw [tabulate_get?, if_pos ht, ewmaState_eq]

theorem getD_map_pair (z : List (K × K)) (f : K × K → K) (k : Nat) (hk : k < z.length) : (z.map f).getD k 0 = f (z.getD k (0, 0)) := by
  rw [List.getD_eq_getElem _ _ (by rw [List.length_map]; exact hk), List.getElem_map, List.getD_eq_getElem _ _ hk]

theorem discounted_combine (q a b : K) (x y : Nat → K) (t : Nat) :
    discounted q (fun i => a * x i + b * y i) t = a * discounted q x t + b * discounted q y t := by
  induction t with
  | zero => simp only [discounted_zero]
  | succ t ih => rw [discounted_succ, discounted_succ, discounted_succ, ih]; ring

theorem discounted_congr_le (q : K) (x y : Nat → K) (t : Nat) (h : ∀ i, i ≤ t → x i = y i) : discounted q x t = discounted q y t := by
  induction t with
  | zero => rw [discounted_zero, discounted_zero, h 0 (le_refl 0)]
  | succ t ih => rw [discounted_succ, discounted_succ, ih (fun i hi => h i (by omega)), h (t + 1) (le_refl _)]

/-- **C172 (exponential average).** The exponentially weighted average of `a·x + b·y` is the same combination of the two
averages. -/
theorem C172_ewma (z : List (K × K)) (a b : K) (span : Nat) (u v : List K) (h1 : ewma (z.map Prod.fst) span = .ok u)
    (h2 : ewma (z.map Prod.snd) span = .ok v) :
    ∃ out, ewma (z.map (fun p => a * p.1 + b * p.2)) span = .ok out ∧
      ∀ t, t < z.length → ∃ r s, u[t]? = some r ∧ v[t]? = some s ∧ out[t]? = some (a * r + b * s) := by
  obtain ⟨hs, -, e1⟩ := ewma_discounted _ _ _ h1
  obtain ⟨-, -, e2⟩ := ewma_discounted _ _ _ h2
  obtain ⟨out, h3, -, -⟩ := C32_ewma_closed_form (z.map (fun p => a * p.1 + b * p.2)) span hs
  obtain ⟨-, -, e3⟩ := ewma_discounted _ _ _ h3
  refine ⟨out, h3, ?_⟩
  intro t ht
  refine ⟨_, _, e1 t (by rw [List.length_map]; exact ht), e2 t (by rw [List.length_map]; exact ht), ?_⟩
  rw [e3 t (by rw [List.length_map]; exact ht), Option.some.injEq,
    discounted_congr_le _ (fun i => (z.map (fun p => a * p.1 + b * p.2)).getD i 0)
      (fun i => a * (z.map Prod.fst).getD i 0 + b * (z.map Prod.snd).getD i 0) t ?_, discounted_combine]
  · ring
  · intro i hi
    rw [getD_map_pair _ _ _ (by omega), getD_map_pair _ _ _ (by omega), getD_map_pair _ _ _ (by omega)]

/-- **C172 (order).** If one series is nowhere above the other, its moving average and its exponential average are nowhere
above those of the other. -/
theorem C172_order (z : List (K × K)) (hz : ∀ p ∈ z, p.1 ≤ p.2) :
    (∀ (w i : Nat) (r s : K), (sma (z.map Prod.fst) w)[i]? = some (some r) → (sma (z.map Prod.snd) w)[i]? = some (some s) → r ≤ s) ∧
    (∀ (span : Nat) (u v : List K), ewma (z.map Prod.fst) span = .ok u → ewma (z.map Prod.snd) span = .ok v →
      ∀ (t : Nat) (r s : K), u[t]? = some r → v[t]? = some s → r ≤ s) := by
  constructor
  · intro w i r s h1 h2
    have hi : i < z.length := by
      by_contra hc
      rw [List.getElem?_eq_none (by unfold sma rolling; rw [length_tabulate, List.length_map]; omega)] at h1
      cases h1
    unfold sma at h1 h2
    rw [rolling_get? _ _ _ _ (by rw [List.length_map]; exact hi), window_map_fn] at h1 h2
    by_cases hw : i + 1 < w
    · rw [if_pos hw] at h1; cases h1
    rw [if_neg hw, Option.some.injEq, Option.some.injEq] at h1 h2
    rw [← h1, ← h2]
    refine mul_le_mul_of_nonneg_left (List.sum_le_sum ?_) (by positivity)
    intro p hp
    unfold window at hp
    exact hz p (List.mem_of_mem_drop (List.mem_of_mem_take hp))
  · intro span u v h1 h2 t r s hr hs
    obtain ⟨hsp, l1, e1⟩ := ewma_discounted _ _ _ h1
    obtain ⟨-, -, e2⟩ := ewma_discounted _ _ _ h2
    rw [List.length_map] at l1
    have ht : t < z.length := by
      by_contra hc
      rw [List.getElem?_eq_none (by omega)] at hr
      cases hr
    rw [e1 t (by rw [List.length_map]; exact ht), Option.some.injEq] at hr
    rw [e2 t (by rw [List.length_map]; exact ht), Option.some.injEq] at hs
    have hq : (0 : K) ≤ 1 - 2 / ((span : K) + 1) := by
      have h1 : (1 : K) ≤ (span : K) := by exact_mod_cast hsp
      rw [sub_nonneg, div_le_one (by linarith)]
      linarith
    rw [← hr, ← hs]
    refine div_le_div_of_nonneg_right (discounted_mono _ hq _ _ t ?_) (discounted_one_pos _ hq t).le
    intro i hi
    rw [getD_map_pair _ _ _ (by omega), getD_map_pair _ _ _ (by omega), List.getD_eq_getElem _ _ (by omega)]
    exact hz _ (List.getElem_mem _)

example : sma ([((1 : ℚ), (2 : ℚ)), (3, 5), (5, 8)].map Prod.fst) 2 = [none, some 2, some 4] ∧
    sma ([((1 : ℚ), (2 : ℚ)), (3, 5), (5, 8)].map Prod.snd) 2 = [none, some (7 / 2), some (13 / 2)] ∧
    sma ([((1 : ℚ), (2 : ℚ)), (3, 5), (5, 8)].map (fun p => 2 * p.1 + -1 * p.2)) 2 = [none, some (1 / 2), some (3 / 2)] ∧
    ewma ([((1 : ℚ), (2 : ℚ)), (3, 5), (5, 8)].map Prod.fst) 3 = .ok [1, 7 / 3, 27 / 7] ∧
    ewma ([((1 : ℚ), (2 : ℚ)), (3, 5), (5, 8)].map Prod.snd) 3 = .ok [2, 4, 44 / 7] ∧
    ewma ([((1 : ℚ), (2 : ℚ)), (3, 5), (5, 8)].map (fun p => 2 * p.1 + -1 * p.2)) 3 = .ok [0, 2 / 3, 10 / 7] ∧
    (∀ p ∈ [((1 : ℚ), (2 : ℚ)), (3, 5), (5, 8)], p.1 ≤ p.2) := by decide +kernel

theorem sq_dev_pairs (l : List (K × K)) (c d : K) :
    (l.map (fun p => (p.1 + p.2 - (c + d)) ^ 2)).sum + (l.map (fun p => (p.1 - p.2 - (c - d)) ^ 2)).sum =
      2 * (l.map (fun p => (p.1 - c) ^ 2)).sum + 2 * (l.map (fun p => (p.2 - d) ^ 2)).sum := by
  induction l with
  | nil => simp
  | cons p l ih =>
    simp only [List.map_cons, List.sum_cons]
    rw [add_add_add_comm, ih]
    ring

theorem twoPassVar_pairs (ddof : Nat) (l : List (K × K)) :
    twoPassVar ddof (l.map (fun p => p.1 + p.2)) + twoPassVar ddof (l.map (fun p => p.1 - p.2)) =
      2 * twoPassVar ddof (l.map Prod.fst) + 2 * twoPassVar ddof (l.map Prod.snd) := by
  have e1 : (l.map (fun p => p.1 + p.2)).sum = (l.map Prod.fst).sum + (l.map Prod.snd).sum := by
    have := sum_map_combine 1 1 l
    simpa only [one_mul] using this
  have e2 : (l.map (fun p => p.1 - p.2)).sum = (l.map Prod.fst).sum - (l.map Prod.snd).sum := by
    have := sum_map_combine 1 (-1) l
    simpa only [one_mul, neg_mul, ← sub_eq_add_neg] using this
  have key := sq_dev_pairs l ((l.map Prod.fst).sum / (l.length : K)) ((l.map Prod.snd).sum / (l.length : K))
  unfold twoPassVar
  simp only [List.map_map, Function.comp_def, List.length_map, e1, e2, add_div, sub_div] at key ⊢
  rw [← add_div, key]
  ring

theorem filterMap_map_option {α β : Type} (z : List (Option α)) (f : α → β) : (z.map (Option.map f)).filterMap id = (z.filterMap id).map f := by
  induction z with
  | nil => rfl
  | cons o z ih =>
    cases o with
    | none => simpa using ih
    | some p => simpa using ih

/-- **C172 (rolling variance).** For two series with missing values at the same places, the variances of their sum and of
their difference add up to twice the two variances. -/
theorem C172_variance (z : List (Option (K × K))) (w ddof mp i : Nat) (r s : K)
    (h1 : (rollingVariance (z.map (Option.map Prod.fst)) w ddof mp)[i]? = some (some r))
    (h2 : (rollingVariance (z.map (Option.map Prod.snd)) w ddof mp)[i]? = some (some s)) :
    ∃ p m, (rollingVariance (z.map (Option.map (fun q => q.1 + q.2))) w ddof mp)[i]? = some (some p) ∧
      (rollingVariance (z.map (Option.map (fun q => q.1 - q.2))) w ddof mp)[i]? = some (some m) ∧ p + m = 2 * r + 2 * s := by
  have hi : i < z.length := by
    by_contra hc
    rw [List.getElem?_eq_none (by unfold rollingVariance rolling; rw [length_tabulate, List.length_map]; omega)] at h1
    cases h1
  have win : ∀ f : K × K → K, (rollingVariance (z.map (Option.map f)) w ddof mp)[i]? = some (
      if w ≤ i + 1 ∧ mp ≤ (((z.drop (i + 1 - w)).take w).filterMap id).length ∧ ddof < (((z.drop (i + 1 - w)).take w).filterMap id).length
      then some (twoPassVar ddof ((((z.drop (i + 1 - w)).take w).filterMap id).map f)) else none) := by
    intro f
    rw [C38_rolling_variance_exact _ _ _ _ _ (by rw [List.length_map]; exact hi)]
    simp only [← List.map_drop, ← List.map_take, filterMap_map_option, List.length_map]
  rw [win] at h1 h2
  by_cases hc : w ≤ i + 1 ∧ mp ≤ (((z.drop (i + 1 - w)).take w).filterMap id).length ∧ ddof < (((z.drop (i + 1 - w)).take w).filterMap id).length
  swap
  · rw [if_neg hc] at h1; cases h1
  rw [if_pos hc, Option.some.injEq, Option.some.injEq] at h1 h2
  refine ⟨_, _, by rw [win, if_pos hc], by rw [win, if_pos hc], ?_⟩
  rw [twoPassVar_pairs, h1, h2]

example : rollingVariance ([some ((1 : ℚ), (2 : ℚ)), none, some (3, 8)].map (Option.map Prod.fst)) 3 1 1 = [none, none, some 2] ∧
    rollingVariance ([some ((1 : ℚ), (2 : ℚ)), none, some (3, 8)].map (Option.map Prod.snd)) 3 1 1 = [none, none, some 18] ∧
    rollingVariance ([some ((1 : ℚ), (2 : ℚ)), none, some (3, 8)].map (Option.map (fun q => q.1 + q.2))) 3 1 1 = [none, none, some 32] ∧
    rollingVariance ([some ((1 : ℚ), (2 : ℚ)), none, some (3, 8)].map (Option.map (fun q => q.1 - q.2))) 3 1 1 = [none, none, some 8] := by
  decide +kernel

end FinML
