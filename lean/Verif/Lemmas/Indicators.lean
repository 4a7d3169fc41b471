/-
Lemmas shared by the indicator proofs.
-/
import Verif.Model.Indicators
import Verif.Spec.Basic
import Mathlib.Data.List.GetD
import Mathlib.Tactic.Linarith
import Mathlib.Tactic.Ring
import Mathlib.Tactic.FieldSimp
import Mathlib.Algebra.Order.Field.Basic
import Mathlib.Algebra.Order.BigOperators.Group.List
import Mathlib.Algebra.BigOperators.Ring.List

set_option linter.unusedSectionVars false

namespace FinML

variable {K : Type} [Field K] [LinearOrder K] [IsStrictOrderedRing K]

theorem length_tabulate {β : Type} (n : Nat) (g : Nat → β) : (tabulate n g).length = n := by simp [tabulate]

theorem tabulate_get? {β : Type} (n : Nat) (g : Nat → β) (i : Nat) : (tabulate n g)[i]? = if i < n then some (g i) else none := by
  unfold tabulate
  rw [List.getElem?_map]
  by_cases h : i < n
  · simp [h]
  · simp [h]

theorem tabulate_getD {β : Type} (n : Nat) (g : Nat → β) (d : β) (i : Nat) (h : i < n) : (tabulate n g).getD i d = g i := by
  rw [List.getD_eq_getElem?_getD, tabulate_get?, if_pos h]; rfl

theorem tabulate_causal {β : Type} (n k : Nat) (g g' : Nat → β) (h : ∀ i, i < k → i < n → g' i = g i) :
    tabulate (min k n) g' = (tabulate n g).take k := by
  apply List.ext_getElem?
  intro i
  rw [tabulate_get?, List.getElem?_take, tabulate_get?]
  by_cases hk : i < k
  · by_cases hn : i < n
    · rw [if_pos (by omega), if_pos hk, if_pos hn, h i hk hn]
    · rw [if_neg (by omega), if_pos hk, if_neg hn]
  · rw [if_neg (by omega), if_neg hk]

theorem tabulate_congr {β : Type} (n : Nat) (g g' : Nat → β) (h : ∀ i, i < n → g' i = g i) : tabulate n g' = tabulate n g := by
  unfold tabulate
  apply List.map_congr_left
  intro i hi
  exact h i (List.mem_range.mp hi)

theorem getD_take_lt {α : Type} (xs : List α) (k i : Nat) (d : α) (h : i < k) : (xs.take k).getD i d = xs.getD i d := by
  rw [List.getD_eq_getElem?_getD, List.getD_eq_getElem?_getD, List.getElem?_take, if_pos h]

theorem window_take {α : Type} (xs : List α) (w i k : Nat) (h : i < k) (hw : w ≤ i + 1) :
    window (xs.take k) w i = window xs w i := by
  unfold window
  rw [List.drop_take, List.take_take, Nat.min_eq_left (by omega)]

theorem window_length {α : Type} (xs : List α) (w i : Nat) (hi : i < xs.length) (hw : w ≤ i + 1) :
    (window xs w i).length = w := by
  unfold window
  rw [List.length_take, List.length_drop]; omega

theorem window_get? {α : Type} (xs : List α) (w i j : Nat) (hj : j < w) :
    (window xs w i)[j]? = xs[i + 1 - w + j]? := by
  unfold window
  rw [List.getElem?_take, if_pos hj, List.getElem?_drop]

/-- Membership in a window by position. -/
theorem mem_window {α : Type} (xs : List α) (d : α) (w i : Nat) (hi : i < xs.length) (hw : w ≤ i + 1) (x : α) :
    x ∈ window xs w i ↔ ∃ j, i + 1 - w ≤ j ∧ j ≤ i ∧ xs.getD j d = x := by
  constructor
  · intro h
    obtain ⟨j, hj, rfl⟩ := List.getElem_of_mem h
    have hl := window_length xs w i hi hw
    refine ⟨i + 1 - w + j, by omega, by omega, ?_⟩
    have := window_get? xs w i j (by omega)
    rw [List.getD_eq_getElem?_getD, ← this, List.getElem?_eq_getElem hj]; rfl
  · rintro ⟨j, h1, h2, rfl⟩
    have := window_get? xs w i (j - (i + 1 - w)) (by omega)
    rw [show i + 1 - w + (j - (i + 1 - w)) = j by omega, List.getElem?_eq_getElem (by omega : j < xs.length)] at this
    rw [List.getD_eq_getElem xs d (by omega : j < xs.length)]
    exact List.mem_of_getElem? this

theorem window_getLastD {α : Type} (xs : List α) (d : α) (w i : Nat) (hi : i < xs.length) (hw : w ≤ i + 1) (h0 : 0 < w) :
    (window xs w i).getLastD d = xs.getD i d := by
  have hl := window_length xs w i hi hw
  rw [List.getLastD_eq_getLast?, List.getLast?_eq_getElem?, hl, window_get? _ _ _ _ (by omega),
    List.getD_eq_getElem?_getD]
  congr 2
  omega

theorem window_eq_map {α : Type} (xs : List α) (d : α) (w i : Nat) (hi : i < xs.length) (hw : w ≤ i + 1) :
    window xs w i = (List.range' (i + 1 - w) w).map (fun j => xs.getD j d) := by
  apply List.ext_getElem?
  intro j
  by_cases hj : j < w
  · rw [window_get? _ _ _ _ hj, List.getElem?_map, List.getElem?_range' hj,
      List.getElem?_eq_getElem (by omega : i + 1 - w + j < xs.length)]
    simp only [Option.map_some, Nat.one_mul]
    rw [List.getD_eq_getElem _ _ (by omega : i + 1 - w + j < xs.length)]
  · rw [List.getElem?_eq_none (by rw [window_length _ _ _ hi hw]; omega),
      List.getElem?_eq_none (by simp; omega)]

theorem rangeSum_window (xs : List K) (w i : Nat) (hw : w ≤ i + 1) :
    (window xs w i).sum = rangeSum xs (i + 1 - w) (i + 1) := by
  unfold window rangeSum
  rw [show i + 1 - (i + 1 - w) = w by omega]

/-- Rolling output by position. -/
theorem rolling_get? {α β : Type} (xs : List α) (w : Nat) (f : List α → Option β) (i : Nat) (hi : i < xs.length) :
    (rolling xs w f)[i]? = some (if i + 1 < w then none else f (window xs w i)) := by
  unfold rolling; rw [tabulate_get?, if_pos hi]

theorem rolling_causal {α β : Type} (xs : List α) (w k : Nat) (f : List α → Option β) :
    rolling (xs.take k) w f = (rolling xs w f).take k := by
  unfold rolling
  rw [List.length_take]
  apply tabulate_causal
  intro i hk hn
  by_cases h : i + 1 < w
  · simp [h]
  · rw [if_neg h, if_neg h, window_take _ _ _ _ hk (by omega)]

/-! ## Sums over ranges -/

theorem cumAt_eq_sum (f : Nat → K) (n : Nat) : cumAt f n = ((List.range n).map f).sum := by
  induction n with
  | zero => rfl
  | succ n ih => rw [cumAt, ih, List.range_succ, List.map_append, List.sum_append]; simp

theorem cumAt_congr {A : Type} [Zero A] [Add A] (f g : Nat → A) (n : Nat) (h : ∀ i, i < n → f i = g i) : cumAt f n = cumAt g n := by
  induction n with
  | zero => rfl
  | succ n ih => rw [cumAt, cumAt, ih (fun i hi => h i (by omega)), h n (by omega)]

theorem cumAt_sub (f : Nat → K) (a m : Nat) : cumAt f (a + m) - cumAt f a = ((List.range' a m).map f).sum := by
  induction m with
  | zero => simp
  | succ m ih =>
    rw [← Nat.add_assoc, cumAt, List.range'_concat, List.map_append, List.sum_append, ← ih]
    simp; ring

theorem cumAt_sub_nat (f : Nat → Nat) (a m : Nat) : cumAt f (a + m) = cumAt f a + ((List.range' a m).map f).sum := by
  induction m with
  | zero => simp
  | succ m ih =>
    rw [← Nat.add_assoc, cumAt, List.range'_concat, List.map_append, List.sum_append, ih]
    simp; omega

theorem rollSumState_eq (x : Nat → K) (np m : Nat) : rollSumState x np m = ((List.range' m np).map x).sum := by
  have key : ∀ m, rollSumState x np m = cumAt x (m + np) - cumAt x m := by
    intro m
    induction m with
    | zero => rw [rollSumState, Nat.zero_add, cumAt_eq_sum]; simp [cumAt]
    | succ m ih =>
      rw [rollSumState, ih, Nat.add_right_comm m 1 np, cumAt, cumAt, Nat.add_comm np m]; ring
  rw [key, cumAt_sub]

theorem rollSumState_congr (x y : Nat → K) (np m : Nat) (h : ∀ i, i < m + np → x i = y i) :
    rollSumState x np m = rollSumState y np m := by
  rw [rollSumState_eq, rollSumState_eq]
  congr 1
  apply List.map_congr_left
  intro i hi
  rw [List.mem_range'_1] at hi
  exact h i (by omega)

theorem sum_map_le {α : Type} (l : List α) (f g : α → K) (h : ∀ a ∈ l, f a ≤ g a) : (l.map f).sum ≤ (l.map g).sum := by
  induction l with
  | nil => simp
  | cons a t ih =>
    simp only [List.map_cons, List.sum_cons]
    have := ih (fun b hb => h b (List.mem_cons_of_mem _ hb))
    have := h a List.mem_cons_self
    linarith

theorem sum_map_nonneg {α : Type} (l : List α) (f : α → K) (h : ∀ a ∈ l, 0 ≤ f a) : 0 ≤ (l.map f).sum := by
  have := sum_map_le l (fun _ => 0) f h
  simpa using this

/-! ## Extremes -/

theorem foldl_min_iff (l : List K) (a : K) : (∀ x ∈ l, l.foldl min a ≤ x) ∧ l.foldl min a ≤ a ∧ (l.foldl min a = a ∨ l.foldl min a ∈ l) := by
  induction l generalizing a with
  | nil => simp
  | cons b t ih =>
    obtain ⟨h1, h2, h3⟩ := ih (min a b)
    refine ⟨?_, le_trans h2 (min_le_left _ _), ?_⟩
    · intro x hx
      rcases List.mem_cons.mp hx with rfl | hx
      · exact le_trans h2 (min_le_right _ _)
      · exact h1 x hx
    · simp only [List.foldl_cons]
      rcases h3 with h3 | h3
      · rw [h3]
        rcases min_choice a b with h | h
        · left; exact h
        · right; rw [h]; exact List.mem_cons_self
      · right; exact List.mem_cons_of_mem _ h3

theorem foldl_max_iff (l : List K) (a : K) : (∀ x ∈ l, x ≤ l.foldl max a) ∧ a ≤ l.foldl max a ∧ (l.foldl max a = a ∨ l.foldl max a ∈ l) := by
  induction l generalizing a with
  | nil => simp
  | cons b t ih =>
    obtain ⟨h1, h2, h3⟩ := ih (max a b)
    refine ⟨?_, le_trans (le_max_left _ _) h2, ?_⟩
    · intro x hx
      rcases List.mem_cons.mp hx with rfl | hx
      · exact le_trans (le_max_right _ _) h2
      · exact h1 x hx
    · simp only [List.foldl_cons]
      rcases h3 with h3 | h3
      · rw [h3]
        rcases max_choice a b with h | h
        · left; exact h
        · right; rw [h]; exact List.mem_cons_self
      · right; exact List.mem_cons_of_mem _ h3

theorem npMin_spec (l : List K) (h : l ≠ []) : npMin l ∈ l ∧ ∀ x ∈ l, npMin l ≤ x := by
  cases l with
  | nil => exact absurd rfl h
  | cons a t =>
    obtain ⟨h1, h2, h3⟩ := foldl_min_iff t a
    constructor
    · rcases h3 with h3 | h3
      · show t.foldl min a ∈ a :: t
        rw [h3]; exact List.mem_cons_self
      · exact List.mem_cons_of_mem _ h3
    · intro x hx
      rcases List.mem_cons.mp hx with rfl | hx
      · exact h2
      · exact h1 x hx

theorem npMax_spec (l : List K) (h : l ≠ []) : npMax l ∈ l ∧ ∀ x ∈ l, x ≤ npMax l := by
  cases l with
  | nil => exact absurd rfl h
  | cons a t =>
    obtain ⟨h1, h2, h3⟩ := foldl_max_iff t a
    constructor
    · rcases h3 with h3 | h3
      · show t.foldl max a ∈ a :: t
        rw [h3]; exact List.mem_cons_self
      · exact List.mem_cons_of_mem _ h3
    · intro x hx
      rcases List.mem_cons.mp hx with rfl | hx
      · exact h2
      · exact h1 x hx

end FinML
