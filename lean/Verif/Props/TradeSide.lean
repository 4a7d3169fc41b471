/-
C16 (tick rule).  `finmlkit/bar/utils.py:comp_trade_side_vector`.
-/
import Verif.Model.Trades

set_option linter.unusedSectionVars false

namespace FinML

variable {K : Type} [Field K] [LinearOrder K] [IsStrictOrderedRing K]

/-! ## Specification -/

/-- The price moved by more than `eps` at trade `k` (relative to the trade before it). -/
def SignificantMove (eps : K) (prices : List K) (k : Nat) : Prop :=
  1 ≤ k ∧ |prices.getD k 0 - prices.getD (k - 1) 0| > eps

/-- `s` is the direction of the most recent significant price move at or before trade `i`; 0 if there is none. -/
def LatestDirection (eps : K) (prices : List K) (i : Nat) (s : Int) : Prop :=
  (s = 0 ∧ ∀ k, k ≤ i → ¬ SignificantMove eps prices k) ∨
  ∃ k, k ≤ i ∧ SignificantMove eps prices k ∧ (∀ k', k < k' → k' ≤ i → ¬ SignificantMove eps prices k') ∧
    ((s = 1 ∧ prices.getD (k - 1) 0 < prices.getD k 0) ∨ (s = -1 ∧ prices.getD k 0 < prices.getD (k - 1) 0))

/-! ## Theorem -/

theorem tradeSide_step (eps : K) (he : 0 ≤ eps) (prices : List K) (i : Nat) (tick : Int)
    (h : LatestDirection eps prices i tick) :
    LatestDirection eps prices (i + 1) (tradeSide eps (prices.getD (i + 1) 0) (prices.getD i 0) tick) := by
  unfold tradeSide
  simp only
  by_cases hs : |prices.getD (i + 1) 0 - prices.getD i 0| > eps
  · rw [if_pos hs]
    right
    refine ⟨i + 1, le_refl _, ⟨by omega, by simpa using hs⟩, fun k' h1 h2 => by omega, ?_⟩
    unfold signK
    have hne : prices.getD (i + 1) 0 - prices.getD i 0 ≠ 0 := by
      intro h0; rw [h0, abs_zero] at hs; exact absurd he (not_le.mpr hs)
    rcases lt_or_gt_of_ne hne with hlt | hgt
    · rw [if_neg (not_lt.mpr (le_of_lt hlt)), if_pos hlt]
      right
      exact ⟨rfl, by simpa using sub_neg.mp hlt⟩
    · rw [if_pos hgt]
      left
      exact ⟨rfl, by simpa using sub_pos.mp hgt⟩
  · rw [if_neg hs]
    have hno : ¬ SignificantMove eps prices (i + 1) := by
      rintro ⟨_, h2⟩; exact hs (by simpa using h2)
    rcases h with ⟨h1, h2⟩ | ⟨k, h1, h2, h3, h4⟩
    · left
      refine ⟨h1, ?_⟩
      intro k hk
      rcases Nat.lt_or_ge i k with h | h
      · have : k = i + 1 := by omega
        subst this; exact hno
      · exact h2 k h
    · right
      refine ⟨k, by omega, h2, ?_, h4⟩
      intro k' hk hk'
      rcases Nat.lt_or_ge i k' with h | h
      · have : k' = i + 1 := by omega
        subst this; exact hno
      · exact h3 k' hk h

theorem tradeSideLoop_spec (eps : K) (he : 0 ≤ eps) (full : List K) (ps pre : List K) (prev : K) (tick : Int)
    (hfull : full = pre ++ prev :: ps) (h : LatestDirection eps full pre.length tick) :
    (tradeSideLoop eps prev tick ps).length = ps.length ∧
    ∀ j s, (tradeSideLoop eps prev tick ps)[j]? = some s → LatestDirection eps full (pre.length + 1 + j) s := by
  induction ps generalizing pre prev tick with
  | nil => simp [tradeSideLoop]
  | cons p ps ih =>
    have hp : full.getD (pre.length + 1) 0 = p := by
      rw [hfull]; simp [List.getD_eq_getElem?_getD]
    have hprev : full.getD pre.length 0 = prev := by
      rw [hfull]; simp [List.getD_eq_getElem?_getD]
    have hstep := tradeSide_step eps he full pre.length tick h
    rw [hp, hprev] at hstep
    obtain ⟨hl, hall⟩ := ih (pre ++ [prev]) p (tradeSide eps p prev tick) (by rw [hfull]; simp)
      (by simpa using hstep)
    refine ⟨by simp [tradeSideLoop, hl], ?_⟩
    intro j s hj
    unfold tradeSideLoop at hj
    cases j with
    | zero =>
      simp at hj
      subst hj
      exact hstep
    | succ j =>
      have := hall j s (by simpa using hj)
      have e : (pre ++ [prev]).length + 1 + j = pre.length + 1 + (j + 1) := by simp; omega
      rwa [e] at this

/-- **C16.** With a non-negative tolerance the output has one side per trade, and each trade's side is the
direction of the most recent price change larger than the tolerance at or before it, 0 exactly when there has
been none.  In particular sides are -1, 0 or 1. -/
theorem C16_tick_rule (eps : K) (he : 0 ≤ eps) (prices : List K) :
    (tradeSideVector eps prices).length = prices.length ∧
    ∀ i s, (tradeSideVector eps prices)[i]? = some s →
      LatestDirection eps prices i s ∧ (s = -1 ∨ s = 0 ∨ s = 1) ∧
      (s = 0 ↔ ∀ k, k ≤ i → ¬ SignificantMove eps prices k) := by
  have key : (tradeSideVector eps prices).length = prices.length ∧
      ∀ i s, (tradeSideVector eps prices)[i]? = some s → LatestDirection eps prices i s := by
    cases prices with
    | nil => simp [tradeSideVector]
    | cons p ps =>
      have h0 : LatestDirection eps (p :: ps) 0 0 := by
        left
        refine ⟨rfl, ?_⟩
        rintro k hk ⟨h1, _⟩
        omega
      obtain ⟨h1, h2⟩ := tradeSideLoop_spec eps he (p :: ps) ps [] p 0 rfl h0
      refine ⟨by simp [tradeSideVector, h1], ?_⟩
      intro i s hi
      cases i with
      | zero => simp [tradeSideVector] at hi; subst hi; exact h0
      | succ i =>
        have := h2 i s (by simpa [tradeSideVector] using hi)
        simpa [Nat.add_comm] using this
  refine ⟨key.1, ?_⟩
  intro i s hi
  have h := key.2 i s hi
  refine ⟨h, ?_, ?_⟩
  · rcases h with ⟨h, _⟩ | ⟨_, _, _, _, ⟨h, _⟩ | ⟨h, _⟩⟩ <;> simp [h]
  · rcases h with ⟨h1, h2⟩ | ⟨k, h1, h2, _, h4⟩
    · exact ⟨fun _ => h2, fun _ => h1⟩
    · constructor
      · intro h0
        rcases h4 with ⟨h, _⟩ | ⟨h, _⟩ <;> omega
      · intro hno
        exact absurd h2 (hno k h1)

example : (0 : ℚ) ≤ 1 / 10 ∧ tradeSideVector (1 / 10) ([5, 5, 6, 6, 5, 5.05] : List ℚ) = [0, 0, 1, 1, -1, -1] := by decide +kernel

/-- **C16 (uniqueness).** The specification determines the side. -/
theorem C16_direction_unique (eps : K) (prices : List K) (i : Nat) (s t : Int)
    (hs : LatestDirection eps prices i s) (ht : LatestDirection eps prices i t) : s = t := by
  rcases hs with ⟨h1, h2⟩ | ⟨k, a1, a2, a3, a4⟩
  · rcases ht with ⟨g1, _⟩ | ⟨k', b1, b2, _, _⟩
    · rw [h1, g1]
    · exact absurd b2 (h2 k' b1)
  · rcases ht with ⟨_, g2⟩ | ⟨k', b1, b2, b3, b4⟩
    · exact absurd a2 (g2 k a1)
    · have hk : k = k' := by
        rcases Nat.lt_trichotomy k k' with h | h | h
        · exact absurd b2 (a3 k' h b1)
        · exact h
        · exact absurd a2 (b3 k h a1)
      subst hk
      rcases a4 with ⟨a, a'⟩ | ⟨a, a'⟩ <;> rcases b4 with ⟨b, b'⟩ | ⟨b, b'⟩
      · rw [a, b]
      · exact absurd a' (not_lt.mpr (le_of_lt b'))
      · exact absurd a' (not_lt.mpr (le_of_lt b'))
      · rw [a, b]

example : tradeSideVector (1/1000000000000 : ℚ) [5, 5, 6, 6, 4, 4, 7] = [0, 0, 1, 1, -1, -1, 1] := by decide +kernel

/-- **C16 (causality).** Sides of existing trades do not change when trades are appended. -/
theorem C16_tick_rule_causal (eps : K) (prices more : List K) (hne : prices ≠ []) :
    ∃ rest, tradeSideVector eps (prices ++ more) = tradeSideVector eps prices ++ rest := by
  cases prices with
  | nil => exact absurd rfl hne
  | cons p ps =>
    have : ∀ (ps : List K) (prev : K) (t : Int), ∃ rest,
        tradeSideLoop eps prev t (ps ++ more) = tradeSideLoop eps prev t ps ++ rest := by
      intro ps
      induction ps with
      | nil => intro prev t; exact ⟨_, rfl⟩
      | cons q qs ih =>
        intro prev t
        obtain ⟨r, hr⟩ := ih q (tradeSide eps q prev t)
        exact ⟨r, by simp [tradeSideLoop, hr]⟩
    obtain ⟨r, hr⟩ := this ps p 0
    exact ⟨r, by simp [tradeSideVector, hr]⟩

example : ([5, 5, 6] : List ℚ) ≠ [] ∧ tradeSideVector (1 / 10) ([5, 5, 6] ++ [5] : List ℚ) = tradeSideVector (1 / 10) ([5, 5, 6] : List ℚ) ++ [-1] := by
  decide +kernel

/-! ## C50: small utilities -/

/-- **C50 (median of three).** `median3` returns one of its arguments, with at most one argument strictly below and
at most one strictly above it. -/
theorem C50_median3 (a b c : K) :
    let m := median3 a b c
    (m = a ∨ m = b ∨ m = c) ∧
    ([a, b, c].filter (fun x => decide (x < m))).length ≤ 1 ∧
    ([a, b, c].filter (fun x => decide (m < x))).length ≤ 1 := by
  have key : ∀ m : K, (m = a ∨ m = b ∨ m = c) →
      (¬ (a < m ∧ b < m)) → (¬ (a < m ∧ c < m)) → (¬ (b < m ∧ c < m)) →
      (¬ (m < a ∧ m < b)) → (¬ (m < a ∧ m < c)) → (¬ (m < b ∧ m < c)) →
      (m = a ∨ m = b ∨ m = c) ∧ ([a, b, c].filter (fun x => decide (x < m))).length ≤ 1 ∧
      ([a, b, c].filter (fun x => decide (m < x))).length ≤ 1 := by
    intro m h0 h1 h2 h3 h4 h5 h6
    refine ⟨h0, ?_, ?_⟩
    · by_cases x : a < m <;> by_cases y : b < m <;> by_cases z : c < m <;> simp_all
    · by_cases x : m < a <;> by_cases y : m < b <;> by_cases z : m < c <;> simp_all
  simp only [median3]
  apply key <;> split_ifs <;> first | simp; done | (rintro ⟨x, y⟩; linarith)

/-- **C50 (order check).** `check_timestamps_order` returns true exactly on non-decreasing timestamps. -/
theorem C50_check_timestamps_order (ts : List Int) :
    checkTimestampsOrder ts = true ↔ ts.Pairwise (· ≤ ·) := by
  induction ts with
  | nil => simp [checkTimestampsOrder]
  | cons a l ih =>
    cases l with
    | nil => simp [checkTimestampsOrder]
    | cons b l =>
      unfold checkTimestampsOrder
      by_cases h : b < a
      · rw [if_pos h]
        constructor
        · intro h; cases h
        · intro hp
          have := (List.pairwise_cons.mp hp).1 b (by simp)
          omega
      · rw [if_neg h, ih]
        constructor
        · intro hp
          refine List.pairwise_cons.mpr ⟨?_, hp⟩
          intro x hx
          rcases List.mem_cons.mp hx with rfl | hx
          · omega
          · have := (List.pairwise_cons.mp hp).1 x hx
            omega
        · intro hp; exact (List.pairwise_cons.mp hp).2

example : median3 (3 : ℚ) 1 2 = 2 ∧ checkTimestampsOrder [1, 1, 5] = true ∧ checkTimestampsOrder [1, 5, 4] = false := by
  decide +kernel

end FinML
