/-
C49: the mean spread against the largest one.
-/
import Verif.Props.Directional
import Mathlib.Tactic.Linarith

set_option linter.unusedSectionVars false

namespace FinML

variable {K : Type} [Field K] [LinearOrder K] [IsStrictOrderedRing K]

theorem switchMoves_length (l : List (SidedTrade K)) (ps : Int) (pp : K) : (switchMoves ps pp l).length ≤ l.length := by
  induction l generalizing ps pp with
  | nil => simp [switchMoves]
  | cons t l ih =>
    rw [switchMoves]
    have := ih t.side t.price
    split <;> simp only [List.length_cons] <;> omega

theorem sum_le_length_mul (l : List K) (m : K) (h : ∀ x ∈ l, x ≤ m) : l.sum ≤ l.length * m := by
  have := List.sum_le_card_nsmul l m h
  rwa [nsmul_eq_mul] at this

/-- **C49 (mean and largest spread).** In a bar of buys and sells only, the mean spread is at most the largest spread, and it is
non-negative. -/
theorem C49_mean_le_max (prices volumes : List K) (sides : List Int) (a b : Int)
    (hpv : prices.length = volumes.length) (hps : prices.length = sides.length)
    (ha : -1 ≤ a) (hab : a < b) (hb : b < prices.length)
    (hside : ∀ s ∈ sliceAfter sides a b, s = 1 ∨ s = -1) :
    ∃ v, (dirBar prices volumes sides a b).meanSpread = some v ∧ 0 ≤ v ∧ v ≤ (dirBar prices volumes sides a b).maxSpread := by
  have hcount := (C10_directional_total prices volumes sides a b hpv hps ha hab.le hb hside).1
  have hx := C49_spread_exact prices volumes sides a b hpv hps ha hab hb
  simp only at hx
  have hbef : (if a = -1 then prices.length - 1 else a.toNat) < prices.length := by split <;> omega
  obtain ⟨⟨_, hmax⟩, hmean, _⟩ := hx _ _ (List.getElem?_eq_getElem (hps ▸ hbef)) (List.getElem?_eq_getElem hbef)
  have hne : (dirBar prices volumes sides a b).ticksBuy + (dirBar prices volumes sides a b).ticksSell ≠ 0 := by
    rw [hcount]; omega
  have hm := hmean hne
  rw [hcount] at hm
  generalize hmv : switchMoves _ _ (sliceAfter (sidedTrades sides prices volumes) a b) = moves at hm hmax
  refine ⟨_, hm, ?_, ?_⟩
  · apply div_nonneg
    · apply List.sum_nonneg
      intro x hx
      rw [← hmv] at hx
      clear * - hx
      generalize sliceAfter (sidedTrades sides prices volumes) a b = l at hx
      generalize (if b = a + 1 then (0 : Int) else _) = s at hx
      revert hx
      generalize prices[if a = -1 then prices.length - 1 else a.toNat] = p
      intro hx
      induction l generalizing s p with
      | nil => simp [switchMoves] at hx
      | cons t l ih =>
        rw [switchMoves] at hx
        split at hx
        · rcases List.mem_cons.mp hx with rfl | h
          · exact abs_nonneg _
          · exact ih _ _ h
        · exact ih _ _ hx
    · exact_mod_cast (by omega : (0 : Int) ≤ b - a)
  · have hlen : moves.length ≤ (b - a).toNat := by
      rw [← hmv]
      refine le_trans (switchMoves_length _ _ _) ?_
      rw [sliceAfter, List.length_take]
      exact min_le_left _ _
    have h0 := hmax 0 List.mem_cons_self
    have hs := sum_le_length_mul moves _ (fun x hx => hmax x (List.mem_cons_of_mem _ hx))
    have hpos : (0 : K) < ((b - a : Int) : K) := by exact_mod_cast (by omega : (0 : Int) < b - a)
    rw [div_le_iff₀ hpos]
    refine le_trans hs ?_
    rw [mul_comm]
    apply mul_le_mul_of_nonneg_left _ h0
    have : ((moves.length : Int) : K) ≤ ((b - a : Int) : K) := by exact_mod_cast (by omega : (moves.length : Int) ≤ b - a)
    simpa using this

example : let row := dirBar ([10, 11, 12, 10] : List ℚ) [1, 2, 3, 4] [1, 1, -1, 1] 0 3
    row.meanSpread = some 1 ∧ row.maxSpread = 2 ∧ (∀ s ∈ sliceAfter ([1, 1, -1, 1] : List Int) 0 3, s = 1 ∨ s = -1) := by decide +kernel

/-- **C49 (violation).** Trades of side 0 count as changes of side but not as trades of the mean: with them the mean spread can
exceed the largest spread. -/
theorem C49_mean_above_max : ∃ (prices volumes : List ℚ) (sides : List Int),
    (dirBar prices volumes sides 0 4).meanSpread = some 2 ∧ (dirBar prices volumes sides 0 4).maxSpread = 1 :=
  ⟨[10, 11, 10, 11, 10], [1, 1, 1, 1, 1], [1, 0, 1, 0, 1], by decide +kernel⟩

end FinML
