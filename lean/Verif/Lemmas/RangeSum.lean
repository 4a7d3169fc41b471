import Verif.Spec.Basic

namespace FinML

variable {K : Type}

theorem rangeSum_self [AddMonoid K] (v : List K) (a : Nat) : rangeSum v a a = 0 := by
  simp [rangeSum]

theorem rangeSum_succ [AddMonoid K] (v : List K) (a b : Nat) (hab : a ≤ b) (hb : b < v.length) :
    rangeSum v a (b + 1) = rangeSum v a b + v[b] := by
  unfold rangeSum
  have h1 : b + 1 - a = (b - a) + 1 := by omega
  rw [h1, List.take_add_one, List.sum_append]
  congr 1
  rw [List.getElem?_drop]
  have : a + (b - a) = b := by omega
  rw [this, List.getElem?_eq_getElem hb]
  simp

theorem rangeSum_add [AddMonoid K] (v : List K) (a b c : Nat) (hab : a ≤ b) (hbc : b ≤ c) :
    rangeSum v a c = rangeSum v a b + rangeSum v b c := by
  unfold rangeSum
  have h1 : c - a = (b - a) + (c - b) := by omega
  rw [h1, List.take_add, List.sum_append, List.drop_drop]
  congr 3
  congr 1
  omega

theorem rangeSum_eq_take [AddMonoid K] (v : List K) (b : Nat) : rangeSum v 0 b = (v.take b).sum := by
  simp [rangeSum]

theorem rangeSum_zero_length [AddMonoid K] (v : List K) : rangeSum v 0 v.length = v.sum := by
  simp [rangeSum]

theorem rangeSum_append_left [AddMonoid K] (v w : List K) (a b : Nat) (hb : b ≤ v.length) :
    rangeSum (v ++ w) a b = rangeSum v a b := by
  unfold rangeSum
  by_cases h : a ≤ v.length
  · rw [List.drop_append_of_le_length h, List.take_append_of_le_length]
    simp; omega
  · have : b - a = 0 := by omega
    simp [this]

theorem rangeSum_nonneg [AddCommMonoid K] [PartialOrder K] [IsOrderedAddMonoid K] (v : List K)
    (h : ∀ x ∈ v, 0 ≤ x) (a b : Nat) : 0 ≤ rangeSum v a b := by
  unfold rangeSum
  apply List.sum_nonneg
  intro x hx
  exact h x (List.mem_of_mem_drop (List.mem_of_mem_take hx))

end FinML
