import Verif.Model.Bars
import Verif.Spec.Basic

set_option linter.unusedSectionVars false

namespace FinML

variable {K : Type} [Field K] [LinearOrder K] [IsStrictOrderedRing K]

theorem countP_ge_of_take {α : Type} (p : α → Bool) (s : List α) (k : Nat) (hk : k ≤ s.length)
    (h : ∀ (i : Nat) (hi : i < s.length), i < k → p s[i] = true) : k ≤ s.countP p := by
  have h1 : (s.take k).countP p ≤ s.countP p := (List.take_sublist k s).countP_le
  have h2 : (s.take k).countP p = (s.take k).length := by
    rw [List.countP_eq_length]
    intro a ha
    obtain ⟨i, hi, rfl⟩ := List.mem_take_iff_getElem.mp ha
    exact h i (by omega) (by omega)
  rw [h2, List.length_take] at h1; omega

theorem countP_ge_of_drop {α : Type} (p : α → Bool) (s : List α) (k : Nat) (_hk : k ≤ s.length)
    (h : ∀ (i : Nat) (hi : i < s.length), k ≤ i → p s[i] = true) : s.length - k ≤ s.countP p := by
  have h1 : (s.drop k).countP p ≤ s.countP p := (List.drop_sublist k s).countP_le
  have h2 : (s.drop k).countP p = (s.drop k).length := by
    rw [List.countP_eq_length]
    intro a ha
    obtain ⟨i, hi, rfl⟩ := List.mem_drop_iff_getElem.mp ha
    exact h (k + i) (by omega) (by omega)
  rw [h2, List.length_drop] at h1; omega

theorem insertionSort_sorted (l : List K) :
    (l.insertionSort (· ≤ ·)).Pairwise (· ≤ ·) := by
  exact List.pairwise_insertionSort (· ≤ ·) l

theorem sorted_orderStat (l s : List K) (hperm : s.Perm l) (hs : s.Pairwise (· ≤ ·)) (k : Nat)
    (hk : k < s.length) : IsOrderStat l k s[k] := by
  have hget : ∀ (i j : Nat) (hi : i < s.length) (hj : j < s.length), i ≤ j → s[i] ≤ s[j] := by
    intro i j hi hj hij
    rcases Nat.lt_or_eq_of_le hij with h | h
    · exact List.pairwise_iff_getElem.mp hs i j hi hj h
    · subst h; exact le_refl _
  refine ⟨hperm.mem_iff.mp (List.getElem_mem hk), ?_, ?_⟩
  · rw [← hperm.countP_eq]
    have h1 := countP_ge_of_drop (fun x => !decide (x < s[k])) s k (by omega) (by
      intro i hi hki; simp; exact hget _ _ _ _ hki)
    have h2 := List.length_eq_countP_add_countP (fun x => decide (x < s[k])) (l := s)
    have h3 : s.countP (fun x => !decide (x < s[k])) = s.countP (fun a => ¬ decide (a < s[k]) = true) := by
      congr 1; funext x; by_cases h : x < s[k] <;> simp [h]
    omega
  · rw [← hperm.countP_eq]
    have := countP_ge_of_take (fun x => decide (x ≤ s[k])) s (k + 1) (by omega) (by
        intro i hi hik; simp; exact hget _ _ _ _ (by omega))
    omega

theorem npMedian_isMedian (l : List K) (hne : l ≠ []) : IsMedian l (npMedian l) := by
  have hs := insertionSort_sorted l
  have hperm := List.perm_insertionSort (· ≤ ·) l
  have hlen : (l.insertionSort (· ≤ ·)).length = l.length := hperm.length_eq
  have hpos := List.length_pos_iff.mpr hne
  unfold npMedian
  set s := l.insertionSort (· ≤ ·) with hsdef
  have hD : ∀ (i : Nat) (hi : i < s.length), s.getD i 0 = s[i] := by
    intro i hi; rw [List.getD_eq_getElem?_getD, List.getElem?_eq_getElem hi]; rfl
  refine ⟨s[(l.length - 1)/2]'(by omega), s[l.length/2]'(by omega), sorted_orderStat l s hperm hs _ _,
    sorted_orderStat l s hperm hs _ _, ?_⟩
  simp only [hlen]
  split
  · rename_i hodd
    rw [hD (l.length/2) (by omega)]
    have : (l.length - 1) / 2 = l.length / 2 := by omega
    simp only [this]; ring
  · rename_i heven
    rw [hD (l.length/2) (by omega), hD (l.length/2 - 1) (by omega)]
    have : (l.length - 1) / 2 = l.length / 2 - 1 := by omega
    simp only [this]

/-- At least half of the data is `≤` the median and at least half is `≥` it. -/
theorem npMedian_spec (l : List K) (hne : l ≠ []) :
    l.length ≤ 2 * l.countP (fun x => decide (x ≤ npMedian l)) ∧
    l.length ≤ 2 * l.countP (fun x => decide (npMedian l ≤ x)) := by
  have hs := insertionSort_sorted l
  have hperm := List.perm_insertionSort (· ≤ ·) l
  have hlen : (l.insertionSort (· ≤ ·)).length = l.length := hperm.length_eq
  have hpos := List.length_pos_iff.mpr hne
  rw [← hperm.countP_eq, ← hperm.countP_eq]
  unfold npMedian
  set s := l.insertionSort (· ≤ ·) with hsdef
  have hget : ∀ (i j : Nat) (hi : i < s.length) (hj : j < s.length), i ≤ j → s[i] ≤ s[j] := by
    intro i j hi hj hij
    rcases Nat.lt_or_eq_of_le hij with h | h
    · exact List.pairwise_iff_getElem.mp hs i j hi hj h
    · subst h; exact le_refl _
  have hD : ∀ (i : Nat) (hi : i < s.length), s.getD i 0 = s[i] := by
    intro i hi; rw [List.getD_eq_getElem?_getD, List.getElem?_eq_getElem hi]; rfl
  simp only [hlen]
  split
  · rename_i hodd
    rw [hD (l.length/2) (by omega)]
    constructor
    · have := countP_ge_of_take (fun x => decide (x ≤ s[l.length/2])) s (l.length/2 + 1) (by omega) (by
        intro i hi hk; simp; exact hget _ _ _ _ (by omega))
      omega
    · have := countP_ge_of_drop (fun x => decide (s[l.length/2] ≤ x)) s (l.length/2) (by omega) (by
        intro i hi hk; simp; exact hget _ _ _ _ (by omega))
      omega
  · rename_i heven
    have h2 : l.length / 2 - 1 < s.length := by omega
    have h3 : l.length / 2 < s.length := by omega
    rw [hD _ h2, hD _ h3]
    have hle := hget _ _ h2 h3 (by omega)
    constructor
    · have := countP_ge_of_take (fun x => decide (x ≤ (s[l.length/2-1] + s[l.length/2])/2)) s (l.length/2)
        (by omega) (by
        intro i hi hk; simp only [decide_eq_true_eq]
        have := hget i _ hi h2 (by omega)
        linarith)
      omega
    · have := countP_ge_of_drop (fun x => decide ((s[l.length/2-1] + s[l.length/2])/2 ≤ x)) s (l.length/2)
        (by omega) (by
        intro i hi hk; simp only [decide_eq_true_eq]
        have := hget _ i h3 hi (by omega)
        linarith)
      omega

end FinML
