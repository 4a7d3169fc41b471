/-
Lemmas on `searchRight`, `searchLeft`, `arange`.
-/
import Verif.Model.Indexers

namespace FinML

theorem takeWhile_length_iff {α : Type} (p : α → Bool) (l : List α)
    (hmono : ∀ (i j : Nat) (hi : i < l.length) (hj : j < l.length), i ≤ j → p l[j] = true → p l[i] = true)
    (j : Nat) (hj : j < l.length) : j < (l.takeWhile p).length ↔ p l[j] = true := by
  induction l generalizing j with
  | nil => simp at hj
  | cons a l ih =>
    by_cases ha : p a = true
    · rw [List.takeWhile_cons_of_pos ha]
      cases j with
      | zero => simp [ha]
      | succ j =>
        have := ih (fun i k hi hk hik h => by
          have := hmono (i+1) (k+1) (by simpa using hi) (by simpa using hk) (by omega) (by simpa using h)
          simpa using this) j (by simpa using hj)
        simpa using this
    · rw [List.takeWhile_cons_of_neg ha]
      constructor
      · simp
      · intro h
        have := hmono 0 j (by simp) hj (by omega) h
        simp at this; exact absurd this ha

theorem sorted_get_le {l : List Int} (hs : l.Pairwise (· ≤ ·)) {i j : Nat} (hi : i < l.length)
    (hj : j < l.length) (hij : i ≤ j) : l[i] ≤ l[j] := by
  rcases Nat.lt_or_eq_of_le hij with h | h
  · exact List.pairwise_iff_getElem.mp hs i j hi hj h
  · subst h; exact le_refl _

theorem lt_searchRight {l : List Int} (hs : l.Pairwise (· ≤ ·)) (v : Int) (j : Nat)
    (hj : j < l.length) : j < searchRight l v ↔ l[j] ≤ v := by
  unfold searchRight
  rw [takeWhile_length_iff _ l _ j hj]
  · simp
  · intro i k hi hk hik h
    have := sorted_get_le hs hi hk hik
    simp at h ⊢; omega

theorem lt_searchLeft {l : List Int} (hs : l.Pairwise (· ≤ ·)) (v : Int) (j : Nat)
    (hj : j < l.length) : j < searchLeft l v ↔ l[j] < v := by
  unfold searchLeft
  rw [takeWhile_length_iff _ l _ j hj]
  · simp
  · intro i k hi hk hik h
    have := sorted_get_le hs hi hk hik
    simp at h ⊢; omega

theorem searchRight_le_length (l : List Int) (v : Int) : searchRight l v ≤ l.length := by
  unfold searchRight; exact (List.takeWhile_sublist _).length_le

theorem searchLeft_le_length (l : List Int) (v : Int) : searchLeft l v ≤ l.length := by
  unfold searchLeft; exact (List.takeWhile_sublist _).length_le

@[simp] theorem arange_length (a b s : Int) : (arange a b s).length = ((b - a + s - 1) / s).toNat := by
  simp [arange]

theorem arange_getElem (a b s : Int) (i : Nat) (h : i < (arange a b s).length) :
    (arange a b s)[i] = a + (i : Int) * s := by
  simp only [arange, List.getElem_map, List.getElem_range]

/-- number of elements of an `arange` -/
theorem lt_arange_length {a b s : Int} (hs : 0 < s) (i : Nat) :
    i < (arange a b s).length ↔ a + (i : Int) * s < b := by
  rw [arange_length]
  constructor
  · intro h
    have h1 : (i : Int) + 1 ≤ (b - a + s - 1) / s := by omega
    have h2 := Int.mul_le_of_le_ediv hs h1
    have : ((i : Int) + 1) * s = i * s + s := by ring
    omega
  · intro h
    have h1 : (i : Int) + 1 ≤ (b - a + s - 1) / s := by
      apply Int.le_ediv_of_mul_le hs
      have : ((i : Int) + 1) * s = i * s + s := by ring
      omega
    omega

theorem ceilDiv_mul_ge (x : Int) {i : Int} (hi : 0 < i) : x ≤ ceilDiv x i * i := by
  unfold ceilDiv
  have := Int.ediv_mul_le (-x) (ne_of_gt hi)
  have h : -(-x / i) * i = -((-x / i) * i) := by ring
  omega

theorem ceilDiv_mul_lt (x : Int) {i : Int} (hi : 0 < i) : ceilDiv x i * i < x + i := by
  unfold ceilDiv
  have := Int.lt_ediv_add_one_mul_self (-x) hi
  have h : -(-x / i) * i = -((-x / i) * i) := by ring
  have h2 : (-x / i + 1) * i = (-x/i) * i + i := by ring
  omega

end FinML
