import Verif.Model.Bars
import Verif.Spec.Bars

set_option linter.unusedSectionVars false

namespace FinML

variable {K : Type} [Field K] [LinearOrder K]

theorem idxRange_length (a b : Int) : (idxRange a b).length = (b + 1 - a).toNat := by simp [idxRange]

theorem idxRange_getElem (a b : Int) (i : Nat) (h : i < (idxRange a b).length) :
    (idxRange a b)[i] = a + i := by
  simp only [idxRange, List.getElem_map, List.getElem_range]

theorem mem_idxRange {a b j : Int} : j ∈ idxRange a b ↔ a ≤ j ∧ j ≤ b := by
  unfold idxRange
  rw [List.mem_map]
  constructor
  · rintro ⟨k, hk, rfl⟩; rw [List.mem_range] at hk; omega
  · rintro ⟨h1, h2⟩
    exact ⟨(j - a).toNat, by rw [List.mem_range]; omega, by omega⟩

theorem pyGet_nonneg {α : Type} (xs : List α) (d : α) (i : Int) (h : 0 ≤ i) :
    pyGet xs d i = xs.getD i.toNat d := by
  unfold pyGet; rw [if_neg (by omega)]

theorem pyGet_getElem {α : Type} (xs : List α) (d : α) (i : Int) (h : 0 ≤ i) (h2 : i < xs.length) :
    pyGet xs d i = xs[i.toNat]'(by omega) := by
  rw [pyGet_nonneg xs d i h, List.getD_eq_getElem?_getD, List.getElem?_eq_getElem (by omega)]; rfl

theorem sliceAfter_length {α : Type} (xs : List α) (a b : Int) (ha : -1 ≤ a) (hab : a ≤ b)
    (hb : b < xs.length) : (sliceAfter xs a b).length = (b - a).toNat := by
  unfold sliceAfter; rw [List.length_take, List.length_drop]; omega

theorem map_pyGet_idxRange {α : Type} (xs : List α) (d : α) (a b : Int) (ha : -1 ≤ a) (hab : a ≤ b)
    (hb : b < xs.length) : (idxRange (a + 1) b).map (pyGet xs d) = sliceAfter xs a b := by
  apply List.ext_getElem
  · rw [List.length_map, idxRange_length, sliceAfter_length xs a b ha hab hb]; omega
  · intro i h1 h2
    rw [List.length_map, idxRange_length] at h1
    rw [List.getElem_map, idxRange_getElem, pyGet_getElem _ _ _ (by omega) (by omega)]
    simp only [sliceAfter, List.getElem_take, List.getElem_drop]
    congr 1; omega

theorem sliceAfter_zip {α β : Type} (xs : List α) (ys : List β) (a b : Int) :
    sliceAfter (xs.zip ys) a b = (sliceAfter xs a b).zip (sliceAfter ys a b) := by
  simp only [sliceAfter, List.zip_eq_zipWith, List.drop_zipWith, List.take_zipWith]

theorem map_pyGet_idxRange_zip (ps vs : List K) (d e : K) (a b : Int) (ha : -1 ≤ a) (hab : a ≤ b)
    (hb : b < ps.length) (hb' : b < vs.length) :
    (idxRange (a + 1) b).map (fun j => (pyGet ps d j, pyGet vs e j)) = sliceAfter (ps.zip vs) a b := by
  rw [sliceAfter_zip, ← map_pyGet_idxRange ps d a b ha hab hb, ← map_pyGet_idxRange vs e a b ha hab hb',
    List.zip_map']

theorem sliceAfter_self {α : Type} (xs : List α) (a : Int) : sliceAfter xs a a = [] := by
  simp [sliceAfter]

theorem sliceAfter_append {α : Type} (xs : List α) (a b c : Int) (ha : -1 ≤ a) (hab : a ≤ b) (hbc : b ≤ c) :
    sliceAfter xs a b ++ sliceAfter xs b c = sliceAfter xs a c := by
  unfold sliceAfter
  have h1 : (c - a).toNat = (b - a).toNat + (c - b).toNat := by omega
  rw [h1, List.take_add, List.drop_drop]
  congr 3
  omega

/-- Bars concatenate to the trades between the first and the last close. -/
theorem flatten_slices {α : Type} (xs : List α) (c : List Int) (hm : c.Pairwise (· ≤ ·))
    (hl : ∀ x ∈ c, -1 ≤ x) (hne : c ≠ []) :
    ((c.zip c.tail).map (fun p => sliceAfter xs p.1 p.2)).flatten =
      sliceAfter xs (c.head hne) (c.getLast hne) := by
  induction c with
  | nil => exact absurd rfl hne
  | cons a c ih =>
    cases c with
    | nil => simp [sliceAfter_self]
    | cons b c =>
      have hm' := (List.pairwise_cons.mp hm)
      have := ih hm'.2 (fun x hx => hl x (by simp [hx])) (by simp)
      simp only [List.tail_cons, List.zip_cons_cons, List.map_cons, List.flatten_cons] at this ⊢
      rw [this]
      simp only [List.head_cons, List.getLast_cons_cons]
      apply sliceAfter_append _ _ _ _ (hl a (by simp)) (hm'.1 b (by simp))
      rcases List.mem_cons.mp (List.getLast_mem (l := b :: c) (by simp)) with h | h
      · rw [h]
      · exact (List.pairwise_cons.mp hm'.2).1 _ h

/-! ### The OHLCV fold -/

theorem ohlcv_fold_high (ts : List (K × K)) (s : OhlcvAcc K) :
    let r := ts.foldl ohlcvStep s
    s.high ≤ r.high ∧ (∀ t ∈ ts, t.1 ≤ r.high) ∧ (r.high = s.high ∨ ∃ t ∈ ts, r.high = t.1) := by
  induction ts generalizing s with
  | nil => simp
  | cons t ts ih =>
    obtain ⟨h1, h2, h3⟩ := ih (ohlcvStep s t)
    have e : (ohlcvStep s t).high = max s.high t.1 := by
      simp only [ohlcvStep]
      split
      · rename_i h; rw [max_eq_right (le_of_lt h)]
      · rename_i h; rw [max_eq_left (not_lt.mp h)]
    rw [e] at h1 h3
    simp only [List.foldl_cons]
    refine ⟨le_trans (le_max_left _ _) h1, ?_, ?_⟩
    · intro u hu
      rcases List.mem_cons.mp hu with rfl | hu
      · exact le_trans (le_max_right _ _) h1
      · exact h2 u hu
    · rcases h3 with h3 | ⟨u, hu, h3⟩
      · rcases max_choice s.high t.1 with h | h
        · left; rw [h3, h]
        · right; exact ⟨t, by simp, by rw [h3, h]⟩
      · right; exact ⟨u, by simp [hu], h3⟩

theorem ohlcv_fold_low (ts : List (K × K)) (s : OhlcvAcc K) :
    let r := ts.foldl ohlcvStep s
    r.low ≤ s.low ∧ (∀ t ∈ ts, r.low ≤ t.1) ∧ (r.low = s.low ∨ ∃ t ∈ ts, r.low = t.1) := by
  induction ts generalizing s with
  | nil => simp
  | cons t ts ih =>
    obtain ⟨h1, h2, h3⟩ := ih (ohlcvStep s t)
    have e : (ohlcvStep s t).low = min s.low t.1 := by
      simp only [ohlcvStep]
      split
      · rename_i h; rw [min_eq_right (le_of_lt h)]
      · rename_i h; rw [min_eq_left (not_lt.mp h)]
    rw [e] at h1 h3
    simp only [List.foldl_cons]
    refine ⟨le_trans h1 (min_le_left _ _), ?_, ?_⟩
    · intro u hu
      rcases List.mem_cons.mp hu with rfl | hu
      · exact le_trans h1 (min_le_right _ _)
      · exact h2 u hu
    · rcases h3 with h3 | ⟨u, hu, h3⟩
      · rcases min_choice s.low t.1 with h | h
        · left; rw [h3, h]
        · right; exact ⟨t, by simp, by rw [h3, h]⟩
      · right; exact ⟨u, by simp [hu], h3⟩

theorem ohlcv_fold_vol (ts : List (K × K)) (s : OhlcvAcc K) :
    (ts.foldl ohlcvStep s).vol = s.vol + (ts.map Prod.snd).sum := by
  induction ts generalizing s with
  | nil => simp
  | cons t ts ih => simp only [List.foldl_cons, ih, ohlcvStep, List.map_cons, List.sum_cons]; ring

theorem ohlcv_fold_dollar (ts : List (K × K)) (s : OhlcvAcc K) :
    (ts.foldl ohlcvStep s).dollar = s.dollar + (ts.map (fun t => t.1 * t.2)).sum := by
  induction ts generalizing s with
  | nil => simp
  | cons t ts ih => simp only [List.foldl_cons, ih, ohlcvStep, List.map_cons, List.sum_cons]; ring

/-! ### Weighted means -/

theorem weighted_le [IsStrictOrderedRing K] (ts : List (K × K)) (M : K) (hM : ∀ t ∈ ts, t.1 ≤ M)
    (hv : ∀ t ∈ ts, 0 ≤ t.2) :
    (ts.map (fun t => t.1 * t.2)).sum ≤ M * (ts.map Prod.snd).sum := by
  induction ts with
  | nil => simp
  | cons t ts ih =>
    simp only [List.map_cons, List.sum_cons]
    have h1 := ih (fun u hu => hM u (by simp [hu])) (fun u hu => hv u (by simp [hu]))
    have h2 : t.1 * t.2 ≤ M * t.2 := mul_le_mul_of_nonneg_right (hM t (by simp)) (hv t (by simp))
    linarith [mul_add M t.2 (ts.map Prod.snd).sum]

theorem le_weighted [IsStrictOrderedRing K] (ts : List (K × K)) (m : K) (hm : ∀ t ∈ ts, m ≤ t.1)
    (hv : ∀ t ∈ ts, 0 ≤ t.2) :
    m * (ts.map Prod.snd).sum ≤ (ts.map (fun t => t.1 * t.2)).sum := by
  induction ts with
  | nil => simp
  | cons t ts ih =>
    simp only [List.map_cons, List.sum_cons]
    have h1 := ih (fun u hu => hm u (by simp [hu])) (fun u hu => hv u (by simp [hu]))
    have h2 : m * t.2 ≤ t.1 * t.2 := mul_le_mul_of_nonneg_right (hm t (by simp)) (hv t (by simp))
    linarith [mul_add m t.2 (ts.map Prod.snd).sum]

end FinML
