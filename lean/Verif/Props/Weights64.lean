/-
C98: sample weights in float64 arithmetic.
-/
import Verif.Model.Float64Weights
import Verif.Props.Weights
import Verif.Props.Features64

set_option linter.unusedSectionVars false

namespace FinML

/-! ### Sums in any order -/

theorem SumTree.ofList_leaves (l : List ℚ) : (SumTree.ofList l).leaves = l ∧ (SumTree.ofList l).eval64 = sum64 l := by
  have h : ∀ (l : List ℚ) (t : SumTree), (l.foldl (fun t x => SumTree.node t (.leaf x)) t).leaves = t.leaves ++ l ∧
      (l.foldl (fun t x => SumTree.node t (.leaf x)) t).eval64 = l.foldl (fun s v => f64 (s + v)) t.eval64 := by
    intro l
    induction l with
    | nil => intro t; simp
    | cons x l ih =>
      intro t
      obtain ⟨h1, h2⟩ := ih (.node t (.leaf x))
      exact ⟨by simp [h1, SumTree.leaves], by rw [List.foldl_cons, h2]; rfl⟩
  exact ⟨by simpa [SumTree.ofList, SumTree.leaves] using (h l .zero).1, (h l .zero).2⟩

/-- **C98.** Whatever the order of the additions, a sum of nonnegative numbers is within `(1 ± 2^-53)^depth` of the exact sum. -/
theorem C98_sum_any_order (t : SumTree) (h : ∀ x ∈ t.leaves, 0 ≤ x) :
    t.leaves.sum * (1 - 1 / 2 ^ 53) ^ t.depth ≤ t.eval64 ∧ t.eval64 ≤ t.leaves.sum * (1 + 1 / 2 ^ 53) ^ t.depth := by
  induction t with
  | zero => simp [SumTree.leaves, SumTree.eval64]
  | leaf x => simp [SumTree.leaves, SumTree.eval64, SumTree.depth]
  | node l r ihl ihr =>
    have hl := ihl (fun x hx => h x (by simp [SumTree.leaves, hx]))
    have hr := ihr (fun x hx => h x (by simp [SumTree.leaves, hx]))
    have sl : 0 ≤ l.leaves.sum := List.sum_nonneg (fun x hx => h x (by simp [SumTree.leaves, hx]))
    have sr : 0 ≤ r.leaves.sum := List.sum_nonneg (fun x hx => h x (by simp [SumTree.leaves, hx]))
    simp only [SumTree.leaves, SumTree.eval64, SumTree.depth, List.sum_append]
    have u0 : (0 : ℚ) ≤ 1 - 1 / 2 ^ 53 := by norm_num
    have u1 : (1 - 1 / 2 ^ 53 : ℚ) ≤ 1 := by norm_num
    have v1 : (1 : ℚ) ≤ 1 + 1 / 2 ^ 53 := by norm_num
    have hf : ∀ x : ℚ, 0 ≤ x → f64 x ≤ x * (1 + 1 / 2 ^ 53) := fun x hx => (f64_factor hx).2
    have hg : ∀ x : ℚ, 0 ≤ x → x * (1 - 1 / 2 ^ 53) ≤ f64 x := fun x hx => (f64_factor hx).1
    generalize (1 - 1 / 2 ^ 53 : ℚ) = u at *
    generalize (1 + 1 / 2 ^ 53 : ℚ) = v at *
    have a1 : u ^ max l.depth r.depth ≤ u ^ l.depth := pow_le_pow_of_le_one u0 u1 (le_max_left _ _)
    have a2 : u ^ max l.depth r.depth ≤ u ^ r.depth := pow_le_pow_of_le_one u0 u1 (le_max_right _ _)
    have b1 : v ^ l.depth ≤ v ^ max l.depth r.depth := pow_le_pow_right₀ v1 (le_max_left _ _)
    have b2 : v ^ r.depth ≤ v ^ max l.depth r.depth := pow_le_pow_right₀ v1 (le_max_right _ _)
    have e0 : 0 ≤ l.eval64 := le_trans (mul_nonneg sl (pow_nonneg u0 _)) hl.1
    have e1 : 0 ≤ r.eval64 := le_trans (mul_nonneg sr (pow_nonneg u0 _)) hr.1
    have l1 := mul_le_mul_of_nonneg_left a1 sl
    have l2 := mul_le_mul_of_nonneg_left a2 sr
    have r1 := mul_le_mul_of_nonneg_left b1 sl
    have r2 := mul_le_mul_of_nonneg_left b2 sr
    constructor
    · refine le_trans ?_ (hg _ (by linarith))
      rw [pow_succ, ← mul_assoc]
      exact mul_le_mul_of_nonneg_right (by linarith) u0
    · refine le_trans (hf _ (by linarith)) ?_
      rw [pow_succ, ← mul_assoc]
      exact mul_le_mul_of_nonneg_right (by linarith) (by linarith)

example : (∀ x ∈ (SumTree.node (.leaf 1) (.node (.leaf 2) (.leaf (1 / 2)))).leaves, 0 ≤ x) ∧
    (SumTree.node (.leaf 1) (.node (.leaf 2) (.leaf (1 / 2)))).eval64 = 7 / 2 := by decide +kernel

theorem f64_pos {x : ℚ} (h : 0 < x) : 0 < f64 x :=
  lt_of_lt_of_le (mul_pos h (by norm_num)) (f64_factor h.le).1

theorem SumTree.eval_pos (t : SumTree) (hne : t.leaves ≠ []) (h : ∀ x ∈ t.leaves, 0 < x) : 0 < t.eval64 :=
  lt_of_lt_of_le (mul_pos (sum_pos_of_pos hne h) (pow_pos (by norm_num) _)) (C98_sum_any_order t (fun x hx => (h x hx).le)).1

/-- Numbers at most 1 add up to at most their count. -/
theorem SumTree.eval_le (t : SumTree) (h : ∀ x ∈ t.leaves, x ≤ 1) (hl : t.leaves.length ≤ 2 ^ 53) : t.eval64 ≤ t.leaves.length := by
  induction t with
  | zero => simp [SumTree.leaves, SumTree.eval64]
  | leaf x => simpa [SumTree.leaves, SumTree.eval64] using h
  | node l r ihl ihr =>
    simp only [SumTree.leaves, List.length_append] at hl ⊢
    have a := ihl (fun x hx => h x (by simp [SumTree.leaves, hx])) (by omega)
    have b := ihr (fun x hx => h x (by simp [SumTree.leaves, hx])) (by omega)
    have := f64_le_of (x := l.eval64 + r.eval64) (k := ((l.leaves.length + r.leaves.length : Nat) : Int))
      (by rw [abs_of_nonneg (by omega)]; exact_mod_cast hl) (by push_cast; linarith)
    simpa [SumTree.eval64] using this

theorem SumTree.eval_ones (t : SumTree) (h : ∀ x ∈ t.leaves, x = 1) (hl : t.leaves.length ≤ 2 ^ 53) : t.eval64 = t.leaves.length := by
  induction t with
  | zero => simp [SumTree.leaves, SumTree.eval64]
  | leaf x => simpa [SumTree.leaves, SumTree.eval64] using h
  | node l r ihl ihr =>
    simp only [SumTree.leaves, List.length_append] at hl ⊢
    have a := ihl (fun x hx => h x (by simp [SumTree.leaves, hx])) (by omega)
    have b := ihr (fun x hx => h x (by simp [SumTree.leaves, hx])) (by omega)
    have := f64_int ((l.leaves.length + r.leaves.length : Nat) : Int) (by rw [abs_of_nonneg (by omega)]; exact_mod_cast hl)
    simp only [SumTree.eval64, a, b]
    simpa using this

/-- One term of at most one half is seen in the sum. -/
theorem SumTree.eval_half (t : SumTree) (h : ∀ x ∈ t.leaves, x ≤ 1) (hs : ∃ x ∈ t.leaves, x ≤ 1 / 2) (hl : t.leaves.length ≤ 2 ^ 52) :
    t.eval64 ≤ t.leaves.length - 1 / 2 := by
  induction t with
  | zero => simp [SumTree.leaves] at hs
  | leaf x =>
    simp only [SumTree.leaves, List.mem_singleton, exists_eq_left] at hs
    simp only [SumTree.leaves, SumTree.eval64, List.length_singleton]
    norm_num
    linarith
  | node l r ihl ihr =>
    simp only [SumTree.leaves, List.length_append] at hl ⊢
    have hL : ∀ x ∈ l.leaves, x ≤ 1 := fun x hx => h x (by simp [SumTree.leaves, hx])
    have hR : ∀ x ∈ r.leaves, x ≤ 1 := fun x hx => h x (by simp [SumTree.leaves, hx])
    have a := SumTree.eval_le l hL (by omega)
    have b := SumTree.eval_le r hR (by omega)
    have sum : l.eval64 + r.eval64 ≤ ((l.leaves.length + r.leaves.length : Nat) : ℚ) - 1 / 2 := by
      obtain ⟨x, hx, hx2⟩ := hs
      rcases List.mem_append.mp hx with hx | hx
      · have := ihl hL ⟨x, hx, hx2⟩ (by omega)
        push_cast; linarith
      · have := ihr hR ⟨x, hx, hx2⟩ (by omega)
        push_cast; linarith
    have hpos : 0 < l.leaves.length + r.leaves.length := by
      obtain ⟨x, hx, _⟩ := hs
      have := List.length_pos_of_mem hx
      simpa [SumTree.leaves] using this
    have e : ((l.leaves.length + r.leaves.length : Nat) : ℚ) - 1 / 2 =
        ((2 * (l.leaves.length + r.leaves.length : Nat) - 1 : Int) : ℚ) * 2 ^ (-1 : Int) := by
      push_cast
      rw [zpow_neg_one]
      ring
    have ex : f64 (((l.leaves.length + r.leaves.length : Nat) : ℚ) - 1 / 2) = ((l.leaves.length + r.leaves.length : Nat) : ℚ) - 1 / 2 := by
      rw [e]
      exact rndBits_exact 53 (by norm_num) _ _ (by rw [abs_of_nonneg (by omega)]; omega)
    have := f64_mono sum
    rw [ex] at this
    exact this

/-! ### Average uniqueness -/

theorem openLabels_one_iff_disjoint {n : Nat} {spans : List (Nat × Nat)} (hv : ∀ s ∈ spans, s.1 ≤ s.2 ∧ s.2 < n) (i : Nat)
    (hi : i < spans.length) : (∀ j, spans[i].1 ≤ j → j ≤ spans[i].2 → openLabels spans j = 1) ↔
      ∀ k (hk : k < spans.length), k ≠ i → spans[k].2 < spans[i].1 ∨ spans[i].2 < spans[k].1 := by
  have hs := hv spans[i] (List.getElem_mem hi)
  constructor
  · intro h k hk hne
    by_contra hcon
    push Not at hcon
    have hk' := hv spans[k] (List.getElem_mem hk)
    have := (openLabels_eq_one_iff spans i hi (max spans[i].1 spans[k].1) (by omega)).mp (h _ (by omega) (by omega)) k hk hne
    omega
  · intro h j ha hb
    rw [openLabels_eq_one_iff spans i hi j ⟨ha, hb⟩]
    intro k hk hne
    have := h k hk hne
    omega

theorem uniqTerms64_eq {n : Nat} {spans : List (Nat × Nat)} (hc : spans.length < 32768) (s : Nat × Nat) (hs : s.2 < n) :
    uniqTerms64 (concurrency n spans) s = (List.range' s.1 (s.2 + 1 - s.1)).map (fun j => f64 (1 / (openLabels spans j : ℚ))) := by
  have hlen := (C27_concurrency n spans).1
  unfold uniqTerms64
  rw [spanSlice_eq _ (fun j => (openLabels spans j : Int)) s (by rw [hlen]; exact hs) (fun i hi => concurrency_get hc (by omega)), List.map_map]
  simp only [Function.comp_def, Int.cast_natCast]

theorem f64_one_val : f64 1 = 1 := by
  have := f64_int 1 (by norm_num)
  simpa using this

theorem f64_half : f64 (1 / 2) = 1 / 2 := by
  have := rndBits_exact 53 (by norm_num) 1 (-1) (by norm_num)
  simpa [f64] using this

theorem f64_below_one : f64 (1 - 1 / 2 ^ 53) = 1 - 1 / 2 ^ 53 := by
  have := rndBits_exact 53 (by norm_num) (2 ^ 53 - 1) (-53) (by norm_num)
  have e : (((2 ^ 53 - 1 : Int) : ℚ)) * 2 ^ (-53 : Int) = 1 - 1 / 2 ^ 53 := by norm_num
  rw [e] at this
  exact this

/-- **C98.** The uniqueness weight of a label, in float64 and with the mean taken in any order (and fewer than 32768 labels, spans
below `2^52` bars): it lies in `(0, 1]` and is exactly `1.0` if and only if no other label overlaps. -/
theorem C98_uniqueness {n : Nat} {spans : List (Nat × Nat)} (hc : spans.length < 32768) (hv : ∀ s ∈ spans, s.1 ≤ s.2 ∧ s.2 < n)
    (hn : n ≤ 2 ^ 52) (i : Nat) (hi : i < spans.length) (t : SumTree) (ht : t.leaves.Perm (uniqTerms64 (concurrency n spans) spans[i])) :
    0 < mean64 t ∧ mean64 t ≤ 1 ∧
      (mean64 t = 1 ↔ ∀ k (hk : k < spans.length), k ≠ i → spans[k].2 < spans[i].1 ∨ spans[i].2 < spans[k].1) := by
  have hs := hv spans[i] (List.getElem_mem hi)
  rw [uniqTerms64_eq hc _ hs.2] at ht
  have hlen : t.leaves.length = spans[i].2 + 1 - spans[i].1 := by rw [ht.length_eq]; simp
  have hpos : ∀ j, spans[i].1 ≤ j → j ≤ spans[i].2 → 1 ≤ openLabels spans j :=
    fun j h1 h2 => openLabels_pos (List.getElem_mem hi) h1 h2
  have hterm : ∀ j, spans[i].1 ≤ j → j ≤ spans[i].2 → 0 < f64 (1 / (openLabels spans j : ℚ)) ∧ f64 (1 / (openLabels spans j : ℚ)) ≤ 1 ∧
      (openLabels spans j ≠ 1 → f64 (1 / (openLabels spans j : ℚ)) ≤ 1 / 2) := by
    intro j h1 h2
    have h := hpos j h1 h2
    have hq : (1 : ℚ) ≤ openLabels spans j := by exact_mod_cast h
    refine ⟨f64_pos (by positivity), ?_, ?_⟩
    · have := f64_mono (show 1 / (openLabels spans j : ℚ) ≤ 1 by rw [div_le_one (by linarith)]; exact hq)
      rwa [f64_one_val] at this
    · intro hne
      have hq2 : (2 : ℚ) ≤ openLabels spans j := by exact_mod_cast (show 2 ≤ openLabels spans j by omega)
      have := f64_mono (show 1 / (openLabels spans j : ℚ) ≤ 1 / 2 from one_div_le_one_div_of_le (by norm_num) hq2)
      rwa [f64_half] at this
  have hmem : ∀ x ∈ t.leaves, ∃ j, spans[i].1 ≤ j ∧ j ≤ spans[i].2 ∧ x = f64 (1 / (openLabels spans j : ℚ)) := by
    intro x hx
    obtain ⟨j, hj, rfl⟩ := List.mem_map.mp (ht.mem_iff.mp hx)
    rw [List.mem_range'_1] at hj
    exact ⟨j, hj.1, by omega, rfl⟩
  have hle : ∀ x ∈ t.leaves, x ≤ 1 := by
    intro x hx
    obtain ⟨j, h1, h2, rfl⟩ := hmem x hx
    exact (hterm j h1 h2).2.1
  have hgt : ∀ x ∈ t.leaves, 0 < x := by
    intro x hx
    obtain ⟨j, h1, h2, rfl⟩ := hmem x hx
    exact (hterm j h1 h2).1
  have hne : t.leaves ≠ [] := by
    intro h
    rw [h] at hlen
    simp at hlen
    omega
  have hcount : (0 : ℚ) < (t.leaves.length : ℚ) := by
    have : 0 < t.leaves.length := by omega
    exact_mod_cast this
  have hcnt52 : t.leaves.length ≤ 2 ^ 52 := by omega
  have hev := SumTree.eval_le t hle (by omega)
  refine ⟨f64_pos (div_pos (SumTree.eval_pos t hne hgt) hcount), ?_, ?_⟩
  · have := f64_mono (show t.eval64 / (t.leaves.length : ℚ) ≤ 1 by rw [div_le_one hcount]; exact hev)
    rwa [f64_one_val] at this
  · rw [← openLabels_one_iff_disjoint hv i hi]
    constructor
    · intro h j h1 h2
      by_contra hj
      have hx : f64 (1 / (openLabels spans j : ℚ)) ∈ t.leaves :=
        ht.mem_iff.mpr (List.mem_map.mpr ⟨j, by rw [List.mem_range'_1]; omega, rfl⟩)
      have hh := SumTree.eval_half t hle ⟨_, hx, (hterm j h1 h2).2.2 hj⟩ hcnt52
      have hb : t.eval64 / (t.leaves.length : ℚ) ≤ 1 - 1 / 2 ^ 53 := by
        rw [div_le_iff₀ hcount]
        have : (t.leaves.length : ℚ) ≤ 2 ^ 52 := by exact_mod_cast hcnt52
        have e : (2 : ℚ) ^ 53 = 2 * 2 ^ 52 := by norm_num
        have : (t.leaves.length : ℚ) * (1 / 2 ^ 53) ≤ 1 / 2 := by
          rw [mul_one_div, div_le_iff₀ (by positivity)]
          linarith
        linarith
      have := f64_mono hb
      rw [f64_below_one] at this
      unfold mean64 at h
      rw [h] at this
      norm_num at this
    · intro h
      have hones : ∀ x ∈ t.leaves, x = 1 := by
        intro x hx
        obtain ⟨j, h1, h2, rfl⟩ := hmem x hx
        rw [h j h1 h2]
        simpa using f64_one_val
      unfold mean64
      rw [SumTree.eval_ones t hones (by omega), div_self hcount.ne', f64_one_val]

example : mean64 (SumTree.ofList (uniqTerms64 (concurrency 4 [(0, 2), (1, 3)]) (0, 2))) = f64 (2 / 3) ∧
    mean64 (SumTree.ofList (uniqTerms64 (concurrency 4 [(0, 1), (2, 3)]) (2, 3))) = 1 := by decide +kernel

/-- **C98.** The float64 weight is within `(1 ± 2^-53)^(depth + 2)` of the exact mean of `1 / concurrency`. -/
theorem C98_uniqueness_error {n : Nat} {spans : List (Nat × Nat)} (hc : spans.length < 32768) (hv : ∀ s ∈ spans, s.1 ≤ s.2 ∧ s.2 < n)
    (i : Nat) (hi : i < spans.length) (t : SumTree) (ht : t.leaves.Perm (uniqTerms64 (concurrency n spans) spans[i])) :
    ∃ w : ℚ, (averageUniqueness n spans).1[i]? = some (some w) ∧
      w * (1 - 1 / 2 ^ 53) ^ (t.depth + 2) ≤ mean64 t ∧ mean64 t ≤ w * (1 + 1 / 2 ^ 53) ^ (t.depth + 2) := by
  have hs := hv spans[i] (List.getElem_mem hi)
  rw [C27_weight_is_mean hc hv, List.getElem?_map, List.getElem?_eq_getElem hi]
  refine ⟨_, rfl, ?_⟩
  rw [uniqTerms64_eq hc _ hs.2] at ht
  have hlen : t.leaves.length = spans[i].2 + 1 - spans[i].1 := by rw [ht.length_eq]; simp
  have hsum := ht.sum_eq
  have hpos : ∀ x ∈ t.leaves, 0 ≤ x := by
    intro x hx
    obtain ⟨j, _, rfl⟩ := List.mem_map.mp (ht.mem_iff.mp hx)
    exact f64_nonneg (by positivity)
  have hcount : (0 : ℚ) < (t.leaves.length : ℚ) := by
    have : 0 < t.leaves.length := by omega
    exact_mod_cast this
  have hany := C98_sum_any_order t hpos
  rw [hsum] at hany
  rw [← hlen] at hany ⊢
  unfold mean64
  generalize List.range' spans[i].1 t.leaves.length = js at *
  have key : ∀ js : List Nat, (js.map (fun j => 1 / (openLabels spans j : ℚ))).sum * (1 - 1 / 2 ^ 53) ≤
        (js.map (fun j => f64 (1 / (openLabels spans j : ℚ)))).sum ∧
      (js.map (fun j => f64 (1 / (openLabels spans j : ℚ)))).sum ≤ (js.map (fun j => 1 / (openLabels spans j : ℚ))).sum * (1 + 1 / 2 ^ 53) ∧
      0 ≤ (js.map (fun j => 1 / (openLabels spans j : ℚ))).sum := by
    intro js
    induction js with
    | nil => simp
    | cons j js ih =>
      simp only [List.map_cons, List.sum_cons]
      have h0 : (0 : ℚ) ≤ 1 / (openLabels spans j : ℚ) := by positivity
      have := f64_factor h0
      refine ⟨?_, ?_, by linarith [ih.2.2]⟩
      · rw [add_mul]; linarith [ih.1]
      · rw [add_mul]; linarith [ih.2.1]
  obtain ⟨k1, k2, k3⟩ := key js
  have ev0 : 0 ≤ t.eval64 := le_trans (mul_nonneg (le_trans (mul_nonneg k3 (by norm_num)) k1) (pow_nonneg (by norm_num) _)) hany.1
  have hf := f64_factor (div_nonneg ev0 hcount.le)
  have u0 : (0 : ℚ) ≤ 1 - 1 / 2 ^ 53 := by norm_num
  have v0 : (0 : ℚ) ≤ 1 + 1 / 2 ^ 53 := by norm_num
  generalize (1 - 1 / 2 ^ 53 : ℚ) = u at *
  generalize (1 + 1 / 2 ^ 53 : ℚ) = v at *
  generalize (js.map (fun j => f64 (1 / (openLabels spans j : ℚ)))).sum = S at *
  generalize (js.map (fun j => 1 / (openLabels spans j : ℚ))).sum = E at *
  generalize (t.leaves.length : ℚ) = N at *
  constructor
  · refine le_trans ?_ hf.1
    have : E * u * u ^ t.depth ≤ t.eval64 := (mul_le_mul_of_nonneg_right k1 (pow_nonneg u0 _)).trans hany.1
    calc E / N * u ^ (t.depth + 2) = (E * u * u ^ t.depth) / N * u := by ring
      _ ≤ t.eval64 / N * u := by gcongr
  · refine hf.2.trans ?_
    have : t.eval64 ≤ E * v * v ^ t.depth := hany.2.trans (mul_le_mul_of_nonneg_right k2 (pow_nonneg v0 _))
    calc t.eval64 / N * v ≤ (E * v * v ^ t.depth) / N * v := by gcongr
      _ = E / N * v ^ (t.depth + 2) := by ring

/-! ### Time decay -/

/-- A float64 number is an integer of at most 53 bits times a power of two. -/
theorem f64_rep (x : ℚ) (h : f64 x = x) : ∃ m e : Int, |m| ≤ 2 ^ 53 ∧ x = (m : ℚ) * 2 ^ e := by
  have hpos : ∀ x : ℚ, 0 < x → f64 x = x → ∃ m e : Int, |m| ≤ 2 ^ 53 ∧ x = (m : ℚ) * 2 ^ e := by
    intro x hx h
    obtain ⟨a, b⟩ := log2_bounds x hx
    unfold f64 at h
    rw [rndBits_pos 53 x hx] at h
    unfold rndAt at h
    refine ⟨_, _, ?_, h.symm⟩
    generalize Int.log 2 x = l at *
    have e0 : l - (((53 : Nat) : Int) - 1) = l - 52 := by norm_num
    rw [e0] at h ⊢
    generalize rint (x / 2 ^ (l - 52)) = m at *
    have hP := two_zpow_pos (l - 52)
    have e : (2 : ℚ) ^ (l + 1) = 2 ^ 53 * 2 ^ (l - 52) := by
      rw [show l + 1 = (53 : Int) + (l - 52) by ring, zpow_add₀ (by norm_num)]
      norm_num
    have h0 : (0 : ℚ) < m := by
      by_contra hneg
      rw [not_lt] at hneg
      have := mul_nonpos_of_nonpos_of_nonneg hneg hP.le
      linarith
    have h1 : (m : ℚ) < 2 ^ 53 := by
      have : (m : ℚ) * 2 ^ (l - 52) < 2 ^ 53 * 2 ^ (l - 52) := by rw [h, ← e]; exact b
      exact lt_of_mul_lt_mul_right this hP.le
    rw [abs_of_nonneg (by exact_mod_cast h0.le)]
    exact_mod_cast h1.le
  rcases lt_trichotomy x 0 with hx | hx | hx
  · obtain ⟨m, e, hm, he⟩ := hpos (-x) (by linarith) (by rw [f64_neg, h])
    exact ⟨-m, e, by rwa [abs_neg], by push_cast; linarith⟩
  · exact ⟨0, 0, by norm_num, by simpa using hx⟩
  · exact hpos x hx h

theorem f64_scale (x : ℚ) (k : Int) (h : f64 x = x) : f64 (x * 2 ^ k) = x * 2 ^ k := by
  obtain ⟨m, e, hm, he⟩ := f64_rep x h
  have := rndBits_exact 53 (by norm_num) m (e + k) hm
  rw [zpow_add₀ (by norm_num), ← mul_assoc, ← he] at this
  exact this

/-- A float64 number in `[1/2, 2^53)` is a multiple of the spacing of its binade, and so is its distance to 1. -/
theorem f64_one_sub_exact (x : ℚ) (h : f64 x = x) (h1 : 1 / 2 ≤ x) (h2 : x ≤ 2 ^ 53) : f64 (1 - x) = 1 - x := by
  rcases h2.eq_or_lt with he | hlt
  · have e : (1 - 2 ^ 53 : ℚ) = ((1 - 2 ^ 53 : Int) : ℚ) := by norm_num
    rw [he, e]
    exact f64_int (1 - 2 ^ 53) (by norm_num)
  · have hx : 0 < x := by linarith
    obtain ⟨a, b⟩ := log2_bounds x hx
    unfold f64 at h
    rw [rndBits_pos 53 x hx] at h
    unfold rndAt at h
    generalize Int.log 2 x = l at *
    have e0 : l - (((53 : Nat) : Int) - 1) = l - 52 := by norm_num
    rw [e0] at h
    generalize rint (x / 2 ^ (l - 52)) = m at *
    have l1 : -1 ≤ l := by
      have : (2 : ℚ) ^ (-1 : Int) < 2 ^ (l + 1) := lt_of_le_of_lt (by rw [zpow_neg_one]; linarith) b
      have := (zpow_lt_zpow_iff_right₀ (by norm_num : (1 : ℚ) < 2)).mp this
      omega
    have l2 : l < 53 := by
      have : (2 : ℚ) ^ l < 2 ^ (53 : Int) := lt_of_le_of_lt a (by exact_mod_cast hlt)
      exact (zpow_lt_zpow_iff_right₀ (by norm_num : (1 : ℚ) < 2)).mp this
    obtain ⟨k, hk⟩ := Int.eq_ofNat_of_zero_le (show 0 ≤ 52 - l by omega)
    have hP := two_zpow_pos (l - 52)
    have one : (1 : ℚ) = ((2 ^ k : Int) : ℚ) * 2 ^ (l - 52) := by
      push_cast
      rw [← zpow_natCast, ← hk, ← zpow_add₀ (by norm_num)]
      simp
    have ex : 1 - x = ((2 ^ k - m : Int) : ℚ) * 2 ^ (l - 52) := by
      rw [Int.cast_sub, sub_mul, h, ← one]
    rw [ex]
    apply rndBits_exact 53 (by norm_num)
    have hl1 : (1 : ℚ) / 2 ≤ 2 ^ (l + 1) := by linarith
    have e : (2 : ℚ) ^ (l + 1) = 2 ^ 53 * 2 ^ (l - 52) := by
      rw [show l + 1 = (53 : Int) + (l - 52) by ring, zpow_add₀ (by norm_num)]
      norm_num
    have habs : |1 - x| ≤ 2 ^ (l + 1) := by
      have hone : (1 : ℚ) ≤ 2 ^ (l + 1) := by
        have := zpow_le_zpow_right₀ (by norm_num : (1 : ℚ) ≤ 2) (show (0 : Int) ≤ l + 1 by omega)
        simpa using this
      rw [abs_le]
      constructor <;> linarith
    rw [ex, e, abs_mul, abs_of_pos hP] at habs
    have := le_of_mul_le_mul_right habs hP
    exact_mod_cast this

theorem f64_near_one : f64 (1 - 1 / 2 ^ 54) = 1 ∧ f64 (1 + 1 / 2 ^ 53) = 1 := by decide +kernel

/-- `1 - x` and back: the two roundings cancel for every float64 number up to `2^53`. -/
theorem f64_one_sub_add (x : ℚ) (h : f64 x = x) (h0 : 0 ≤ x) (h2 : x ≤ 2 ^ 53) : f64 (f64 (1 - x) + x) = 1 := by
  rcases le_or_gt (1 / 2) x with h1 | h1
  · rw [f64_one_sub_exact x h h1 h2, sub_add_cancel, f64_one_val]
  · rcases h0.eq_or_lt with he | hpos
    · rw [← he]
      simp [f64_one_val]
    · have hb : |f64 (1 - x) - (1 - x)| ≤ 1 / 2 ^ 54 := by
        unfold f64
        rw [rndBits_binade 53 (1 - x) (-1) (by rw [zpow_neg_one]; linarith) (by norm_num; linarith)]
        refine (rndAt_near _ _).trans (le_of_eq ?_)
        norm_num
      rw [abs_le] at hb
      have a := f64_mono (show 1 - 1 / 2 ^ 54 ≤ f64 (1 - x) + x by linarith [hb.1])
      have b := f64_mono (show f64 (1 - x) + x ≤ 1 + 1 / 2 ^ 53 by
        have : (1 : ℚ) / 2 ^ 54 ≤ 1 / 2 ^ 53 := by norm_num
        linarith [hb.2])
      rw [f64_near_one.1] at a
      rw [f64_near_one.2] at b
      exact le_antisymm b a

theorem cumsum64_facts (u : List ℚ) (hu : ∀ x ∈ u, 0 ≤ x) (c : ℚ) (hc : 0 ≤ c) (hf : f64 c = c) :
    (cumsum64 c u).length = u.length ∧ (∀ y ∈ cumsum64 c u, c ≤ y ∧ f64 y = y) ∧ (cumsum64 c u).Pairwise (· ≤ ·) := by
  induction u generalizing c with
  | nil => simp [cumsum64]
  | cons x u ih =>
    have hx := hu x (by simp)
    have h1 : c ≤ f64 (c + x) := by
      have := f64_mono (show c ≤ c + x by linarith)
      rwa [hf] at this
    obtain ⟨a, b, d⟩ := ih (fun y hy => hu y (by simp [hy])) (f64 (c + x)) (hc.trans h1) (f64_idem _)
    simp only [cumsum64, List.length_cons, a, List.pairwise_cons, List.mem_cons, true_and]
    refine ⟨?_, fun y hy => (b y hy).1, d⟩
    rintro y (rfl | hy)
    · exact ⟨h1, f64_idem _⟩
    · exact ⟨h1.trans (b y hy).1, (b y hy).2⟩

/-- Bound on `slope * total`, rounded. -/
theorem decay_product (lw T : ℚ) (hT : 0 < T) (hTf : f64 T = T) (hl : f64 lw = lw) (h1 : -1 < lw) (h2 : lw ≤ 1) :
    0 ≤ decaySlope64 lw T ∧ f64 (decaySlope64 lw T * T) ≤ 2 ^ 53 ∧ (0 ≤ lw → f64 (decaySlope64 lw T * T) ≤ 1) ∧
    (lw < 0 → f64 (f64 (lw + 1) * T) ≠ 0) := by
  unfold decaySlope64
  rcases le_or_gt 0 lw with h0 | h0
  · rw [if_pos h0]
    have a0 : 0 ≤ f64 (1 - lw) := f64_nonneg (by linarith)
    have a1 : f64 (1 - lw) ≤ 1 := by
      have := f64_mono (show 1 - lw ≤ 1 by linarith)
      rwa [f64_one_val] at this
    generalize f64 (1 - lw) = a at *
    have hq : 0 ≤ a / T := div_nonneg a0 hT.le
    have hs := (f64_factor hq).2
    have hx : f64 (a / T) * T ≤ 1 + 1 / 2 ^ 53 := by
      calc f64 (a / T) * T ≤ a / T * (1 + 1 / 2 ^ 53) * T := mul_le_mul_of_nonneg_right hs hT.le
        _ = a * (1 + 1 / 2 ^ 53) := by field_simp
        _ ≤ 1 * (1 + 1 / 2 ^ 53) := mul_le_mul_of_nonneg_right a1 (by norm_num)
        _ = _ := one_mul _
    have := f64_mono hx
    rw [f64_near_one.2] at this
    exact ⟨f64_nonneg hq, this.trans (by norm_num), fun _ => this, fun h => absurd h (by linarith)⟩
  · rw [if_neg (by linarith)]
    have hb : f64 (lw + 1) = 1 / 2 ^ 53 ∨ 1 / 2 ^ 52 ≤ f64 (lw + 1) := by
      rcases le_or_gt (-1 / 2) lw with hc | hc
      · right
        have := f64_mono (show 1 / 2 ≤ lw + 1 by linarith)
        rw [f64_half] at this
        refine le_trans ?_ this
        norm_num
      · have hy : f64 (-lw) = -lw := by rw [f64_neg, hl]
        have e1 := f64_one_sub_exact (-lw) hy (by linarith) (le_trans (show -lw ≤ 1 by linarith) (by norm_num))
        have hr := hy
        unfold f64 at hr
        rw [rndBits_binade 53 (-lw) (-1) (by rw [zpow_neg_one]; linarith) (by norm_num; linarith)] at hr
        unfold rndAt at hr
        have e0 : (-1 : Int) - (((53 : Nat) : Int) - 1) = -53 := by norm_num
        rw [e0] at hr
        generalize rint (-lw / 2 ^ (-53 : Int)) = m at *
        have e2 : lw + 1 = 1 - -lw := by ring
        rw [e2, e1, ← hr]
        have e3 : (2 : ℚ) ^ (-53 : Int) = 1 / 2 ^ 53 := by norm_num
        rw [e3] at hr ⊢
        have hm : (m : ℚ) < 2 ^ 53 := by
          have : (m : ℚ) * (1 / 2 ^ 53) < 1 := by rw [hr]; linarith
          rw [mul_one_div, div_lt_one (by positivity)] at this
          exact this
        have hmi : m < 2 ^ 53 := by exact_mod_cast hm
        rcases (show m = 2 ^ 53 - 1 ∨ m ≤ 2 ^ 53 - 2 by omega) with hm1 | hm1
        · left
          rw [hm1]
          norm_num
        · right
          have : (m : ℚ) ≤ 2 ^ 53 - 2 := by exact_mod_cast hm1
          have h3 : (m : ℚ) * (1 / 2 ^ 53) ≤ (2 ^ 53 - 2) * (1 / 2 ^ 53) := mul_le_mul_of_nonneg_right this (by norm_num)
          have h4 : (2 ^ 53 - 2 : ℚ) * (1 / 2 ^ 53) = 1 - 1 / 2 ^ 52 := by norm_num
          linarith
    have bpos : 0 < f64 (lw + 1) := f64_pos (by linarith)
    generalize f64 (lw + 1) = b at *
    have ppos : 0 < f64 (b * T) := f64_pos (mul_pos bpos hT)
    refine ⟨f64_nonneg (by positivity), ?_, fun h => absurd h (by linarith), fun _ => ppos.ne'⟩
    rcases hb with hb | hb
    · have e : b * T = T * 2 ^ (-53 : Int) := by
        rw [hb, mul_comm]
        norm_num
      have e3 : (2 : ℚ) ^ (-53 : Int) = 1 / 2 ^ 53 := by norm_num
      rw [e, f64_scale T _ hTf, e3]
      have hq : (0 : ℚ) ≤ 1 / (T * (1 / 2 ^ 53)) := by positivity
      have hx : f64 (1 / (T * (1 / 2 ^ 53))) * T ≤ 2 ^ 53 + 1 := by
        calc f64 (1 / (T * (1 / 2 ^ 53))) * T ≤ 1 / (T * (1 / 2 ^ 53)) * (1 + 1 / 2 ^ 53) * T :=
              mul_le_mul_of_nonneg_right (f64_factor hq).2 hT.le
          _ = 2 ^ 53 + 1 := by field_simp
      refine (f64_mono hx).trans (le_of_eq ?_)
      decide +kernel
    · have hp := (f64_factor (mul_pos bpos hT).le).1
      have hs := (f64_factor (show (0 : ℚ) ≤ 1 / f64 (b * T) by positivity)).2
      generalize f64 (b * T) = p at *
      have h1p : 1 / p * T ≤ 2 ^ 52 * (1 / (1 - 1 / 2 ^ 53)) := by
        have : 1 / 2 ^ 52 * T * (1 - 1 / 2 ^ 53) ≤ p := by
          refine le_trans ?_ hp
          have : 1 / 2 ^ 52 * T ≤ b * T := mul_le_mul_of_nonneg_right hb hT.le
          exact mul_le_mul_of_nonneg_right this (by norm_num)
        rw [one_div, inv_mul_le_iff₀ ppos]
        calc T = (1 / 2 ^ 52 * T * (1 - 1 / 2 ^ 53)) * (2 ^ 52 * (1 / (1 - 1 / 2 ^ 53))) := by norm_num; ring
          _ ≤ p * _ := mul_le_mul_of_nonneg_right this (by norm_num)
      have hx : f64 (1 / p) * T ≤ ((2 ^ 53 : Int) : ℚ) := by
        calc f64 (1 / p) * T ≤ 1 / p * (1 + 1 / 2 ^ 53) * T := mul_le_mul_of_nonneg_right hs hT.le
          _ = 1 / p * T * (1 + 1 / 2 ^ 53) := by ring
          _ ≤ 2 ^ 52 * (1 / (1 - 1 / 2 ^ 53)) * (1 + 1 / 2 ^ 53) := mul_le_mul_of_nonneg_right h1p (by norm_num)
          _ ≤ _ := by norm_num
      have := f64_le_of (by norm_num) hx
      exact_mod_cast this

/-- **C98.** Time decay in float64, for every float64 `last_weight` in `(-1, 1]` and nonnegative uniqueness weights with a positive
sum: the newest observation gets exactly `1.0`, the weights never decrease from oldest to newest, and all lie in `[0, 1]`. -/
theorem C98_time_decay (u : List ℚ) (lw : ℚ) (hu : ∀ x ∈ u, 0 ≤ x) (hl : f64 lw = lw) (h1 : -1 < lw) (h2 : lw ≤ 1)
    (hT : 0 < sum64 u) :
    ∃ w, timeDecay64 u lw = .ok w ∧ w.length = u.length ∧ w.getLast? = some 1 ∧ w.Pairwise (· ≤ ·) ∧ ∀ x ∈ w, 0 ≤ x ∧ x ≤ 1 := by
  obtain ⟨c1, c2, c3⟩ := cumsum64_facts u hu 0 le_rfl f64_zero
  have hlast : ∀ (u : List ℚ) (c d : ℚ), (cumsum64 c u).getLastD d = if u = [] then d else u.foldl (fun s v => f64 (s + v)) c := by
    intro u
    induction u with
    | nil => intro c d; simp [cumsum64]
    | cons x u ih =>
      intro c d
      simp only [cumsum64, List.getLastD_cons, ih, List.foldl_cons]
      by_cases hu : u = []
      · simp [hu]
      · simp [hu]
  have hne : u ≠ [] := by
    rintro rfl
    simp [sum64] at hT
  have hlastT : (cumsum64 0 u).getLastD 0 = sum64 u := by rw [hlast, if_neg hne]; rfl
  have hTf : f64 (sum64 u) = sum64 u := sum64_idem u
  obtain ⟨d1, d2, d3, d4⟩ := decay_product lw (sum64 u) hT hTf hl h1 h2
  have hcne : cumsum64 0 u ≠ [] := by
    intro h
    rw [h] at c1
    exact hne (List.length_eq_zero_iff.mp c1.symm)
  have hgl : (cumsum64 0 u).getLast? = some (sum64 u) := by
    rw [List.getLast?_eq_some_getLast hcne]
    rw [List.getLastD_eq_getLast?, List.getLast?_eq_some_getLast hcne] at hlastT
    simpa using hlastT
  have hx0 : 0 ≤ f64 (decaySlope64 lw (sum64 u) * sum64 u) := f64_nonneg (mul_nonneg d1 hT.le)
  have hone := f64_one_sub_add _ (f64_idem (decaySlope64 lw (sum64 u) * sum64 u)) hx0 d2
  have hmono : ∀ a b : ℚ, a ≤ b →
      f64 (f64 (1 - f64 (decaySlope64 lw (sum64 u) * sum64 u)) + f64 (decaySlope64 lw (sum64 u) * a)) ≤
      f64 (f64 (1 - f64 (decaySlope64 lw (sum64 u) * sum64 u)) + f64 (decaySlope64 lw (sum64 u) * b)) := by
    intro a b hab
    apply f64_mono
    have := f64_mono (mul_le_mul_of_nonneg_left hab d1)
    linarith
  have hmax : ∀ c ∈ cumsum64 0 u, c ≤ sum64 u := by
    intro c hc
    have := List.getLast?_eq_some_iff.mp hgl
    obtain ⟨ys, hys⟩ := this
    rw [hys] at c3 hc
    rcases List.mem_append.mp hc with h | h
    · exact (List.pairwise_append.mp c3).2.2 c h _ (by simp)
    · simp at h
      exact h.le
  unfold timeDecay64
  rw [if_neg (by rw [not_not]; exact ⟨h1.le, h2⟩)]
  simp only [hlastT]
  rw [if_neg hT.ne', if_neg (fun h => d4 h.1 h.2)]
  refine ⟨_, rfl, ?_⟩
  by_cases h0 : lw < 0
  · simp only [if_pos h0, List.map_map]
    refine ⟨by simp [c1], ?_, ?_, ?_⟩
    · rw [List.getLast?_map, hgl]
      simp only [Option.map_some, Function.comp_def, hone]
      norm_num
    · rw [List.pairwise_map]
      exact c3.imp (fun {a b} hab => max_le_max (hmono a b hab) le_rfl)
    · intro x hx
      obtain ⟨c, hc, rfl⟩ := List.mem_map.mp hx
      refine ⟨le_max_right _ _, max_le ?_ zero_le_one⟩
      have := hmono c _ (hmax c hc)
      rwa [hone] at this
  · simp only [if_neg h0]
    refine ⟨by simp [c1], ?_, ?_, ?_⟩
    · rw [List.getLast?_map, hgl]
      simp only [Option.map_some, hone]
    · rw [List.pairwise_map]
      exact c3.imp (fun {a b} hab => hmono a b hab)
    · intro x hx
      obtain ⟨c, hc, rfl⟩ := List.mem_map.mp hx
      constructor
      · apply f64_nonneg
        apply add_nonneg
        · apply f64_nonneg
          have := d3 (not_lt.mp h0)
          linarith
        · exact f64_nonneg (mul_nonneg d1 (c2 c hc).1)
      · have := hmono c _ (hmax c hc)
        rwa [hone] at this

example : (timeDecay64 [f64 (1/10), f64 (1/5), f64 (3/10)] (f64 (1/2))).toOption.map (·.getLast?) = some (some 1) ∧
    (timeDecay64 [1, 1, 1, 1] (-1/2)).toOption = some [0, 0, 1/2, 1] := by decide +kernel

/-! ### Normalisation -/

/-- **C98.** Return attribution, normalised in float64: the weights returned add up to the number of events within
`(1 + 2^-53)^2 / (1 - 2^-53)^depth` and `(1 - 2^-53)^2 / (1 + 2^-53)^depth`, and their order is kept. -/
theorem C98_normalised (t : SumTree) (h : ∀ x ∈ t.leaves, 0 ≤ x) (hpos : ∃ x ∈ t.leaves, 0 < x) :
    ∃ w, normalise64 t = .ok w ∧ w.length = t.leaves.length ∧ (∀ x ∈ w, 0 ≤ x) ∧
      (t.leaves.length : ℚ) * ((1 - 1 / 2 ^ 53) ^ 2 / (1 + 1 / 2 ^ 53) ^ t.depth) ≤ w.sum ∧
      w.sum ≤ (t.leaves.length : ℚ) * ((1 + 1 / 2 ^ 53) ^ 2 / (1 - 1 / 2 ^ 53) ^ t.depth) ∧
      ∀ (i j : Nat) (hi : i < t.leaves.length) (hj : j < t.leaves.length), t.leaves[i] ≤ t.leaves[j] → w[i]? ≤ w[j]? := by
  have hany := C98_sum_any_order t h
  have hS : 0 < t.leaves.sum := by
    obtain ⟨x, hx, hx0⟩ := hpos
    exact lt_of_lt_of_le hx0 (List.single_le_sum h x hx)
  have hE : 0 < t.eval64 := lt_of_lt_of_le (mul_pos hS (pow_pos (by norm_num) _)) hany.1
  unfold normalise64
  rw [if_neg (by linarith)]
  have hN : 0 ≤ (t.leaves.length : ℚ) / t.eval64 := div_nonneg (by positivity) hE.le
  have hff := f64_factor hN
  have hf0 := f64_nonneg hN
  have hmul : ∀ l : List ℚ, (∀ x ∈ l, 0 ≤ x) → ∀ c : ℚ, 0 ≤ c → l.sum * c * (1 - 1 / 2 ^ 53) ≤ (l.map (fun x => f64 (x * c))).sum ∧
      (l.map (fun x => f64 (x * c))).sum ≤ l.sum * c * (1 + 1 / 2 ^ 53) := by
    intro l hl c hc
    induction l with
    | nil => simp
    | cons x l ih =>
      have := ih (fun y hy => hl y (by simp [hy]))
      have hx := f64_factor (mul_nonneg (hl x (by simp)) hc)
      simp only [List.map_cons, List.sum_cons]
      constructor
      · have e : (x + l.sum) * c * (1 - 1 / 2 ^ 53) = x * c * (1 - 1 / 2 ^ 53) + l.sum * c * (1 - 1 / 2 ^ 53) := by ring
        linarith
      · have e : (x + l.sum) * c * (1 + 1 / 2 ^ 53) = x * c * (1 + 1 / 2 ^ 53) + l.sum * c * (1 + 1 / 2 ^ 53) := by ring
        linarith
  obtain ⟨m1, m2⟩ := hmul t.leaves h _ hf0
  refine ⟨_, rfl, by simp, ?_, ?_, ?_, ?_⟩
  · intro x hx
    obtain ⟨y, hy, rfl⟩ := List.mem_map.mp hx
    exact f64_nonneg (mul_nonneg (h y hy) hf0)
  · refine le_trans ?_ m1
    have u0 : (0 : ℚ) < 1 - 1 / 2 ^ 53 := by norm_num
    have v0 : (0 : ℚ) < 1 + 1 / 2 ^ 53 := by norm_num
    generalize (1 - 1 / 2 ^ 53 : ℚ) = a at *
    generalize (1 + 1 / 2 ^ 53 : ℚ) = b at *
    generalize (t.leaves.length : ℚ) = N at *
    have hN' : 0 ≤ N := by
      by_contra hneg
      have := div_neg_of_neg_of_pos (not_le.mp hneg) hE
      linarith
    calc N * (a ^ 2 / b ^ t.depth) = (t.leaves.sum * (N / (t.leaves.sum * b ^ t.depth) * a)) * a := by field_simp
      _ ≤ (t.leaves.sum * (N / t.eval64 * a)) * a := by
        have := div_le_div_of_nonneg_left hN' hE hany.2
        gcongr
      _ ≤ (t.leaves.sum * f64 (N / t.eval64)) * a := by
        have := hff.1
        gcongr
  · refine le_trans m2 ?_
    have u0 : (0 : ℚ) < 1 - 1 / 2 ^ 53 := by norm_num
    have v0 : (0 : ℚ) < 1 + 1 / 2 ^ 53 := by norm_num
    generalize (1 - 1 / 2 ^ 53 : ℚ) = a at *
    generalize (1 + 1 / 2 ^ 53 : ℚ) = b at *
    generalize (t.leaves.length : ℚ) = N at *
    have hN' : 0 ≤ N := by
      by_contra hneg
      have := div_neg_of_neg_of_pos (not_le.mp hneg) hE
      linarith
    calc t.leaves.sum * f64 (N / t.eval64) * b ≤ t.leaves.sum * (N / t.eval64 * b) * b := by
          have := hff.2
          gcongr
      _ ≤ t.leaves.sum * (N / (t.leaves.sum * a ^ t.depth) * b) * b := by
        have := div_le_div_of_nonneg_left hN' (mul_pos hS (pow_pos u0 t.depth)) hany.1
        gcongr
      _ = N * (b ^ 2 / a ^ t.depth) := by field_simp
  · intro i j hi hj hij
    simp only [List.getElem?_map, List.getElem?_eq_getElem hi, List.getElem?_eq_getElem hj, Option.map_some]
    exact Option.some_le_some.mpr (f64_mono (mul_le_mul_of_nonneg_right hij hf0))

example : (normalise64 (SumTree.ofList [f64 (1/10), f64 (1/5), f64 (7/10)])).toOption.map (·.length) = some 3 ∧
    (normalise64 (SumTree.ofList [0, 0])).toOption = none := by decide +kernel

end FinML
