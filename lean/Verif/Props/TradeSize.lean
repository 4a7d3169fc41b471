/-
C59: trade-size features of a bar.
-/
import Verif.Model.TradeSize
import Verif.Lemmas.Median
import Verif.Props.Footprint
import Mathlib.Data.List.GetD

set_option linter.unusedSectionVars false

namespace FinML

variable {K : Type} [Field K] [LinearOrder K] [IsStrictOrderedRing K]

/-! ### Which trades -/

theorem barSlice_get (amounts : List K) (a b : Int) (ha : -1 ≤ a) (hb : b < amounts.length) (k : Nat)
    (hk : a + 1 + k ≤ b) : (barSlice amounts a b)[k]? = amounts[(a + 1 + k).toNat]? := by
  unfold barSlice
  rw [List.getElem?_take_of_lt (by omega), List.getElem?_drop]
  congr 1
  omega

theorem barSlice_length (amounts : List K) (a b : Int) (ha : -1 ≤ a) (hb : b < amounts.length) :
    (barSlice amounts a b).length = (b - a).toNat := by
  unfold barSlice
  rw [List.length_take, List.length_drop]
  omega

/-- Every bar's row is computed from exactly the trades after the previous close up to its own close,
with the typical size given for that bar. -/
theorem C59_rows (log1p : K → K) (amounts : List K) (theta : List (Option K)) (closes : List Int) (m : K)
    (h : theta.length + 1 = closes.length) :
    ∃ rows, compBarTradeSize log1p amounts theta closes m = .ok rows ∧ rows.length = theta.length ∧
      ∀ (i : Nat) (t : Option K) (a b : Int), theta[i]? = some t → closes[i]? = some a → closes[i + 1]? = some b →
        -1 ≤ a → b < amounts.length →
        ∃ l : List K, l.length = (b - a).toNat ∧
          (∀ k : Nat, a + 1 + k ≤ b → l[k]? = amounts[(a + 1 + k).toNat]?) ∧
          rows[i]? = some (sizeBar log1p m t l) := by
  refine ⟨_, by unfold compBarTradeSize; rw [if_neg (by omega)], ?_, ?_⟩
  · simp [closePairs]; omega
  · intro i t a b ht ha hb h1 h2
    refine ⟨barSlice amounts a b, barSlice_length amounts a b h1 h2, fun k hk => barSlice_get amounts a b h1 h2 k hk, ?_⟩
    have hz : (closePairs closes)[i]? = some (a, b) := by
      unfold closePairs
      rw [List.getElem?_zip_eq_some]
      exact ⟨ha, by rw [List.getElem?_tail]; exact hb⟩
    rw [List.getElem?_zipWith, ht, hz]

example : ([some 2, none] : List (Option ℚ)).length + 1 = ([-1, 1, 2] : List Int).length ∧
    (compBarTradeSize id [1, 3, 2] ([some 2, none] : List (Option ℚ)) [-1, 1, 2] 1).isOk = true := by decide +kernel

/-- A typical-size array of another length is rejected. -/
theorem C59_length_checked (log1p : K → K) (amounts : List K) (theta : List (Option K)) (closes : List Int) (m : K)
    (h : theta.length + 1 ≠ closes.length) :
    ∃ e, compBarTradeSize log1p amounts theta closes m = .error e :=
  ⟨_, by unfold compBarTradeSize; rw [if_pos (by omega)]⟩

example : ([some 2] : List (Option ℚ)).length + 1 ≠ ([-1, 1, 2] : List Int).length := by decide

/-! ### Relative sizes -/

/-- For a usable threshold the mean and the 95th percentile are reported relative to
`theta * theta_mult`. -/
theorem C59_relative_sizes (log1p : K → K) (m th : K) (hth : th ≠ 0) (hm : m ≠ 0) (l : List K) (hl : l ≠ []) :
    (sizeBar log1p m (some th) l).meanRel = some (log1p (l.sum / l.length / (th * m))) ∧
    (sizeBar log1p m (some th) l).size95Rel = some (log1p (percentile95 l / (th * m))) := by
  have hne : ¬(l = [] ∨ some th = some (0 : K)) := by
    rintro (h | h)
    · exact hl h
    · exact hth (Option.some.inj h)
  have ht : th * m ≠ 0 := mul_ne_zero hth hm
  unfold sizeBar
  rw [if_neg hne]
  unfold sizeRow relSize
  simp only [Option.map_some]
  split <;> simp [ht]

example : (2 : ℚ) ≠ 0 ∧ (5 : ℚ) ≠ 0 ∧ (sizeBar id 5 (some 2) [10, (20 : ℚ)]).meanRel = some (3 / 2) := by decide +kernel

/-- An empty bar or a zero typical size gives a row of missing values. -/
theorem C59_missing_rows (log1p : K → K) (m : K) (theta : Option K) (l : List K) (h : l = [] ∨ theta = some 0) :
    sizeBar log1p m theta l = ⟨none, none, none, none⟩ := by
  unfold sizeBar
  rw [if_pos h]

example : sizeBar id 5 (some 0) [10, (20 : ℚ)] = ⟨none, none, none, none⟩ ∧ sizeBar id 5 (some 2) ([] : List ℚ) = ⟨none, none, none, none⟩ := by
  decide +kernel

/-- The 95th percentile interpolates between the two neighbouring order statistics, so it lies between
them; at least 95 percent of the way up the sorted sizes. -/
theorem C59_percentile (l : List K) (hl : l ≠ []) :
    ∃ lo hi, IsOrderStat l ((l.length - 1) * 95 / 100) lo ∧ IsOrderStat l (((l.length - 1) * 95 + 99) / 100) hi ∧
      lo ≤ percentile95 l ∧ percentile95 l ≤ hi ∧
      percentile95 l = lo + (hi - lo) * ((((l.length - 1) * 95 % 100 : Nat) : K) / 100) := by
  have hpos : 0 < l.length := List.length_pos_of_ne_nil hl
  have hperm := List.perm_insertionSort (· ≤ ·) l
  have hlen : (l.insertionSort (· ≤ ·)).length = l.length := hperm.length_eq
  have hsorted := insertionSort_sorted l
  have hi1 : (l.length - 1) * 95 / 100 < (l.insertionSort (· ≤ ·)).length := by rw [hlen]; omega
  have hi2 : ((l.length - 1) * 95 + 99) / 100 < (l.insertionSort (· ≤ ·)).length := by rw [hlen]; omega
  have hle : (l.insertionSort (· ≤ ·))[(l.length - 1) * 95 / 100] ≤
      (l.insertionSort (· ≤ ·))[((l.length - 1) * 95 + 99) / 100] := by
    rcases Nat.lt_or_eq_of_le (show (l.length - 1) * 95 / 100 ≤ ((l.length - 1) * 95 + 99) / 100 by omega) with h | h
    · exact List.pairwise_iff_getElem.mp hsorted _ _ hi1 hi2 h
    · simp only [← h]; exact le_refl _
  have hval : percentile95 l = (l.insertionSort (· ≤ ·))[(l.length - 1) * 95 / 100] +
      ((l.insertionSort (· ≤ ·))[((l.length - 1) * 95 + 99) / 100] - (l.insertionSort (· ≤ ·))[(l.length - 1) * 95 / 100])
        * ((((l.length - 1) * 95 % 100 : Nat) : K) / 100) := by
    unfold percentile95
    simp only []
    rw [List.getD_eq_getElem _ _ hi1, List.getD_eq_getElem _ _ hi2]
    ring
  have hf0 : (0 : K) ≤ (((l.length - 1) * 95 % 100 : Nat) : K) / 100 := by positivity
  have hf1 : (((l.length - 1) * 95 % 100 : Nat) : K) / 100 ≤ 1 := by
    rw [div_le_one (by norm_num)]
    exact_mod_cast (by omega : (l.length - 1) * 95 % 100 ≤ 100)
  refine ⟨_, _, sorted_orderStat l _ hperm hsorted _ hi1, sorted_orderStat l _ hperm hsorted _ hi2, ?_, ?_, hval⟩
  · rw [hval]; nlinarith
  · rw [hval]; nlinarith

example : ([3, 1, 2] : List ℚ) ≠ [] ∧ percentile95 ([3, 1, 2] : List ℚ) = 29 / 10 := by decide +kernel

/-! ### Share of block trades -/

theorem blockVolume_some (t : K) (l : List K) :
    blockVolume (some t) l = (l.filter (fun a => decide (t < a))).sum := by
  unfold blockVolume
  simp only []
  have : ∀ b, l.foldl (fun b a => if a > t then b + a else b) b = b + (l.filter (fun a => decide (t < a))).sum := by
    induction l with
    | nil => intro b; simp
    | cons a l ih =>
      intro b
      rw [List.foldl_cons, ih]
      by_cases h : t < a
      · rw [if_pos h, List.filter_cons_of_pos (by simpa using h), List.sum_cons]; ring
      · rw [if_neg h, List.filter_cons_of_neg (by simpa using h)]
  rw [this, zero_add]

theorem sizeBar_pct (log1p : K → K) (m th : K) (hth : th ≠ 0) (l : List K) (hs : l.sum ≠ 0) :
    (sizeBar log1p m (some th) l).pctBlock = some ((l.filter (fun a => decide (th * m < a))).sum / l.sum) := by
  have hl : l ≠ [] := by rintro rfl; simp at hs
  unfold sizeBar
  rw [if_neg (by rintro (h | h); exacts [hl h, hth (Option.some.inj h)])]
  unfold sizeRow
  simp only [if_neg hs, Option.map_some, blockVolume_some]

theorem sum_filter_add (p : K → Bool) (l : List K) :
    (l.filter p).sum + (l.filter (fun a => !p a)).sum = l.sum := by
  induction l with
  | nil => simp
  | cons a l ih =>
    by_cases h : p a
    · rw [List.filter_cons_of_pos h, List.filter_cons_of_neg (by simp [h]), List.sum_cons, List.sum_cons, ← ih]; ring
    · rw [List.filter_cons_of_neg h, List.filter_cons_of_pos (by simp [h]), List.sum_cons, List.sum_cons, ← ih]; ring

theorem sum_nonneg_eq_zero_iff (l : List K) (h : ∀ a ∈ l, 0 ≤ a) : l.sum = 0 ↔ ∀ a ∈ l, a = 0 := by
  induction l with
  | nil => simp
  | cons a l ih =>
    have h1 := h a (by simp)
    have h2 : 0 ≤ l.sum := List.sum_nonneg (fun v hv => h v (by simp [hv]))
    rw [List.sum_cons, List.forall_mem_cons, ← ih (fun v hv => h v (by simp [hv]))]
    constructor
    · intro e; constructor <;> linarith
    · rintro ⟨e1, e2⟩; rw [e1, e2, add_zero]

/-- The block share is the volume of the trades strictly larger than `theta * theta_mult` over the
volume of the bar; it lies in `[0, 1]`, is 0 exactly when no trade of positive size is that large and 1
exactly when every trade of positive size is. -/
theorem C59_block_share (log1p : K → K) (m th : K) (hth : th ≠ 0) (l : List K) (hnn : ∀ a ∈ l, 0 ≤ a)
    (hs : l.sum ≠ 0) :
    ∃ p, (sizeBar log1p m (some th) l).pctBlock = some p ∧
      p * l.sum = (l.filter (fun a => decide (th * m < a))).sum ∧ 0 ≤ p ∧ p ≤ 1 ∧
      (p = 0 ↔ ∀ a ∈ l, 0 < a → a ≤ th * m) ∧ (p = 1 ↔ ∀ a ∈ l, 0 < a → th * m < a) := by
  have hpos : 0 < l.sum := lt_of_le_of_ne (List.sum_nonneg hnn) (Ne.symm hs)
  have hadd := sum_filter_add (fun a => decide (th * m < a)) l
  have h1 : 0 ≤ (l.filter (fun a => decide (th * m < a))).sum :=
    List.sum_nonneg (fun a ha => hnn a (List.mem_filter.mp ha).1)
  have h2 : 0 ≤ (l.filter (fun a => !decide (th * m < a))).sum :=
    List.sum_nonneg (fun a ha => hnn a (List.mem_filter.mp ha).1)
  refine ⟨_, sizeBar_pct log1p m th hth l hs, by field_simp, div_nonneg h1 hpos.le, ?_, ?_, ?_⟩
  · rw [div_le_one hpos]; linarith
  · rw [div_eq_zero_iff, or_iff_left hs,
      sum_nonneg_eq_zero_iff _ (fun a ha => hnn a (List.mem_filter.mp ha).1)]
    constructor
    · intro h a ha hap
      by_contra hc
      have := h a (List.mem_filter.mpr ⟨ha, by simpa using lt_of_not_ge hc⟩)
      exact absurd this (ne_of_gt hap)
    · intro h a ha
      obtain ⟨ha1, ha2⟩ := List.mem_filter.mp ha
      by_contra hc
      have := h a ha1 (lt_of_le_of_ne (hnn a ha1) (Ne.symm hc))
      exact absurd (of_decide_eq_true ha2) (not_lt.mpr this)
  · rw [div_eq_one_iff_eq hs]
    have : (l.filter (fun a => decide (th * m < a))).sum = l.sum ↔
        (l.filter (fun a => !decide (th * m < a))).sum = 0 := by
      constructor <;> intro h <;> linarith
    rw [this, sum_nonneg_eq_zero_iff _ (fun a ha => hnn a (List.mem_filter.mp ha).1)]
    constructor
    · intro h a ha hap
      by_contra hc
      have := h a (List.mem_filter.mpr ⟨ha, by simpa using hc⟩)
      exact absurd this (ne_of_gt hap)
    · intro h a ha
      obtain ⟨ha1, ha2⟩ := List.mem_filter.mp ha
      by_contra hc
      have := h a ha1 (lt_of_le_of_ne (hnn a ha1) (Ne.symm hc))
      simp [this] at ha2

example : (∀ a ∈ ([1, 3, 2] : List ℚ), 0 ≤ a) ∧ ([1, 3, 2] : List ℚ).sum ≠ 0 ∧ (sizeBar id 1 (some 2) ([1, 3, 2] : List ℚ)).pctBlock = some (1 / 2) := by
  decide +kernel

/-! ### Concentration -/

theorem sizeBar_gini (log1p : K → K) (m th : K) (hth : th ≠ 0) (l : List K) (hs : l.sum ≠ 0) :
    (sizeBar log1p m (some th) l).gini = some (1 - (l.map (fun a => (a / l.sum) ^ 2)).sum) := by
  have hl : l ≠ [] := by rintro rfl; simp at hs
  unfold sizeBar
  rw [if_neg (by rintro (h | h); exacts [hl h, hth (Option.some.inj h)])]
  unfold sizeRow
  simp only [if_neg hs]
  split
  · rename_i h1
    obtain ⟨a, rfl⟩ := List.length_eq_one_iff.mp h1
    simp only [List.sum_cons, List.sum_nil, add_zero] at hs
    simp [hs]
  · rfl

/-- The concentration measure is one minus the sum of squared volume shares (the special case of a
single trade agrees with the formula).  It lies in `[0, 1 - 1/n]`; it is 0 exactly when a single trade has
all the volume and `1 - 1/n` exactly when all trades have the same size. -/
theorem C59_gini (log1p : K → K) (m th : K) (hth : th ≠ 0) (l : List K) (hnn : ∀ a ∈ l, 0 ≤ a) (hs : l.sum ≠ 0) :
    ∃ g, (sizeBar log1p m (some th) l).gini = some g ∧ g = 1 - (l.map (fun a => (a / l.sum) ^ 2)).sum ∧
      0 ≤ g ∧ g ≤ 1 - 1 / (l.length : K) ∧
      (g = 0 ↔ ∃ a ∈ l, a = l.sum) ∧ (g = 1 - 1 / (l.length : K) ↔ ∀ a ∈ l, a = l.sum / l.length) := by
  have hl : l ≠ [] := by rintro rfl; simp at hs
  have hpos : 0 < l.sum := lt_of_le_of_ne (List.sum_nonneg hnn) (Ne.symm hs)
  have hn : (0 : K) < l.length := by exact_mod_cast List.length_pos_of_ne_nil hl
  -- first identity: 1 - Σ p² = Σ p (1 - p)
  have hp : (l.map (fun v => v / l.sum)).sum = 1 := by rw [sum_map_div_const]; exact div_self hs
  have hid1 : 1 - (l.map (fun a => (a / l.sum) ^ 2)).sum = (l.map (fun a => a / l.sum * (1 - a / l.sum))).sum := by
    have : ∀ k : List K, (k.map (fun a => a / l.sum * (1 - a / l.sum))).sum =
        (k.map (fun v => v / l.sum)).sum - (k.map (fun a => (a / l.sum) ^ 2)).sum := by
      intro k
      induction k with
      | nil => simp
      | cons a k ih => simp only [List.map_cons, List.sum_cons, ih]; ring
    rw [this, hp]
  -- second identity
  have hid2 : 1 - (l.map (fun a => (a / l.sum) ^ 2)).sum =
      1 - 1 / (l.length : K) - (l.map (fun a => (a / l.sum - 1 / (l.length : K)) ^ 2)).sum := by
    have hcs := sum_sub_sq (l.map (fun v => v / l.sum)) (1 / (l.length : K))
    rw [hp, List.map_map, List.map_map, List.length_map] at hcs
    simp only [Function.comp_def] at hcs
    rw [hcs]
    field_simp
    ring
  have hle : ∀ a ∈ l, a ≤ l.sum := fun a ha => List.single_le_sum hnn a ha
  have hterm : ∀ x ∈ l.map (fun a => a / l.sum * (1 - a / l.sum)), 0 ≤ x := by
    intro x hx
    obtain ⟨a, ha, rfl⟩ := List.mem_map.mp hx
    have h1 : 0 ≤ a / l.sum := div_nonneg (hnn a ha) hpos.le
    have h2 : a / l.sum ≤ 1 := by rw [div_le_one hpos]; exact hle a ha
    exact mul_nonneg h1 (by linarith)
  have hterm2 : ∀ x ∈ l.map (fun a => (a / l.sum - 1 / (l.length : K)) ^ 2), 0 ≤ x := by
    intro x hx
    obtain ⟨a, ha, rfl⟩ := List.mem_map.mp hx
    exact sq_nonneg _
  refine ⟨_, sizeBar_gini log1p m th hth l hs, rfl, ?_, ?_, ?_, ?_⟩
  · rw [hid1]; exact List.sum_nonneg hterm
  · rw [hid2]; have := List.sum_nonneg hterm2; linarith
  · rw [hid1, sum_nonneg_eq_zero_iff _ hterm]
    constructor
    · intro h
      by_contra hc
      have hz : ∀ a ∈ l, a = 0 := by
        intro a ha
        have h1 := h _ (List.mem_map_of_mem ha)
        rcases mul_eq_zero.mp h1 with h2 | h2
        · rcases div_eq_zero_iff.mp h2 with h3 | h3
          · exact h3
          · exact absurd h3 hs
        · exact absurd ⟨a, ha, by
            have h3 : a / l.sum = 1 := by linarith
            rwa [div_eq_one_iff_eq hs] at h3⟩ hc
      exact hs ((sum_nonneg_eq_zero_iff l hnn).mpr hz)
    · rintro ⟨a, ha, hae⟩ x hx
      obtain ⟨b, hb, rfl⟩ := List.mem_map.mp hx
      obtain ⟨l₁, l₂, rfl⟩ := List.append_of_mem ha
      have hrest : ∀ c ∈ l₁ ++ l₂, c = 0 := by
        rw [← sum_nonneg_eq_zero_iff _ (fun c hc => hnn c (by
          rcases List.mem_append.mp hc with h | h <;> simp [h]))]
        rw [List.sum_append] at hae ⊢
        rw [List.sum_cons] at hae
        linarith
      have hb' : b = a ∨ b ∈ l₁ ++ l₂ := by
        rcases List.mem_append.mp hb with h | h
        · exact Or.inr (List.mem_append.mpr (Or.inl h))
        · rcases List.mem_cons.mp h with h | h
          · exact Or.inl h
          · exact Or.inr (List.mem_append.mpr (Or.inr h))
      rcases hb' with rfl | h
      · rw [← hae, div_self (hae ▸ hs)]; ring
      · rw [hrest b h]; ring
  · rw [hid2]
    have : (1 - 1 / (l.length : K) - (l.map (fun a => (a / l.sum - 1 / (l.length : K)) ^ 2)).sum = 1 - 1 / (l.length : K)) ↔
        (l.map (fun a => (a / l.sum - 1 / (l.length : K)) ^ 2)).sum = 0 := by
      constructor <;> intro h <;> linarith
    rw [this, sum_nonneg_eq_zero_iff _ hterm2]
    constructor
    · intro h a ha
      have h1 := h _ (List.mem_map_of_mem ha)
      have h2 : a / l.sum - 1 / (l.length : K) = 0 := by simpa using h1
      have h3 : a / l.sum = 1 / (l.length : K) := by linarith
      rw [div_eq_iff hs] at h3
      rw [h3]; ring
    · intro h x hx
      obtain ⟨a, ha, rfl⟩ := List.mem_map.mp hx
      have h1 : a / l.sum - 1 / (l.length : K) = 0 := by
        conv_lhs => rw [h a ha]
        field_simp
        ring
      rw [h1]; ring

example : (∀ a ∈ ([1, 3, 2] : List ℚ), 0 ≤ a) ∧ ([1, 3, 2] : List ℚ).sum ≠ 0 ∧ (sizeBar id 1 (some 2) ([1, 3, 2] : List ℚ)).gini = some (11 / 18) := by
  decide +kernel

/-- Violation: the documentation gives sizes relative to `theta` (`log1p(mean / theta)`); the code
divides by the block threshold `theta * theta_mult`. -/
theorem C59_relative_to_block_threshold :
    ∃ (l : List ℚ) (th m : ℚ), (sizeBar id m (some th) l).meanRel ≠ some (id (l.sum / l.length / th)) :=
  ⟨[1, 1], 1, 5, by decide +kernel⟩

/-- Violation: while the typical size is still missing (NaN), the relative sizes are missing but the
block share is reported as 0, whatever the trades. -/
theorem C59_missing_theta_zero_share (log1p : K → K) (m : K) (l : List K) (hs : l.sum ≠ 0) :
    (sizeBar log1p m none l).meanRel = none ∧ (sizeBar log1p m none l).pctBlock = some 0 := by
  have hl : l ≠ [] := by rintro rfl; simp at hs
  unfold sizeBar
  rw [if_neg (by rintro (h | h); exacts [hl h, by cases h])]
  unfold sizeRow relSize blockVolume
  simp [hs]

/-! ### Non-vacuity -/

example : (compBarTradeSize id ([1, 2, 3, 10, 4] : List ℚ) [some 1, some 2] [-1, 1, 4] 2) =
    .ok [⟨some (3/4), some (39/40), some 0, some (4/9)⟩, ⟨some (17/12), some (47/20), some (10/17), some (164/289)⟩] := by
  decide +kernel

example : ∃ l : List ℚ, (∀ a ∈ l, 0 ≤ a) ∧ l.sum ≠ 0 ∧ l ≠ [] := ⟨[0, 3], by decide +kernel, by decide +kernel, by decide⟩

end FinML
