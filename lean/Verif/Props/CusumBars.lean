/-
C06 (CUSUM bars, `finmlkit/bar/logic.py:_cusum_bar_indexer`) and
C31 (CUSUM event filter, `finmlkit/sampling/filters.py:cusum_filter`).
-/
import Verif.Lemmas.Cusum

set_option linter.unusedSectionVars false

namespace FinML

variable {K : Type} [Field K] [LinearOrder K] [IsStrictOrderedRing K]

/-! ## Specification -/

/-- The volatility in force at trade `j`: the most recent non-NaN entry at or before `j`. -/
def latestSigma (sigma : List (Option K)) (j : Nat) : Option K :=
  ((sigma.take (j + 1)).filterMap id).getLast?

/-- The threshold in force at trade `j`. -/
def cusumLambda (sigma : List (Option K)) (sigmaFloor sigmaMult : K) (j : Nat) : K :=
  max (sigmaMult * (latestSigma sigma j).getD 0) sigmaFloor

/-- Trade `j` is the last trade of its timestamp block. -/
def BlockEnd (ts : List Int) (j : Nat) : Prop := j + 1 = ts.length ∨ ts.getD j 0 ≠ ts.getD (j + 1) 0

theorem forwardFill_getD (prev : Option K) (l : List (Option K)) (j : Nat) (hj : j < l.length) :
    (forwardFill prev l).getD j none = (((l.take (j + 1)).filterMap id).getLast?).or prev := by
  induction l generalizing prev j with
  | nil => simp at hj
  | cons a l ih =>
    cases a with
    | none =>
      cases j with
      | zero => simp [forwardFill]
      | succ j =>
        simp only [forwardFill, List.getD_cons_succ]
        rw [ih prev j (by simpa using hj)]
        simp
    | some s =>
      cases j with
      | zero => simp [forwardFill]
      | succ j =>
        simp only [forwardFill, List.getD_cons_succ]
        rw [ih (some s) j (by simpa using hj)]
        simp only [List.take_succ_cons, List.filterMap_cons, id]
        rw [List.getLast?_cons]
        cases h : (List.filterMap id (List.take (j+1) l)).getLast? <;> simp

/-! ## C06 -/

/-- **C06.** For arrays of equal length with at least one non-NaN volatility, the CUSUM bar closes are
the index `f` of the first non-NaN volatility followed by strictly increasing marks, each with a side.
A trade `j > f` is an upward mark iff it ends its timestamp block and the upward CUSUM (largest sum of
latest log returns since the last upward mark) reaches the threshold; it is a downward mark iff it ends
its block, the upward CUSUM is below the threshold and the downward CUSUM reaches minus the threshold. -/
theorem C06_cusumBars (log : K → K) (ts : List Int) (prices : List K) (sigma : List (Option K))
    (sigmaFloor sigmaMult : K) (hs : sigma.length = prices.length) (ht : ts.length = prices.length)
    (hnn : ∃ s ∈ sigma, s ≠ none) :
    let n := prices.length
    let f := sigma.findIdx (fun s => s.isSome)
    let r := fun i => log (prices.getD i 0 / prices.getD (i - 1) 0)
    let lam := cusumLambda sigma sigmaFloor sigmaMult
    ∃ c : List (Nat × Bool),
      cusumBarIndexer log ts prices sigma sigmaFloor sigmaMult = .ok (f :: c.map Prod.fst) ∧
      (c.map Prod.fst).Pairwise (· < ·) ∧ (∀ x ∈ c, f < x.1 ∧ x.1 < n) ∧
      ∀ j, f < j → j < n →
        (((j, true) ∈ c ↔ BlockEnd ts j ∧ lam j ≤ upSum r c f j) ∧
         ((j, false) ∈ c ↔ BlockEnd ts j ∧ upSum r c f j < lam j ∧ downSum r c f j ≤ -(lam j))) := by
  intro n f r lam
  have hfl : f < sigma.length := by
    apply List.findIdx_lt_length_of_exists
    obtain ⟨s, h1, h2⟩ := hnn
    exact ⟨s, h1, by cases s <;> simp_all⟩
  have hff : firstNonNan sigma = f := by
    unfold firstNonNan; simp only; rw [if_pos hfl]
  let tick := cusumTickAt log ts prices (forwardFill none sigma) sigmaFloor sigmaMult
  have hchar := cusumBarLoopT_char tick f n (f + 1) (n - (f + 1)) (by omega) (by omega) 0 0 [] (by simp)
    (by simp [lastMark, retsBetween_self, maxSuffix_nil])
    (by simp [lastMark, retsBetween_self, minSuffix_nil])
  simp only [List.nil_append] at hchar
  refine ⟨cusumBarLoopT (f+1) 0 0 ((List.range' (f+1) (n - (f+1))).map tick), ?_, ?_, ?_, ?_⟩
  · unfold cusumBarIndexer
    rw [if_neg (by omega)]
    simp only [hff, cusumBarLoop_eq]
    rfl
  · exact cusumBarLoopT_sorted _ _ _ _
  · intro x hx
    have := cusumBarLoopT_mem _ _ _ _ x hx
    simp at this; omega
  · intro j hfj hjn
    have h := hchar j (by omega) hjn
    have hsome : ((sigma.take (j+1)).filterMap id).getLast? ≠ none := by
      rw [Ne, List.getLast?_eq_none_iff, List.filterMap_eq_nil_iff]
      intro hall
      have h1 := List.findIdx_getElem (p := fun s : Option K => s.isSome) (w := hfl)
      have h2 : sigma[f] ∈ sigma.take (j+1) := by
        rw [List.mem_take_iff_getElem]
        exact ⟨f, by omega, rfl⟩
      have h3 := hall _ h2
      simp only [id] at h3
      change (sigma[f]).isSome = true at h1
      rw [h3] at h1; simp at h1
    have hfill : (forwardFill none sigma).getD j none = ((sigma.take (j+1)).filterMap id).getLast? := by
      rw [forwardFill_getD none sigma j (by omega), Option.or_none]
    have hblock : (tick j).inBlock = false ↔ BlockEnd ts j := by
      show ((decide (j + 1 < prices.length) && decide (ts.getD j 0 = ts.getD (j+1) 0)) ||
        ((forwardFill none sigma).getD j none).isNone) = false ↔ _
      rw [hfill, Option.isNone_eq_false_iff.mpr (Option.isSome_iff_ne_none.mpr hsome), Bool.or_false]
      unfold BlockEnd
      rw [ht]
      by_cases h1 : j + 1 < prices.length
      · simp [h1]; omega
      · simp [h1]; left; omega
    have hlam : (tick j).lam = lam j := by
      show (match (forwardFill none sigma).getD j none with
        | some s => max (sigmaMult * s) sigmaFloor
        | none => sigmaFloor) = _
      rw [hfill]
      show _ = cusumLambda sigma sigmaFloor sigmaMult j
      unfold cusumLambda latestSigma
      cases h2 : ((sigma.take (j+1)).filterMap id).getLast? with
      | none => exact absurd h2 hsome
      | some s => simp
    rw [← hblock, ← hlam]
    exact h

/- Non-vacuity, with the identity in place of the logarithm: ratios 2, 2, … ; trades 1 and 2 share a
timestamp so the crossing at trade 1 closes only at trade 2. -/
example : cusumBarIndexer (fun x : ℚ => x - 1) [0, 1, 1, 2, 3] [1, 2, 4, 4, 8]
    [some 1, none, some 1, none, none] 0 1 = .ok [0, 2, 4] := by decide +kernel

theorem cusumBarLoop_all_block (l : List (CusumTick K)) (h : ∀ t ∈ l, t.inBlock = true) (i : Nat) (p q : K) :
    cusumBarLoop i p q l = [] := by
  induction l generalizing i p q with
  | nil => rfl
  | cons t l ih =>
    simp only [cusumBarLoop, h t (by simp), if_true]
    exact ih (fun t ht => h t (by simp [ht])) _ _ _

/-- **C06 (no volatility).** If no volatility is a number, the only close is index 0: whatever the prices do, no bar
is ever closed, even though `sigma_floor` is meant as a lower bound of the threshold. -/
theorem C06_all_nan (log : K → K) (ts : List Int) (prices : List K) (sigma : List (Option K))
    (sigmaFloor sigmaMult : K) (hs : sigma.length = prices.length) (hn : ∀ s ∈ sigma, s = none) :
    cusumBarIndexer log ts prices sigma sigmaFloor sigmaMult = .ok [0] := by
  have hf : firstNonNan sigma = 0 := by
    unfold firstNonNan
    simp only
    rw [if_neg]
    rw [List.findIdx_lt_length]
    rintro ⟨s, h1, h2⟩
    rw [hn s h1] at h2; simp at h2
  unfold cusumBarIndexer
  rw [if_neg (by omega)]
  simp only [hf]
  rw [cusumBarLoop_all_block]
  intro t ht
  obtain ⟨i, hi, rfl⟩ := List.mem_map.mp ht
  have hi' := List.mem_range'_1.mp hi
  show (_ || ((forwardFill none sigma).getD i none).isNone) = true
  rw [forwardFill_getD none sigma i (by omega), Option.or_none]
  have : (sigma.take (i + 1)).filterMap id = [] := by
    rw [List.filterMap_eq_nil_iff]
    intro s h1
    rw [hn s (List.mem_of_mem_take h1)]; rfl
  rw [this]; simp

example : cusumBarIndexer (fun x : ℚ => x - 1) [0, 1, 2] [1, 100, 1] [none, none, none] (1 / 10) 1 = .ok [0] := by
  decide +kernel

/-- The length check of `_cusum_bar_indexer` (a chained `!=`) lets arrays of different lengths through. -/
theorem C06_length_check_gap : ∃ (ts : List Int) (prices : List ℚ) (sigma : List (Option ℚ)),
    ts.length ≠ prices.length ∧
    cusumBarIndexer (fun x => x - 1) ts prices sigma 0 1 = .ok [0, 2] :=
  ⟨[0], [1, 1, 4], [some 1, some 1, some 1], by decide, by decide +kernel⟩

/-! ## C31 -/

/-- **C31.** With a constant or per-bar threshold, the filter emits strictly increasing event indices,
each with a side: bar `j ≥ 1` is a downward event iff the downward CUSUM (smallest sum of latest log
returns since the last downward event) is below minus the threshold; it is an upward event iff it is not
a downward event and the upward CUSUM exceeds the threshold. -/
theorem C31_cusumFilter (log : K → K) (series threshold : List K) (h2 : 2 ≤ series.length)
    (ht : threshold.length = 1 ∨ threshold.length = series.length) :
    let n := series.length
    let r := fun i => log (series.getD i 0 / series.getD (i - 1) 0)
    let thr := fun i => if threshold.length = 1 then threshold.getD 0 0 else threshold.getD i 0
    ∃ c : List (Nat × Bool),
      cusumFilter log series threshold = .ok (c.map Prod.fst) ∧
      (c.map Prod.fst).Pairwise (· < ·) ∧ (∀ x ∈ c, 1 ≤ x.1 ∧ x.1 < n) ∧
      ∀ j, 1 ≤ j → j < n →
        (((j, false) ∈ c ↔ downSum r c 0 j < -(thr j)) ∧
         ((j, true) ∈ c ↔ -(thr j) ≤ downSum r c 0 j ∧ thr j < upSum r c 0 j)) := by
  intro n r thr
  let tick : Nat → K × K := fun i => (r i, thr i)
  have hchar := cusumFilterLoopT_char tick 0 n 1 (n - 1) (by omega) (by omega) 0 0 [] (by simp)
    (by simp [lastMark, retsBetween_self, maxSuffix_nil])
    (by simp [lastMark, retsBetween_self, minSuffix_nil])
  simp only [List.nil_append] at hchar
  refine ⟨cusumFilterLoopT 1 0 0 ((List.range' 1 (n - 1)).map tick), ?_, ?_, ?_, hchar⟩
  · unfold cusumFilter
    rw [if_neg (by omega), if_neg (by omega)]
    simp only [cusumFilterLoop_eq]
    congr 3
    apply List.map_congr_left
    intro i hi
    simp only [List.mem_range'_1] at hi
    show _ = (r i, thr i)
    congr 1
    show _ = if threshold.length = 1 then threshold.getD 0 0 else threshold.getD i 0
    split
    · rw [List.getD_eq_getElem?_getD, List.getElem?_replicate, if_pos (by omega)]; rfl
    · rfl
  · exact cusumFilterLoopT_sorted _ _ _ _
  · intro x hx
    have := cusumFilterLoopT_mem _ _ _ _ x hx
    simp at this; omega

example : cusumFilter (fun x : ℚ => x - 1) [1, 2, 3, 2, 1, 1] [6 / 5] = .ok [2] := by decide +kernel
example : cusumFilter (fun x : ℚ => x - 1) [1, 2, 3, 2, 1, 1] [4 / 5] = .ok [1, 4] := by decide +kernel

/-- The filter rejects exactly the inputs it cannot process. -/
theorem C31_cusumFilter_errors (log : K → K) (series threshold : List K) :
    (∃ e, cusumFilter log series threshold = .error e) ↔
      series.length < 2 ∨ (threshold.length ≠ 1 ∧ threshold.length ≠ series.length) := by
  unfold cusumFilter
  split
  · simp; omega
  · split
    · rename_i h; simp [h]
    · simp; omega

/-- **C31 (causality).** Events up to bar `m` depend only on the series up to bar `m` (constant threshold):
the events of a prefix are the events of the whole series restricted to the prefix. -/
theorem C31_cusumFilter_causal (log : K → K) (xs ys : List K) (t : K) (h2 : 2 ≤ xs.length) :
    ∃ c d, cusumFilter log xs [t] = .ok c ∧ cusumFilter log (xs ++ ys) [t] = .ok d ∧
      d.filter (fun i => decide (i < xs.length)) = c := by
  have hloop : ∀ (l₁ l₂ : List (K × K)) (i : Nat) (p q : K), ∃ p' q',
      cusumFilterLoop i p q (l₁ ++ l₂) = cusumFilterLoop i p q l₁ ++
        cusumFilterLoop (i + l₁.length) p' q' l₂ := by
    intro l₁ l₂
    induction l₁ with
    | nil => intro i p q; exact ⟨p, q, by simp [cusumFilterLoop]⟩
    | cons a l ih =>
      intro i p q
      obtain ⟨x, y⟩ := a
      have e : i + ((x, y) :: l).length = i + 1 + l.length := by simp; omega
      simp only [List.cons_append, cusumFilterLoop, e]
      split
      · obtain ⟨p', q', h⟩ := ih (i+1) (max 0 (p + x)) 0; exact ⟨p', q', by rw [h]; rfl⟩
      · split
        · obtain ⟨p', q', h⟩ := ih (i+1) 0 (min 0 (q + x)); exact ⟨p', q', by rw [h]; rfl⟩
        · obtain ⟨p', q', h⟩ := ih (i+1) (max 0 (p + x)) (min 0 (q + x)); exact ⟨p', q', by rw [h]⟩
  let step (zs : List K) (i : Nat) : K × K :=
    (log (zs.getD i 0 / zs.getD (i - 1) 0), (List.replicate zs.length t).getD i 0)
  have hx : cusumFilter log xs [t] = .ok (cusumFilterLoop 1 0 0
      ((List.range' 1 (xs.length - 1)).map (step xs))) := by
    unfold cusumFilter
    rw [if_neg (by omega), if_neg (by simp)]
    rfl
  have hxy : cusumFilter log (xs ++ ys) [t] = .ok (cusumFilterLoop 1 0 0
      ((List.range' 1 ((xs ++ ys).length - 1)).map (step (xs ++ ys)))) := by
    unfold cusumFilter
    rw [if_neg (by rw [List.length_append]; omega), if_neg (by simp)]
    rfl
  refine ⟨_, _, hx, hxy, ?_⟩
  have hsplit : (List.range' 1 ((xs ++ ys).length - 1)).map (step (xs ++ ys)) =
      (List.range' 1 (xs.length - 1)).map (step xs) ++
        (List.range' xs.length ys.length).map (step (xs ++ ys)) := by
    have : (xs ++ ys).length - 1 = (xs.length - 1) + ys.length := by
      rw [List.length_append]; omega
    rw [this, ← List.range'_append_1, List.map_append]
    congr 1
    · apply List.map_congr_left
      intro i hi
      simp only [List.mem_range'_1] at hi
      show (_, _) = (_, _)
      congr 1
      · simp only [List.getD_eq_getElem?_getD]
        rw [List.getElem?_append_left (by omega), List.getElem?_append_left (by omega)]
      · simp only [List.getD_eq_getElem?_getD, List.getElem?_replicate]
        rw [if_pos (by rw [List.length_append]; omega), if_pos (by omega)]
    · congr 2; omega
  rw [hsplit]
  obtain ⟨p', q', h⟩ := hloop ((List.range' 1 (xs.length - 1)).map (step xs))
    ((List.range' xs.length ys.length).map (step (xs ++ ys))) 1 0 0
  rw [h, List.filter_append, List.filter_eq_self.mpr, List.filter_eq_nil_iff.mpr, List.append_nil]
  · intro i hi
    rw [cusumFilterLoop_eq] at hi
    obtain ⟨y, hy, rfl⟩ := List.mem_map.mp hi
    have := cusumFilterLoopT_mem _ _ _ _ _ hy
    simp at this ⊢; omega
  · intro i hi
    rw [cusumFilterLoop_eq] at hi
    obtain ⟨y, hy, rfl⟩ := List.mem_map.mp hi
    have := cusumFilterLoopT_mem _ _ _ _ _ hy
    simp at this ⊢; omega

example : 2 ≤ ([1, 2, 1] : List ℚ).length ∧ (cusumFilter id ([1, 2, 1] : List ℚ) [1]).toOption = some [1] := by decide +kernel

end FinML
