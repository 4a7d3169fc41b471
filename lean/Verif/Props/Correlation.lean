/-
C37: rolling price-volume correlation (`finmlkit/feature/core/correlation.py`).
-/
import Mathlib.Analysis.Real.Sqrt
import Verif.Lemmas.Indicators

set_option linter.unusedSectionVars false

namespace FinML

variable {K : Type} [Field K] [LinearOrder K] [IsStrictOrderedRing K]

/-- Sum of products of deviations from the means. -/
def crossDev (f g : α → K) (l : List α) : K :=
  (l.map (fun a => (f a - (l.map f).sum / (l.length : K)) * (g a - (l.map g).sum / (l.length : K)))).sum

/-- `c` is the Pearson correlation of the pairs: it has the sign of the covariance and its square is the squared covariance over the
product of the variances. -/
def IsPearson (l : List (K × K)) (c : K) : Prop :=
  0 < crossDev Prod.fst Prod.fst l ∧ 0 < crossDev Prod.snd Prod.snd l ∧ 0 ≤ c * crossDev Prod.fst Prod.snd l ∧
  c ^ 2 * (crossDev Prod.fst Prod.fst l * crossDev Prod.snd Prod.snd l) = crossDev Prod.fst Prod.snd l ^ 2

/-- Cauchy-Schwarz for lists. -/
theorem list_cauchy_schwarz {α : Type} (l : List α) (a b : α → K) :
    (l.map (fun x => a x * b x)).sum ^ 2 ≤ (l.map (fun x => a x * a x)).sum * (l.map (fun x => b x * b x)).sum := by
  generalize hA : (l.map (fun x => a x * a x)).sum = A
  generalize hB : (l.map (fun x => b x * b x)).sum = B
  generalize hS : (l.map (fun x => a x * b x)).sum = S
  have hA0 : 0 ≤ A := by rw [← hA]; exact sum_map_nonneg _ _ (fun x _ => mul_self_nonneg _)
  have hexp : ∀ l : List α, (l.map (fun x => (A * b x - S * a x) ^ 2)).sum =
      A ^ 2 * (l.map (fun x => b x * b x)).sum - 2 * A * S * (l.map (fun x => a x * b x)).sum + S ^ 2 * (l.map (fun x => a x * a x)).sum := by
    intro l
    induction l with
    | nil => simp
    | cons x t ih => simp only [List.map_cons, List.sum_cons]; rw [ih]; ring
  have h1 := hexp l
  rw [hA, hB, hS] at h1
  have h2 : 0 ≤ (l.map (fun x => (A * b x - S * a x) ^ 2)).sum := sum_map_nonneg _ _ (fun x _ => sq_nonneg _)
  rcases eq_or_lt_of_le hA0 with h | h
  · -- all a are zero
    have hz : ∀ l : List α, (l.map (fun x => a x * a x)).sum = 0 → (l.map (fun x => a x * b x)).sum = 0 := by
      intro l
      induction l with
      | nil => simp
      | cons x t ih =>
        simp only [List.map_cons, List.sum_cons]
        intro hs
        have p1 := mul_self_nonneg (a x)
        have p2 : 0 ≤ (t.map (fun x => a x * a x)).sum := sum_map_nonneg _ _ (fun x _ => mul_self_nonneg _)
        have hx : a x = 0 := mul_self_eq_zero.mp (by linarith)
        rw [ih (by linarith), hx]; ring
    have := hz l (by rw [hA, h])
    rw [hS] at this
    rw [this, ← h]; simp
  · have h3 : 0 ≤ A * (A * B - S ^ 2) := by nlinarith
    have h4 := nonneg_of_mul_nonneg_right h3 h
    linarith

/-- Without the special case, the value is Pearson's correlation of the valid pairs; the clamp never acts. -/
theorem corrOf_pearson (sqrt : K → K) (hsqrt : ∀ x, 0 ≤ x → 0 ≤ sqrt x ∧ sqrt x * sqrt x = x) (l : List (K × K)) :
    (∃ c, corrOf sqrt l = some c ∧ IsPearson l c ∧
        c * (sqrt (crossDev Prod.fst Prod.fst l) * sqrt (crossDev Prod.snd Prod.snd l)) = crossDev Prod.fst Prod.snd l) ∨
    (corrOf sqrt l = none ∧ (l.length < 2 ∨ crossDev Prod.fst Prod.fst l = 0 ∨ crossDev Prod.snd Prod.snd l = 0)) := by
  unfold corrOf
  by_cases hl : l.length < 2
  · right; rw [if_pos hl]; exact ⟨rfl, Or.inl hl⟩
  rw [if_neg hl]
  have ecov : (l.map (fun p => (p.1 - (l.map (·.1)).sum / (l.length : K)) * (p.2 - (l.map (·.2)).sum / (l.length : K)))).sum =
      crossDev Prod.fst Prod.snd l := rfl
  have esr : (l.map (fun p => (p.1 - (l.map (·.1)).sum / (l.length : K)) * (p.1 - (l.map (·.1)).sum / (l.length : K)))).sum =
      crossDev Prod.fst Prod.fst l := rfl
  have esv : (l.map (fun p => (p.2 - (l.map (·.2)).sum / (l.length : K)) * (p.2 - (l.map (·.2)).sum / (l.length : K)))).sum =
      crossDev Prod.snd Prod.snd l := rfl
  simp only [ecov, esr, esv]
  have hcs : crossDev Prod.fst Prod.snd l ^ 2 ≤ crossDev Prod.fst Prod.fst l * crossDev Prod.snd Prod.snd l :=
    list_cauchy_schwarz l (fun p => p.1 - (l.map Prod.fst).sum / (l.length : K)) (fun p => p.2 - (l.map Prod.snd).sum / (l.length : K))
  have hr0 : 0 ≤ crossDev Prod.fst Prod.fst l := sum_map_nonneg _ _ (fun x _ => mul_self_nonneg _)
  have hv0 : 0 ≤ crossDev Prod.snd Prod.snd l := sum_map_nonneg _ _ (fun x _ => mul_self_nonneg _)
  unfold IsPearson
  generalize crossDev Prod.fst Prod.snd l = cov at *
  generalize crossDev Prod.fst Prod.fst l = sr at *
  generalize crossDev Prod.snd Prod.snd l = sv at *
  by_cases hp : sr > 0 ∧ sv > 0
  · left
    rw [if_pos hp]
    obtain ⟨hsr, hsv⟩ := hp
    obtain ⟨p1, p2⟩ := hsqrt sr hsr.le
    obtain ⟨q1, q2⟩ := hsqrt sv hsv.le
    have hp1 : 0 < sqrt sr := lt_of_le_of_ne p1 (fun h => by rw [← h] at p2; simp at p2; linarith)
    have hq1 : 0 < sqrt sv := lt_of_le_of_ne q1 (fun h => by rw [← h] at q2; simp at q2; linarith)
    have hd : 0 < sqrt sr * sqrt sv := mul_pos hp1 hq1
    have hd2 : (sqrt sr * sqrt sv) ^ 2 = sr * sv := by
      rw [show (sqrt sr * sqrt sv) ^ 2 = (sqrt sr * sqrt sr) * (sqrt sv * sqrt sv) by ring, p2, q2]
    have hbound : |cov| ≤ sqrt sr * sqrt sv := abs_le_of_sq_le_sq (by rw [hd2]; exact hcs) hd.le
    rw [abs_le] at hbound
    have c1 : ¬ cov / (sqrt sr * sqrt sv) > 1 := by
      rw [gt_iff_lt, not_lt, div_le_one hd]; exact hbound.2
    have c2 : ¬ cov / (sqrt sr * sqrt sv) < -1 := by
      rw [not_lt, le_div_iff₀ hd]; linarith [hbound.1]
    refine ⟨cov / (sqrt sr * sqrt sv), by rw [if_neg c1, if_neg c2], ⟨hsr, hsv, ?_, ?_⟩, ?_⟩
    · rw [div_mul_eq_mul_div]; exact div_nonneg (mul_self_nonneg _) hd.le
    · rw [div_pow, hd2, div_mul_cancel₀]; exact ne_of_gt (mul_pos hsr hsv)
    · rw [div_mul_cancel₀]; exact ne_of_gt hd
  · right
    rw [if_neg hp]
    refine ⟨rfl, Or.inr ?_⟩
    by_contra hc
    push Not at hc
    exact hp ⟨lt_of_le_of_ne hr0 (Ne.symm hc.1), lt_of_le_of_ne hv0 (Ne.symm hc.2)⟩

/-- Every step of the window is a strict rise. -/
def StrictRise (f : Nat → K) (a b : Nat) : Prop := ∀ j, a ≤ j → j < b → f j < f (j + 1)

/-- With complete data, the valid pairs are the returns and volumes of the window. -/
theorem validPairs_complete (price volume : List (Option K)) (p v : Nat → K) (w i : Nat) (hwi : w ≤ i)
    (hp : ∀ j, i - w ≤ j → j ≤ i → price.getD j none = some (p j) ∧ p j ≠ 0)
    (hv : ∀ j, i - w ≤ j → j ≤ i → volume.getD j none = some (v j)) :
    validPairs price volume w i = (List.range' (i + 1 - w) w).map (fun j => ((p j - p (j - 1)) / p (j - 1), v j)) := by
  unfold validPairs
  rw [← List.filterMap_eq_map]
  have : ∀ l : List Nat, (∀ j ∈ l, i + 1 - w ≤ j ∧ j ≤ i) →
      l.filterMap (fun j => bothSome (simpleReturn price j) (volume.getD j none)) =
      l.filterMap (some ∘ fun j => ((p j - p (j - 1)) / p (j - 1), v j)) := by
    intro l
    induction l with
    | nil => intro _; rfl
    | cons a t ih =>
      intro h
      obtain ⟨h1, h2⟩ := h a List.mem_cons_self
      rw [List.filterMap_cons, List.filterMap_cons, ih (fun j hj => h j (List.mem_cons_of_mem _ hj))]
      have e : simpleReturn price a = some ((p a - p (a - 1)) / p (a - 1)) := by
        unfold simpleReturn
        rw [if_neg (by omega), (hp a (by omega) h2).1, (hp (a - 1) (by omega) (by omega)).1]
        simp only
        rw [if_pos (hp (a - 1) (by omega) (by omega)).2]
      rw [e, hv a (by omega) h2]
      rfl
  apply this
  intro j hj
  rw [List.mem_range'_1] at hj
  omega

/-- **C37 (partial).**  With complete non-zero prices and complete volumes, at every position outside 4-9 (and, inside, unless the
prices of the window rise strictly) the value is Pearson's correlation between the returns and the volumes of the last `w` bars; it is NaN
exactly when one of the two is constant or there is only one bar. -/
theorem C37_pearson_partial (sqrt : K → K) (hsqrt : ∀ x, 0 ≤ x → 0 ≤ sqrt x ∧ sqrt x * sqrt x = x) (price volume : List (Option K)) (p v : Nat → K)
    (w i : Nat) (hi : i < price.length) (hw : 1 ≤ w) (hwi : w ≤ i)
    (hp : ∀ j, i - w ≤ j → j ≤ i → price.getD j none = some (p j) ∧ p j ≠ 0)
    (hv : ∀ j, i - w ≤ j → j ≤ i → volume.getD j none = some (v j))
    (hout : i < 4 ∨ 10 ≤ i ∨ ¬ StrictRise p (i + 1 - w) i) :
    let pairs := (List.range' (i + 1 - w) w).map (fun j => ((p j - p (j - 1)) / p (j - 1), v j))
    (∃ c, (priceVolumeCorrelation sqrt price volume w)[i]? = some (some c) ∧ IsPearson pairs c) ∨
    ((priceVolumeCorrelation sqrt price volume w)[i]? = some none ∧
      (w = 1 ∨ crossDev Prod.fst Prod.fst pairs = 0 ∨ crossDev Prod.snd Prod.snd pairs = 0)) := by
  intro pairs
  have hr : simpleReturn price i = some ((p i - p (i - 1)) / p (i - 1)) := by
    unfold simpleReturn
    rw [if_neg (by omega), (hp i (by omega) (le_refl _)).1, (hp (i - 1) (by omega) (by omega)).1]
    simp only
    rw [if_pos (hp (i - 1) (by omega) (by omega)).2]
  have hrise : noDecrease price w i = true → StrictRise p (i + 1 - w) i := by
    intro h j h1 h2
    unfold noDecrease at h
    rw [List.all_eq_true] at h
    have := h j (by rw [List.mem_range'_1]; omega)
    rw [(hp (j + 1) (by omega) (by omega)).1, (hp j (by omega) (by omega)).1] at this
    simpa [optLe] using this
  have hval : (priceVolumeCorrelation sqrt price volume w)[i]? = some (corrOf sqrt pairs) := by
    unfold priceVolumeCorrelation
    rw [tabulate_get?, if_pos hi]
    unfold corrAt
    rw [if_neg (by omega), if_neg (by rw [hr, hv i (by omega) (le_refl _)]; simp)]
    have hno : ¬ (4 ≤ i ∧ i < 10 ∧ noDecrease price w i = true) := by
      rintro ⟨h1, h2, h3⟩
      rcases hout with h | h | h
      · omega
      · omega
      · exact h (hrise h3)
    rw [if_neg (fun h => hno ⟨h.1, h.2.1, h.2.2.1⟩), if_neg (fun h => hno ⟨h.1, h.2.1, h.2.2.1⟩),
      validPairs_complete price volume p v w i hwi hp hv]
  rcases corrOf_pearson sqrt hsqrt pairs with ⟨c, h1, h2, -⟩ | ⟨h1, h2⟩
  · left; exact ⟨c, by rw [hval, h1], h2⟩
  · right
    refine ⟨by rw [hval, h1], ?_⟩
    rcases h2 with h2 | h2 | h2
    · left; simp [pairs] at h2; omega
    · right; left; exact h2
    · right; right; exact h2

example : ∀ x : ℝ, 0 ≤ x → 0 ≤ Real.sqrt x ∧ Real.sqrt x * Real.sqrt x = x := fun x hx => ⟨Real.sqrt_nonneg x, Real.mul_self_sqrt hx⟩

/-- Every step of the window is a strict fall. -/
def StrictFall (f : Nat → K) (a b : Nat) : Prop := ∀ j, a ≤ j → j < b → f (j + 1) < f j

/-- **C37 (the hard-coded cases, exactly).**  With complete data, at positions 4-9 and when the prices of the window rise
strictly, the value is 1 if the volumes rise strictly too, -1 if they fall strictly (1 for a window of one bar, where
both hold), and otherwise computed from the pairs of the window as everywhere else. -/
theorem C37_hard_coded_exact (sqrt : K → K) (price volume : List (Option K)) (p v : Nat → K)
    (w i : Nat) (hi : i < price.length) (hw : 1 ≤ w) (hwi : w ≤ i)
    (hp : ∀ j, i - w ≤ j → j ≤ i → price.getD j none = some (p j) ∧ p j ≠ 0)
    (hv : ∀ j, i - w ≤ j → j ≤ i → volume.getD j none = some (v j))
    (hin : 4 ≤ i ∧ i < 10 ∧ StrictRise p (i + 1 - w) i) :
    (StrictRise v (i + 1 - w) i → (priceVolumeCorrelation sqrt price volume w)[i]? = some (some 1)) ∧
    (StrictFall v (i + 1 - w) i → 2 ≤ w → (priceVolumeCorrelation sqrt price volume w)[i]? = some (some (-1))) ∧
    (¬ StrictRise v (i + 1 - w) i → ¬ StrictFall v (i + 1 - w) i →
      (priceVolumeCorrelation sqrt price volume w)[i]? = some (corrOf sqrt
        ((List.range' (i + 1 - w) w).map (fun j => ((p j - p (j - 1)) / p (j - 1), v j))))) := by
  have hdec : ∀ (xs : List (Option K)) (f : Nat → K), (∀ j, i - w ≤ j → j ≤ i → xs.getD j none = some (f j)) →
      (noDecrease xs w i = true ↔ StrictRise f (i + 1 - w) i) ∧
      (noIncrease xs w i = true ↔ StrictFall f (i + 1 - w) i) := by
    intro xs f hf
    unfold noDecrease noIncrease StrictRise StrictFall
    simp only [List.all_eq_true, List.mem_range'_1]
    constructor
    · constructor
      · intro h j h1 h2
        have := h j ⟨by omega, by omega⟩
        rw [hf j (by omega) (by omega), hf (j + 1) (by omega) (by omega)] at this
        simpa [optLe] using this
      · rintro h j ⟨h1, h2⟩
        rw [hf j (by omega) (by omega), hf (j + 1) (by omega) (by omega)]
        simpa [optLe] using h j (by omega) (by omega)
    · constructor
      · intro h j h1 h2
        have := h j ⟨by omega, by omega⟩
        rw [hf j (by omega) (by omega), hf (j + 1) (by omega) (by omega)] at this
        simpa [optLe] using this
      · rintro h j ⟨h1, h2⟩
        rw [hf j (by omega) (by omega), hf (j + 1) (by omega) (by omega)]
        simpa [optLe] using h j (by omega) (by omega)
  have hP := (hdec price p (fun j h1 h2 => (hp j h1 h2).1)).1.mpr hin.2.2
  obtain ⟨hV, hV'⟩ := hdec volume v hv
  have hr : simpleReturn price i = some ((p i - p (i - 1)) / p (i - 1)) := by
    unfold simpleReturn
    rw [if_neg (by omega), (hp i (by omega) (by omega)).1, (hp (i - 1) (by omega) (by omega)).1]
    simp only
    rw [if_pos (hp (i - 1) (by omega) (by omega)).2]
  unfold priceVolumeCorrelation
  rw [tabulate_get?, if_pos hi]
  unfold corrAt
  rw [if_neg (by omega), if_neg (by rw [hr, hv i (by omega) (by omega)]; simp)]
  refine ⟨?_, ?_, ?_⟩
  · intro h
    rw [if_pos ⟨hin.1, hin.2.1, hP, hV.mpr h⟩]
  · intro h h2
    rw [if_neg, if_pos ⟨hin.1, hin.2.1, hP, hV'.mpr h⟩]
    rintro ⟨-, -, -, h4⟩
    have a := hV.mp h4 (i - 1) (by omega) (by omega)
    have b := h (i - 1) (by omega) (by omega)
    exact lt_asymm a b
  · intro h1 h2
    rw [if_neg (fun h => h1 (hV.mp h.2.2.2)), if_neg (fun h => h2 (hV'.mp h.2.2.2)),
      validPairs_complete price volume p v w i hwi hp hv]

example : (priceVolumeCorrelation (fun x : ℚ => x) [some 1, some 2, some 3, some 4, some 5] [some 1, some 1, some 3, some 2, some 1] 3)[4]? =
    some (some (-1 : ℚ)) := by decide +kernel

/-- **C37.**  With missing data the same holds for the pairs present in the window, provided the current pair is present. -/
theorem C37_pearson_missing_partial (sqrt : K → K) (hsqrt : ∀ x, 0 ≤ x → 0 ≤ sqrt x ∧ sqrt x * sqrt x = x) (price volume : List (Option K))
    (w i : Nat) (hi : i < price.length) (hwi : w ≤ i) (hout : i < 4 ∨ 10 ≤ i) (r x : K) (hr : simpleReturn price i = some r) (hx : volume.getD i none = some x) :
    (priceVolumeCorrelation sqrt price volume w)[i]? = some (corrOf sqrt (validPairs price volume w i)) ∧
    (∀ c, corrOf sqrt (validPairs price volume w i) = some c → IsPearson (validPairs price volume w i) c) := by
  constructor
  · unfold priceVolumeCorrelation
    rw [tabulate_get?, if_pos hi]
    unfold corrAt
    rw [if_neg (by omega), if_neg (by rw [hr, hx]; simp), if_neg (by omega), if_neg (by omega)]
  · intro c hc
    rcases corrOf_pearson sqrt hsqrt (validPairs price volume w i) with ⟨c', h1, h2, -⟩ | ⟨h1, -⟩
    · rw [hc] at h1; injection h1 with h1; rw [h1]; exact h2
    · rw [hc] at h1; cases h1

example : (priceVolumeCorrelation (fun x : ℚ => x) [some 1, some 2, some 2] [some 1, some 2, some 1] 2)[2]? = some (some 1) ∧
    corrOf (fun x : ℚ => x) [(1, 2), (0, 1)] = some 1 := by decide +kernel

/-- **C37 (missing current pair).**  There is no value at a position whose price, previous price or volume is missing, nor
within the first `w` positions. -/
theorem C37_missing_current (sqrt : K → K) (price volume : List (Option K)) (w i : Nat) (hi : i < price.length)
    (h : i < w ∨ price.getD i none = none ∨ price.getD (i - 1) none = none ∨ price.getD (i - 1) none = some 0 ∨
      volume.getD i none = none) :
    (priceVolumeCorrelation sqrt price volume w)[i]? = some none := by
  unfold priceVolumeCorrelation
  rw [tabulate_get?, if_pos hi]
  unfold corrAt
  by_cases hw : i < w
  · rw [if_pos hw]
  · rw [if_neg hw, if_pos]
    rcases h with h | h | h | h | h
    · exact absurd h hw
    · left
      unfold simpleReturn
      rw [h]
      split <;> rfl
    · left
      unfold simpleReturn
      rw [h]
      split
      · rfl
      · cases price.getD i none <;> rfl
    · left
      unfold simpleReturn
      rw [h]
      split
      · rfl
      · cases price.getD i none <;> simp
    · right
      rw [h]; rfl

example : priceVolumeCorrelation (fun x : ℚ => x) [some 1, some 2, some 2, some 2] [some 1, some 2, some 1, none] 2 =
    [none, none, some 1, none] := by decide +kernel

/-- **C37 fails.**  For positions 4-9 with strictly rising prices and strictly rising volumes the code returns exactly 1, whatever the returns:
here returns fall while volume rises, so the covariance is negative. -/
theorem C37_special_case_not_pearson :
    ∃ (price volume : List (Option ℚ)) (p v : Nat → ℚ) (w i : Nat), (∀ j, i - w ≤ j → j ≤ i → price.getD j none = some (p j) ∧ p j ≠ 0) ∧
      (∀ j, i - w ≤ j → j ≤ i → volume.getD j none = some (v j)) ∧
      (∀ sqrt, (priceVolumeCorrelation sqrt price volume w)[i]? = some (some 1)) ∧
      crossDev Prod.fst Prod.snd ((List.range' (i + 1 - w) w).map (fun j => ((p j - p (j - 1)) / p (j - 1), v j))) < 0 ∧
      ¬ IsPearson ((List.range' (i + 1 - w) w).map (fun j => ((p j - p (j - 1)) / p (j - 1), v j))) 1 := by
  have hneg : crossDev Prod.fst Prod.snd ((List.range' (4 + 1 - 3) 3).map
      (fun j => ((([1, 2, 10, 12, 13] : List ℚ).getD j 0 - ([1, 2, 10, 12, 13] : List ℚ).getD (j - 1) 0) / ([1, 2, 10, 12, 13] : List ℚ).getD (j - 1) 0,
        ([1, 1, 1, 2, 3] : List ℚ).getD j 0))) < 0 := by decide +kernel
  refine ⟨[some 1, some 2, some 10, some 12, some 13], [some 1, some 1, some 1, some 2, some 3],
    fun j => ([1, 2, 10, 12, 13] : List ℚ).getD j 0, fun j => ([1, 1, 1, 2, 3] : List ℚ).getD j 0, 3, 4, ?_, ?_, ?_, hneg, ?_⟩
  · intro j h1 h2
    have : j = 1 ∨ j = 2 ∨ j = 3 ∨ j = 4 := by omega
    rcases this with rfl | rfl | rfl | rfl <;> decide +kernel
  · intro j h1 h2
    have : j = 1 ∨ j = 2 ∨ j = 3 ∨ j = 4 := by omega
    rcases this with rfl | rfl | rfl | rfl <;> decide +kernel
  · intro sqrt
    unfold priceVolumeCorrelation
    rw [tabulate_get?, if_pos (by decide)]
    unfold corrAt
    rw [if_neg (by decide), if_neg (by decide +kernel), if_pos (by decide +kernel)]
  · rintro ⟨-, -, h, -⟩
    linarith

end FinML
