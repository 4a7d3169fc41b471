/-
C171: returns over adjoining periods compound.  `finmlkit/feature/core/utils.py`, `momentum.py`, `volatility.py`.
-/
import Verif.Props.LaggedReturns

set_option linter.unusedSectionVars false

namespace FinML

variable {K : Type} [Field K] [LinearOrder K] [IsStrictOrderedRing K]

/-- **C171 (relative change).** Relative changes over `p` and over the `q` positions before that compound to the relative
change over `p + q` positions. -/
theorem C171_pct_change (xs : List K) (p q t : Nat) (r1 r2 : K) (hp : p ≤ t) (h1 : (pctChange xs p)[t]? = some (some r1))
    (h2 : (pctChange xs q)[t - p]? = some (some r2)) : (pctChange xs (p + q))[t]? = some (some ((1 + r1) * (1 + r2) - 1)) := by
  unfold pctChange at h1 h2 ⊢
  rw [tabulate_get?] at h1 h2 ⊢
  by_cases ht : t < xs.length
  swap
  · rw [if_neg ht] at h1; cases h1
  rw [if_pos ht] at h1 ⊢
  rw [if_pos (show t - p < xs.length by omega)] at h2
  rw [if_neg (show ¬ t < p by omega)] at h1
  by_cases hq : t - p < q
  · rw [if_pos hq] at h2; cases h2
  rw [if_neg hq] at h2
  rw [if_neg (show ¬ t < p + q by omega), show t - (p + q) = t - p - q by omega]
  simp only at h1 h2 ⊢
  by_cases b1 : xs.getD (t - p) 0 > 0
  swap
  · rw [if_neg b1] at h1; cases h1
  by_cases b2 : xs.getD (t - p - q) 0 > 0
  swap
  · rw [if_neg b2] at h2; cases h2
  rw [if_pos b1, Option.some.injEq, Option.some.injEq] at h1
  rw [if_pos b2, Option.some.injEq, Option.some.injEq] at h2
  rw [if_pos b2, Option.some.injEq, Option.some.injEq, ← h1, ← h2]
  have n1 := b1.ne'
  have n2 := b2.ne'
  field_simp
  ring

/-- **C171 (rate of change).** The same for the rate of change in per cent. -/
theorem C171_roc (xs : List K) (p q t : Nat) (r1 r2 : K) (hpq : p + q ≤ t) (hne : ∀ x ∈ xs, x ≠ 0) (h1 : (roc xs p)[t]? = some (some r1))
    (h2 : (roc xs q)[t - p]? = some (some r2)) : (roc xs (p + q))[t]? = some (some (100 * ((1 + r1 / 100) * (1 + r2 / 100) - 1))) := by
  unfold roc at h1 h2 ⊢
  rw [tabulate_get?] at h1 h2 ⊢
  by_cases ht : t < xs.length
  swap
  · rw [if_neg ht] at h1; cases h1
  rw [if_pos ht, if_neg (show ¬ t < p by omega), Option.some.injEq, Option.some.injEq] at h1
  rw [if_pos (show t - p < xs.length by omega), if_neg (show ¬ t - p < q by omega), Option.some.injEq, Option.some.injEq] at h2
  rw [if_pos ht, if_neg (show ¬ t < p + q by omega), Option.some.injEq, Option.some.injEq, show t - (p + q) = t - p - q by omega, ← h1, ← h2]
  have hx : ∀ k, k < xs.length → xs.getD k 0 ≠ 0 := by
    intro k hk
    rw [List.getD_eq_getElem _ _ hk]
    exact hne _ (List.getElem_mem hk)
  have n1 := hx (t - p) (by omega)
  have n2 := hx (t - p - q) (by omega)
  field_simp
  ring

example : pctChange [2, 3, 6, (9 : ℚ)] 1 = [none, some (1 / 2), some 1, some (1 / 2)] ∧
    pctChange [2, 3, 6, (9 : ℚ)] 2 = [none, none, some 2, some 2] ∧ roc [2, 3, 6, (9 : ℚ)] 3 = [none, none, none, some 350] ∧
    roc [2, 3, 6, (9 : ℚ)] 1 = [none, some 50, some 100, some 50] ∧ (roc [2, 3, 6, (9 : ℚ)] 2)[2]? = some (some 200) := by decide +kernel

/-- **C171 (lagged returns).** If a bar lies exactly `v` before bar `i`, the return over `v` at bar `i` and the return over
`w` at that bar compound to the return over `v + w` at bar `i`; logarithmic returns add up. -/
theorem C171_lagged (log : K → K) (ts : List Int) (close : List K) (v w : Int) (i j k : Nat) (hv : 0 < v) (hw : 0 < w)
    (hs : ts.Pairwise (· < ·)) (hlen : ts.length = close.length) (hi : i < close.length) (hj : j < close.length)
    (hk : k < close.length) (hij : ts.getD j 0 = ts.getD i 0 - v) (hjk : ts.getD k 0 ≤ ts.getD j 0 - w)
    (hlast : ∀ j', k < j' → j' < close.length → ts.getD j 0 - w < ts.getD j' 0) (hcj : close.getD j 0 ≠ 0) (hck : close.getD k 0 ≠ 0) :
    (∃ a b c, laggedReturns log ts close v false = .ok a ∧ laggedReturns log ts close w false = .ok b ∧
      laggedReturns log ts close (v + w) false = .ok c ∧
      ∃ r1 r2, a[i]? = some (.fin r1) ∧ b[j]? = some (.fin r2) ∧ c[i]? = some (.fin ((1 + r1) * (1 + r2) - 1))) ∧
    ((∀ x y, 0 < x → 0 < y → log (x * y) = log x + log y) → (∀ x ∈ close, 0 < x) →
      ∃ a b c, laggedReturns log ts close v true = .ok a ∧ laggedReturns log ts close w true = .ok b ∧
      laggedReturns log ts close (v + w) true = .ok c ∧
      ∃ r1 r2, a[i]? = some (.fin r1) ∧ b[j]? = some (.fin r2) ∧ c[i]? = some (.fin (r1 + r2))) := by
  have hs' : ts.Pairwise (· ≤ ·) := hs.imp (fun h => le_of_lt h)
  have hlastj : ∀ j', j < j' → j' < close.length → ts.getD i 0 - v < ts.getD j' 0 := by
    intro j' h1 h2
    rw [← hij, List.getD_eq_getElem _ _ (by omega), List.getD_eq_getElem _ _ (by omega)]
    exact List.pairwise_iff_getElem.mp hs j j' (by omega) (by omega) h1
  have get : ∀ isLog, ∃ a b c, laggedReturns log ts close v isLog = .ok a ∧ laggedReturns log ts close w isLog = .ok b ∧
      laggedReturns log ts close (v + w) isLog = .ok c ∧ a[i]? = some (returnOf log isLog (close.getD j 0) (close.getD i 0)) ∧
      b[j]? = some (returnOf log isLog (close.getD k 0) (close.getD j 0)) ∧
      c[i]? = some (returnOf log isLog (close.getD k 0) (close.getD i 0)) := by
    intro isLog
    obtain ⟨a, a1, -, a3⟩ := C36_uses_last_old_sample log ts close v isLog hv hs' hlen
    obtain ⟨b, b1, -, b3⟩ := C36_uses_last_old_sample log ts close w isLog hw hs' hlen
    obtain ⟨c, c1, -, c3⟩ := C36_uses_last_old_sample log ts close (v + w) isLog (by omega) hs' hlen
    refine ⟨a, b, c, a1, b1, c1, a3 i hi j hj (by omega) hlastj, b3 j hj k hk hjk hlast, c3 i hi k hk (by omega) ?_⟩
    intro j' h1 h2
    have := hlast j' h1 h2
    omega
  constructor
  · obtain ⟨a, b, c, a1, b1, c1, a2, b2, c2⟩ := get false
    refine ⟨a, b, c, a1, b1, c1, close.getD i 0 / close.getD j 0 - 1, close.getD j 0 / close.getD k 0 - 1, ?_, ?_, ?_⟩
    · rw [a2, returnOf, if_pos hcj]; rfl
    · rw [b2, returnOf, if_pos hck]; rfl
    · rw [c2]
      rw [returnOf, if_pos hck, if_neg Bool.false_ne_true]
      congr 2
      field_simp
      ring
  · intro hlog hpos
    have pos : ∀ m, m < close.length → 0 < close.getD m 0 := by
      intro m hm
      rw [List.getD_eq_getElem _ _ hm]
      exact hpos _ (List.getElem_mem hm)
    obtain ⟨a, b, c, a1, b1, c1, a2, b2, c2⟩ := get true
    refine ⟨a, b, c, a1, b1, c1, log (close.getD i 0 / close.getD j 0), log (close.getD j 0 / close.getD k 0), ?_, ?_, ?_⟩
    · rw [a2, returnOf, if_pos hcj]; rfl
    · rw [b2, returnOf, if_pos hck]; rfl
    · rw [c2, ← hlog _ _ (div_pos (pos i hi) (pos j hj)) (div_pos (pos j hj) (pos k hk)), div_mul_div_cancel₀ hcj, returnOf, if_pos hck]
      rfl

example : laggedReturns (fun x : ℚ => x) [0, 10, 20, 35] [2, 3, 6, 9] 15 false = .ok [.nan, .nan, .fin 2, .fin (1 / 2)] ∧
    laggedReturns (fun x : ℚ => x) [0, 10, 20, 35] [2, 3, 6, 9] 10 false = .ok [.nan, .fin (1 / 2), .fin 1, .fin (1 / 2)] ∧
    laggedReturns (fun x : ℚ => x) [0, 10, 20, 35] [2, 3, 6, 9] 25 false = .ok [.nan, .nan, .nan, .fin 2] := by decide +kernel

/-- **C171 (lagged returns, no bar in between).** Without a bar exactly `v` before, the returns need not compound: the
return over `v` reaches further back than `v`. -/
theorem C171_lagged_gap :
    laggedReturns (fun x : ℚ => x) [0, 10, 20, 35] [2, 3, 6, 9] 20 false = .ok [.nan, .nan, .fin 2, .fin 2] ∧
    laggedReturns (fun x : ℚ => x) [0, 10, 20, 35] [2, 3, 6, 9] 5 false = .ok [.nan, .fin (1 / 2), .fin 1, .fin (1 / 2)] ∧
    laggedReturns (fun x : ℚ => x) [0, 10, 20, 35] [2, 3, 6, 9] 25 false = .ok [.nan, .nan, .nan, .fin 2] ∧
    ((1 + 2) * (1 + 1 / 2) - 1 : ℚ) ≠ 2 := by decide +kernel

/-- **C171 (four-bar returns).** Behind the variance ratio, the four-bar return of logarithmic returns is the logarithm of
the price ratio over four bars. -/
theorem C171_four_bar_log (log : K → K) (price : List (Option K)) (i : Nat) (x a b c d : K) (h4 : 4 ≤ i) (hi : i < price.length)
    (hlog : ∀ x y, 0 < x → 0 < y → log (x * y) = log x + log y)
    (h0 : price.getD i none = some x) (h1 : price.getD (i - 1) none = some a) (h2 : price.getD (i - 2) none = some b)
    (h3 : price.getD (i - 3) none = some c) (h5 : price.getD (i - 4) none = some d)
    (px : 0 < x) (pa : 0 < a) (pb : 0 < b) (pc : 0 < c) (pd : 0 < d) :
    vrReturn4 (tabulate price.length (vrReturn log true price)) i = some (log (x / d)) := by
  have get : ∀ j, j < price.length → (tabulate price.length (vrReturn log true price)).getD j none = vrReturn log true price j := by
    intro j hj
    rw [List.getD_eq_getElem?_getD, tabulate_get?, if_pos hj]; rfl
  have one : ∀ j (u v : K), 1 ≤ j → price.getD j none = some u → price.getD (j - 1) none = some v → 0 < u → 0 < v →
      vrReturn log true price j = some (log (u / v)) := by
    intro j u v hj hu hv pu pv
    unfold vrReturn
    rw [if_neg (show ¬ j = 0 by omega), hu, hv]
    simp only [if_true]
    rw [if_neg (by rintro (h | h) <;> linarith)]
  unfold vrReturn4
  rw [if_neg (show ¬ i < 4 by omega), get i hi, get (i - 1) (by omega), get (i - 2) (by omega), get (i - 3) (by omega),
    one i x a (by omega) h0 h1 px pa, one (i - 1) a b (by omega) h1 (by rw [show i - 1 - 1 = i - 2 by omega]; exact h2) pa pb,
    one (i - 2) b c (by omega) h2 (by rw [show i - 2 - 1 = i - 3 by omega]; exact h3) pb pc,
    one (i - 3) c d (by omega) h3 (by rw [show i - 3 - 1 = i - 4 by omega]; exact h5) pc pd]
  simp only [Option.some.injEq]
  rw [← hlog _ _ (div_pos px pa) (div_pos pa pb), div_mul_div_cancel₀ pa.ne', ← hlog _ _ (div_pos px pb) (div_pos pb pc),
    div_mul_div_cancel₀ pb.ne', ← hlog _ _ (div_pos px pc) (div_pos pc pd), div_mul_div_cancel₀ pc.ne']

/-- **C171 (four-bar returns, simple).** With simple returns the four-bar return is their sum, which is not the return
over four bars; and the four-bar returns overlap, two neighbours share three bars. -/
theorem C171_four_bar_simple :
    let price : List (Option ℚ) := [some 1, some 2, some 4, some 8, some 16, some 16]
    let r := tabulate price.length (vrReturn (fun x => x) false price)
    r = [none, some 1, some 1, some 1, some 1, some 0] ∧ vrReturn4 r 4 = some 4 ∧ (16 / 1 - 1 : ℚ) = 15 ∧ vrReturn4 r 5 = some 3 := by
  decide +kernel

/-- Non-vacuity: with the number of factors 2 as logarithm. -/
example : let price : List (Option ℚ) := [some 1, some 2, some 4, some 8, some 16]
    let lg : ℚ → ℚ := fun x => (Nat.log2 x.num.natAbs : ℚ) - (Nat.log2 x.den : ℚ)
    vrReturn4 (tabulate price.length (vrReturn lg true price)) 4 = some 4 ∧ lg (16 / 1) = 4 := by decide +kernel

end FinML
