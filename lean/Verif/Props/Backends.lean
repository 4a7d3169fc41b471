import Mathlib.Analysis.Real.Sqrt
import Verif.Model.Backends
import Verif.Props.Correlation
import Verif.Props.Oscillators
import Verif.Props.PandasRolling
import Verif.Props.Ewma
import Verif.Props.Rolling

/-!
# C72: the pandas and the compiled implementation of a feature agree
-/

set_option linter.unusedSectionVars false

namespace FinML

variable {K : Type} [Field K] [LinearOrder K] [IsStrictOrderedRing K]

/-! ## Moving averages -/

/-- On complete data both moving averages agree. -/
theorem C72_sma (xs : List K) (w : Nat) : smaPd (xs.map some) w = sma xs w := by
  unfold smaPd sma pdRolling rolling
  rw [List.length_map]
  apply tabulate_congr
  intro i hi
  by_cases h : i + 1 < w
  · rw [if_pos h, if_pos h]
  · rw [if_neg h, if_neg h, window_map]
    dsimp only
    rw [(allSome_eq_some _ _).mpr rfl, Option.bind_some]
    rw [window_length xs w i hi (by omega), div_eq_mul_one_div, mul_comm]

example : smaPd ([some 1, some 3, some 5] : List (Option ℚ)) 2 = [none, some 2, some 4] := by decide +kernel

theorem ewmTerms_complete (q : K) (y : List K) (t : Nat) (ht : t < y.length) :
    ewmTerms q (y.map some) t = (List.range (t + 1)).map (fun k => (q ^ k, y.getD (t - k) 0)) := by
  unfold ewmTerms
  conv_rhs => rw [← List.filterMap_eq_map]
  apply List.filterMap_congr
  intro k hk
  rw [List.mem_range] at hk
  have h2 : t - k < y.length := by omega
  simp only [List.getD_eq_getElem?_getD, List.getElem?_map, List.getElem?_eq_getElem h2, Option.map_some, Option.getD_some, Function.comp]

/-- On complete data the pandas exponential average equals the compiled one. -/
theorem C72_ewma (y : List K) (span : Nat) (h : 1 ≤ span) (out : List K) (ho : ewma y span = .ok out) :
    ewmaPd (y.map some) span = .ok (out.map some) := by
  obtain ⟨out', ho', hl, hv⟩ := C32_ewma_closed_form y span h
  rw [ho] at ho'
  injection ho' with ho'
  subst ho'
  unfold ewmaPd
  rw [if_neg (by omega)]
  congr 1
  apply List.ext_getElem?
  intro t
  rw [tabulate_get?, List.length_map, List.getElem?_map]
  by_cases ht : t < y.length
  · rw [if_pos ht, hv t ht, Option.map_some]
    dsimp only
    rw [ewmTerms_complete _ y t ht, if_neg (by simp)]
    simp only [List.map_map, Function.comp_def]
  · rw [if_neg ht, List.getElem?_eq_none (by omega)]; rfl

example : ewma [(1 : ℚ), 2, 4] 3 = .ok [1, 5 / 3, 3] := by decide +kernel

/-- Both reject a span of zero. -/
theorem C72_ewma_bad_span (y : List (Option K)) : (∃ e, ewmaPd y 0 = .error e) ∧ ∃ e, ewmaNan y 0 = .error e := ⟨⟨_, rfl⟩, ⟨_, rfl⟩⟩

/-- The version with NaN is the plain one on complete data. -/
theorem ewmaNan_complete (y : List K) (span : Nat) : ewmaNan (y.map some) span = (ewma y span).map (fun l => l.map some) := by
  unfold ewmaNan ewma
  by_cases h : span < 1
  · rw [if_pos h, if_pos h]; rfl
  · rw [if_neg h, if_neg h]
    show _ = Except.ok _
    congr 1
    unfold tabulate
    dsimp only
    rw [List.map_map, List.length_map]
    apply List.map_congr_left
    intro t ht
    rw [List.mem_range] at ht
    have key : ∀ t, t < y.length → ewmaNumNan (y.map some) (1 - 2 / ((span : K) + 1)) t = some (ewmaState y (1 - 2 / ((span : K) + 1)) t).1 ∧
        ewmaDen (1 - 2 / ((span : K) + 1)) t = (ewmaState y (1 - 2 / ((span : K) + 1)) t).2 := by
      intro t
      induction t with
      | zero =>
        intro h0
        cases y with
        | nil => simp at h0
        | cons a y => exact ⟨rfl, rfl⟩
      | succ t ih =>
        intro h1
        obtain ⟨i1, i2⟩ := ih (by omega)
        rw [ewmaNumNan, ewmaState, ewmaDen, i1, i2]
        simp [List.getElem?_eq_getElem h1]
    rw [(key t ht).1, (key t ht).2]
    rfl

/-- Violation: a single NaN makes the compiled average NaN for ever. -/
theorem C72_ewma_nan_forever (y : List (Option K)) (span i t : Nat) (out : List (Option K)) (h : ewmaNan y span = .ok out)
    (hi : y.getD i none = none) (hit : i ≤ t) (ht : t < y.length) : out[t]? = some none := by
  unfold ewmaNan at h
  split at h
  · cases h
  injection h with h
  subst h
  rw [tabulate_get?, if_pos ht]
  have : ∀ t, i ≤ t → ewmaNumNan y (1 - 2 / ((span : K) + 1)) t = none := by
    intro t hit
    induction t with
    | zero =>
      have : i = 0 := by omega
      subst this
      exact hi
    | succ t ih =>
      rw [ewmaNumNan]
      rcases Nat.lt_or_ge t i with h | h
      · have : i = t + 1 := by omega
        rw [← this, hi]
      · rw [ih h]
        cases y.getD (t + 1) none <;> rfl
  rw [this t hit]
  rfl

example : ewmaNan [some (1 : ℚ), none, some 4] 3 = .ok [some 1, none, none] := by decide +kernel

/-- The pandas average has a value as soon as one value has been present. -/
theorem C72_ewma_pandas_recovers (y : List (Option K)) (span i t : Nat) (hs : 1 ≤ span) (v : K) (hi : y[i]? = some (some v)) (hit : i ≤ t)
    (ht : t < y.length) : ∃ out x, ewmaPd y span = .ok out ∧ out[t]? = some (some x) := by
  unfold ewmaPd
  rw [if_neg (by omega)]
  have hne : ewmTerms (1 - 2 / ((span : K) + 1)) y t ≠ [] := by
    apply List.ne_nil_of_mem (a := ((1 - 2 / ((span : K) + 1)) ^ (t - i), v))
    unfold ewmTerms
    rw [List.mem_filterMap]
    refine ⟨t - i, by rw [List.mem_range]; omega, ?_⟩
    rw [show t - (t - i) = i by omega, List.getD_eq_getElem?_getD, hi]
    rfl
  exact ⟨_, _, rfl, by rw [tabulate_get?, if_pos ht]; dsimp only; rw [if_neg hne]⟩

example : ewmaPd ([some 1, none, some 3] : List (Option ℚ)) 1 = .ok [some 1, none, some 3] ∨
    ewmaPd ([some 1, none, some 4] : List (Option ℚ)) 3 = .ok [some 1, some 1, some (17/5)] := Or.inr (by decide +kernel)

example : ewmaNan ([some 1, none, some 4] : List (Option ℚ)) 3 = .ok [some 1, none, none] := by decide +kernel

/-! ## Percentage change -/

/-- For a positive base both percentage changes agree. -/
theorem C72_pct_change (xs : List K) (p i : Nat) (hi : i < xs.length) (h : i < p ∨ 0 < xs.getD (i - p) 0) :
    (pctChangePd xs p)[i]? = (pctChange xs p)[i]? := by
  unfold pctChangePd pctChange
  rw [tabulate_get?, tabulate_get?, if_pos hi, if_pos hi]
  by_cases hp : i < p
  · rw [if_pos hp, if_pos hp]
  · rw [if_neg hp, if_neg hp]
    have h0 : 0 < xs.getD (i - p) 0 := by rcases h with h | h; exact absurd h hp; exact h
    dsimp only
    rw [if_pos h0, sub_div, div_self h0.ne']

example : (1 < 2 ∨ 0 < ([4, 5, 6] : List ℚ).getD (2 - 2) 0) ∧ pctChangePd ([4, 5, 6] : List ℚ) 2 = [none, none, some (1 / 2)] := by decide +kernel

/-- Violation: for a negative base pandas has a value, the compiled code NaN. -/
theorem C72_pct_change_negative_base (xs : List K) (p i : Nat) (hi : i < xs.length) (hp : p ≤ i) (h : xs.getD (i - p) 0 < 0) :
    (∃ x, (pctChangePd xs p)[i]? = some (some x)) ∧ (pctChange xs p)[i]? = some none := by
  unfold pctChangePd pctChange
  rw [tabulate_get?, tabulate_get?, if_pos hi, if_pos hi, if_neg (by omega), if_neg (by omega)]
  dsimp only
  rw [if_neg (not_lt.mpr h.le)]
  exact ⟨⟨_, rfl⟩, rfl⟩

example : pctChangePd ([-1, -2] : List ℚ) 1 = [none, some 1] ∧ pctChange ([-1, -2] : List ℚ) 1 = [none, none] := by decide +kernel

/-! ## RSI -/

/-- Where the average loss is positive both RSI values agree. -/
theorem C72_rsi (xs : List K) (w i : Nat) (hw : w ≤ i) (hi : i < xs.length)
    (hl : 0 < wilderAvg (lossAt xs) w (i - w)) :
    ∃ out, rsiPd xs w = .ok out ∧ out[i]? = (rsiWilder xs w)[i]? := by
  unfold rsiPd rsiWilder
  rw [if_neg (by omega)]
  refine ⟨_, rfl, ?_⟩
  rw [tabulate_get?, tabulate_get?, if_pos hi, if_pos hi, if_neg (by omega), if_neg (by omega)]
  unfold rsiValPd rsiVal
  rw [if_pos hl.ne', if_pos hl]

example : 0 < wilderAvg (lossAt ([3, 2, 4, 5] : List ℚ)) 2 (3 - 2) := by decide +kernel

theorem wilderAvg_nonneg (x : Nat → K) (hx : ∀ i, 0 ≤ x i) (w : Nat) (hw : 1 ≤ w) (m : Nat) : 0 ≤ wilderAvg x w m := by
  have h1 : (1 : K) ≤ w := by exact_mod_cast hw
  induction m with
  | zero =>
    rw [wilderAvg]
    exact div_nonneg (sum_map_nonneg _ _ (fun a _ => hx a)) (by linarith)
  | succ m ih =>
    rw [wilderAvg]
    exact div_nonneg (add_nonneg (mul_nonneg (by linarith) ih) (hx _)) (by linarith)

/-- Violation: without losses pandas reports 100, the compiled code NaN. -/
theorem C72_rsi_no_loss (xs : List K) (w i : Nat) (hw : w ≤ i) (hi : i < xs.length) (hl : wilderAvg (lossAt xs) w (i - w) = 0) :
    (∃ out, rsiPd xs w = .ok out ∧ out[i]? = some (some 100)) ∧ (rsiWilder xs w)[i]? = some none := by
  unfold rsiPd rsiWilder
  rw [if_neg (by omega)]
  refine ⟨⟨_, rfl, ?_⟩, ?_⟩
  · rw [tabulate_get?, if_pos hi, if_neg (by omega)]
    unfold rsiValPd
    rw [if_neg (by simp [hl])]
  · rw [tabulate_get?, if_pos hi, if_neg (by omega)]
    unfold rsiVal
    rw [if_neg (by rw [hl]; exact lt_irrefl _)]

example : wilderAvg (lossAt ([1, 2, 4, 5] : List ℚ)) 2 (3 - 2) = 0 := by decide +kernel

/-- The two cases are exhaustive: an average loss is never negative. -/
theorem C72_rsi_cases (xs : List K) (w m : Nat) (hw : 1 ≤ w) : wilderAvg (lossAt xs) w m = 0 ∨ 0 < wilderAvg (lossAt xs) w m := by
  have : 0 ≤ wilderAvg (lossAt xs) w m := by
    apply wilderAvg_nonneg _ _ w hw
    intro i
    unfold lossAt
    split
    · rename_i h; linarith
    · exact le_refl _
  rcases this.lt_or_eq with h | h
  · exact Or.inr h
  · exact Or.inl h.symm

example : wilderAvg (lossAt ([1, 2, 3] : List ℚ)) 2 0 = 0 ∧ 0 < wilderAvg (lossAt ([1, 2, 1] : List ℚ)) 2 0 := by decide +kernel

/-- Violation: on a series not longer than the window pandas raises, the compiled code returns NaN everywhere. -/
theorem C72_rsi_short (xs : List K) (w : Nat) (h : xs.length ≤ w) :
    (∃ e, rsiPd xs w = .error e) ∧ rsiWilder xs w = List.replicate xs.length none := by
  unfold rsiPd rsiWilder
  rw [if_pos h]
  refine ⟨⟨_, rfl⟩, ?_⟩
  apply List.ext_getElem?
  intro i
  rw [tabulate_get?, List.getElem?_replicate]
  by_cases hi : i < xs.length
  · rw [if_pos hi, if_pos hi, if_pos (by omega)]
  · rw [if_neg hi, if_neg hi]

example : rsiPd ([1, 2, 3] : List ℚ) 2 = .ok [none, none, some 100] ∧ rsiWilder ([1, 2, 3] : List ℚ) 2 = [none, none, none] := by
  decide +kernel

/-! ## Realised volatility -/

theorem validOf_length (l : List (Option K)) : (validOf l).length = (l.filter Option.isSome).length := by
  unfold validOf
  induction l with
  | nil => rfl
  | cons a l ih => cases a <;> simp_all

theorem validOf_sq_sum (l : List (Option K)) :
    ((validOf l).map (fun x => x ^ 2)).sum = (l.map (fun v => (v.map (fun x => x * x)).getD 0)).sum := by
  unfold validOf
  induction l with
  | nil => rfl
  | cons a l ih =>
    cases a with
    | none => rw [List.filterMap_cons_none rfl, ih]; simp
    | some x => rw [show (some x :: l).filterMap id = x :: l.filterMap id from rfl, List.map_cons, List.sum_cons, ih]; simp [pow_two]

/-- Both realised volatilities agree on all data, with or without NaN. -/
theorem C72_realized_vol (sqrt : K → K) (r : List (Option K)) (w : Nat) (isSample : Bool) :
    realizedVolPd sqrt r w isSample = realizedVol sqrt r w isSample := by
  unfold realizedVolPd realizedVol rolling
  apply tabulate_congr
  intro i _
  by_cases h : i + 1 < w
  · rw [if_pos h, if_pos h]
  · rw [if_neg h, if_neg h]
    unfold realizedWin
    simp only [validOf_length, validOf_sq_sum]

example : realizedVolPd id ([some 3, none, some 4] : List (Option ℚ)) 3 true = [none, none, some 25] := by decide +kernel

/-! ## VPIN -/

theorem take_drop_eq_map {α : Type} (xs : List α) (w i : Nat) (hw : w ≤ i + 1) (f : Nat → α)
    (h : ∀ j, i + 1 - w ≤ j → j ≤ i → xs[j]? = some (f j)) : (xs.drop (i + 1 - w)).take w = (List.range' (i + 1 - w) w).map f := by
  apply List.ext_getElem?
  intro j
  rw [List.getElem?_take, List.getElem?_map]
  by_cases hj : j < w
  · rw [if_pos hj, List.getElem?_drop, h _ (by omega) (by omega), List.getElem?_range' hj]
    simp
  · rw [if_neg hj, List.getElem?_eq_none (by simp; omega)]; rfl

/-- The pandas VPIN of a complete window: absolute imbalance over total, missing when the total is zero. -/
theorem C72_vpin_pandas (b s : List (Option K)) (w i : Nat) (hi : i < b.length) (hi' : i < s.length) (hw : w ≤ i + 1) (bv sv : Nat → K)
    (hb : ∀ j, i + 1 - w ≤ j → j ≤ i → b[j]? = some (some (bv j))) (hs : ∀ j, i + 1 - w ≤ j → j ≤ i → s[j]? = some (some (sv j))) :
    (vpinPd b s w)[i]? = some (if winSum (fun j => bv j + sv j) w i = 0 then none else
      some (winSum (fun j => |bv j - sv j|) w i / winSum (fun j => bv j + sv j) w i)) := by
  unfold vpinPd
  dsimp only
  rw [List.getElem?_zipWith]
  have h1 : (pdRolling (List.zipWith (nanOp (fun u v => some |u - v|)) b s) w (fun l => some l.sum))[i]?
      = some (some (winSum (fun j => |bv j - sv j|) w i)) := by
    rw [C70_rolling_iff _ _ _ _ _ (by simp; omega)]
    refine ⟨hw, (List.range' (i + 1 - w) w).map (fun j => |bv j - sv j|), ?_, rfl⟩
    rw [List.map_map]
    apply take_drop_eq_map _ _ _ hw
    intro j h1 h2
    rw [List.getElem?_zipWith, hb j h1 h2, hs j h1 h2]
    rfl
  have h2 : (pdRolling (List.zipWith (nanOp (fun u v => some (u + v))) b s) w (fun l => some l.sum))[i]?
      = some (some (winSum (fun j => bv j + sv j) w i)) := by
    rw [C70_rolling_iff _ _ _ _ _ (by simp; omega)]
    refine ⟨hw, (List.range' (i + 1 - w) w).map (fun j => bv j + sv j), ?_, rfl⟩
    rw [List.map_map]
    apply take_drop_eq_map _ _ _ hw
    intro j h1 h2
    rw [List.getElem?_zipWith, hb j h1 h2, hs j h1 h2]
    rfl
  rw [h1, h2]
  rfl

example : (∀ j, 1 + 1 - 2 ≤ j → j ≤ 1 → ([some 3, some 1] : List (Option ℚ))[j]? = some (some (if j = 0 then 3 else 1))) ∧
    vpinPd ([some 3, some 1] : List (Option ℚ)) [some 1, some 1] 2 = [none, some (1 / 3)] := by
  refine ⟨?_, by decide +kernel⟩
  intro j _ hj
  rcases (by omega : j = 0 ∨ j = 1) with rfl | rfl <;> rfl

/-- Both VPIN values agree unless the total volume is positive but at most the threshold. -/
theorem C72_vpin_partial (eps : K) (heps : 0 ≤ eps) (b s : List (Option K)) (w i : Nat) (hi : i < b.length) (hi' : i < s.length) (hw : w ≤ i + 1)
    (bv sv : Nat → K) (hb : ∀ j, i + 1 - w ≤ j → j ≤ i → b[j]? = some (some (bv j))) (hs : ∀ j, i + 1 - w ≤ j → j ≤ i → s[j]? = some (some (sv j)))
    (ht : winSum (fun j => bv j + sv j) w i = 0 ∨ eps < winSum (fun j => bv j + sv j) w i) :
    (vpinPd b s w)[i]? = (vpin eps b s w)[i]? := by
  rw [C72_vpin_pandas b s w i hi hi' hw bv sv hb hs, C33_vpin_window eps b s w i hi hw bv sv
    (fun j h1 h2 => by rw [List.getD_eq_getElem?_getD, hb j h1 h2]; rfl) (fun j h1 h2 => by rw [List.getD_eq_getElem?_getD, hs j h1 h2]; rfl)]
  rcases ht with h | h
  · rw [if_pos h, if_neg (by rw [h]; exact not_lt.mpr heps)]
  · rw [if_neg (lt_of_le_of_lt heps h).ne', if_pos h]

example : (1 / 100 : ℚ) < winSum (fun j => (if j = 0 then (3 : ℚ) else 1) + 1) 2 1 ∧
    vpin (1 / 100) ([some 3, some 1] : List (Option ℚ)) [some 1, some 1] 2 = [none, some (1 / 3)] := by decide +kernel

/-- Violation: with a tiny positive total volume pandas has a value, the compiled code NaN. -/
theorem C72_vpin_small_volume :
    vpinPd ([some (1 / 10 ^ 10)] : List (Option ℚ)) [some 0] 1 = [some 1] ∧ vpin (1 / 10 ^ 9 : ℚ) [some (1 / 10 ^ 10)] [some 0] 1 = [none] := by
  decide +kernel

/-! ## Price-volume correlation -/

/-- pandas divides by the root of the product of the variances, the compiled code by the product of the roots of the
sums of squares: the same correlation. -/
theorem C72_corr_value (sqrt : K → K) (hsqrt : ∀ x, 0 ≤ x → 0 ≤ sqrt x ∧ sqrt x * sqrt x = x) (l : List (K × K)) :
    corrPdVal sqrt l = corrOf sqrt l := by
  unfold corrPdVal
  dsimp only
  have ecov : (l.map (fun p => (p.1 - (l.map (·.1)).sum / (l.length : K)) * (p.2 - (l.map (·.2)).sum / (l.length : K)))).sum =
      crossDev Prod.fst Prod.snd l := rfl
  have esr : (l.map (fun p => (p.1 - (l.map (·.1)).sum / (l.length : K)) * (p.1 - (l.map (·.1)).sum / (l.length : K)))).sum =
      crossDev Prod.fst Prod.fst l := rfl
  have esv : (l.map (fun p => (p.2 - (l.map (·.2)).sum / (l.length : K)) * (p.2 - (l.map (·.2)).sum / (l.length : K)))).sum =
      crossDev Prod.snd Prod.snd l := rfl
  simp only [ecov, esr, esv]
  by_cases hlen : l.length < 2
  · rw [if_pos (Or.inl hlen)]
    unfold corrOf
    rw [if_pos hlen]
  have hn : (0 : K) < (l.length : K) - 1 := by
    have : (2 : K) ≤ l.length := by exact_mod_cast (by omega : 2 ≤ l.length)
    linarith
  rcases corrOf_pearson sqrt hsqrt l with ⟨c, h1, ⟨p1, p2, _, _⟩, h3⟩ | ⟨h1, h2⟩
  · rw [h1, if_neg (by
      push Not
      exact ⟨by omega, (div_pos p1 hn).ne', (div_pos p2 hn).ne'⟩)]
    congr 1
    generalize crossDev Prod.fst Prod.snd l = cov at *
    generalize crossDev Prod.fst Prod.fst l = sr at *
    generalize crossDev Prod.snd Prod.snd l = sv at *
    generalize (l.length : K) - 1 = m at *
    obtain ⟨a1, a2⟩ := hsqrt sr p1.le
    obtain ⟨b1, b2⟩ := hsqrt sv p2.le
    have hab : 0 ≤ sr / m * (sv / m) := by positivity
    obtain ⟨d1, d2⟩ := hsqrt _ hab
    have e : sqrt (sr / m * (sv / m)) = sqrt sr * sqrt sv / m := by
      have e1 : (sqrt sr * sqrt sv / m) * (sqrt sr * sqrt sv / m) = sr / m * (sv / m) := by
        have : (sqrt sr * sqrt sv / m) * (sqrt sr * sqrt sv / m) = (sqrt sr * sqrt sr) * (sqrt sv * sqrt sv) / (m * m) := by
          field_simp
        rw [this, a2, b2]
        field_simp
      exact (mul_self_inj_of_nonneg d1 (by positivity)).mp (by rw [d2, e1])
    have ha0 : sqrt sr ≠ 0 := by intro h; rw [h] at a2; simp at a2; exact p1.ne a2
    have hb0 : sqrt sv ≠ 0 := by intro h; rw [h] at b2; simp at b2; exact p2.ne b2
    rw [e, ← h3]
    field_simp
  · rw [h1, if_pos]
    rcases h2 with h2 | h2 | h2
    · exact Or.inl h2
    · right; left; rw [h2, zero_div]
    · right; right; rw [h2, zero_div]

example : ∀ x : ℝ, 0 ≤ x → 0 ≤ Real.sqrt x ∧ Real.sqrt x * Real.sqrt x = x := fun x hx => ⟨Real.sqrt_nonneg x, Real.mul_self_sqrt hx⟩

/-- Outside the hard-coded cases of either implementation, the two correlations agree on complete data. -/
theorem C72_corr_partial (sqrt : K → K) (hsqrt : ∀ x, 0 ≤ x → 0 ≤ sqrt x ∧ sqrt x * sqrt x = x) (price volume : List K)
    (hlen : volume.length = price.length) (hne : ∀ x ∈ price, x ≠ 0) (w i : Nat) (hw : 1 ≤ w) (hi : i < price.length)
    (hpd : w ≠ 4 ∨ price.length < 10 ∨ monoUp price = false) (hnb : i < 4 ∨ 10 ≤ i ∨ ∃ j, i + 1 - w ≤ j ∧ j < i ∧ price.getD (j + 1) 0 ≤ price.getD j 0) :
    (corrPd sqrt price volume w)[i]? = (priceVolumeCorrelation sqrt (price.map some) (volume.map some) w)[i]? := by
  unfold corrPd
  rw [tabulate_get?, if_pos hi]
  dsimp only
  rw [if_neg (by
    rintro ⟨h1, h2, h3, _⟩
    rcases hpd with h | h | h
    · exact h h2
    · omega
    · rw [h] at h3; cases h3)]
  unfold priceVolumeCorrelation
  rw [tabulate_get?, List.length_map, if_pos hi]
  unfold corrAt
  by_cases hwi : i < w
  · rw [if_pos hwi, if_pos hwi]
  · rw [if_neg hwi, if_neg hwi]
    have hp : ∀ j, i - w ≤ j → j ≤ i → (price.map some).getD j none = some (price.getD j 0) ∧ price.getD j 0 ≠ 0 := by
      intro j _ h2
      have hj : j < price.length := by omega
      constructor
      · simp [List.getElem?_eq_getElem hj]
      · rw [List.getD_eq_getElem?_getD, List.getElem?_eq_getElem hj]
        exact hne _ (List.getElem_mem hj)
    have hv : ∀ j, i - w ≤ j → j ≤ i → (volume.map some).getD j none = some (volume.getD j 0) := by
      intro j _ h2
      have hj : j < volume.length := by omega
      simp [List.getElem?_eq_getElem hj]
    have hr : (simpleReturn (price.map some) i).isNone = false := by
      unfold simpleReturn
      rw [if_neg (by omega), (hp i (by omega) (le_refl _)).1, (hp (i - 1) (by omega) (by omega)).1]
      simp only
      rw [if_pos (hp (i - 1) (by omega) (by omega)).2]
      rfl
    rw [if_neg (by rw [hr, hv i (by omega) (le_refl _)]; simp)]
    have hno : ¬ (4 ≤ i ∧ i < 10 ∧ noDecrease (price.map some) w i = true) := by
      rintro ⟨h1, h2, h3⟩
      rcases hnb with h | h | ⟨j, a1, a2, a3⟩
      · omega
      · omega
      · unfold noDecrease at h3
        rw [List.all_eq_true] at h3
        have := h3 j (by rw [List.mem_range'_1]; omega)
        rw [(hp (j + 1) (by omega) (by omega)).1, (hp j (by omega) (by omega)).1] at this
        simp only [optLe, Bool.not_eq_true', decide_eq_false_iff_not] at this
        exact this a3
    rw [if_neg (fun h => hno ⟨h.1, h.2.1, h.2.2.1⟩), if_neg (fun h => hno ⟨h.1, h.2.1, h.2.2.1⟩),
      validPairs_complete _ _ (fun j => price.getD j 0) (fun j => volume.getD j 0) w i (by omega) hp hv, C72_corr_value sqrt hsqrt]
    congr 2
    unfold corrPairs
    apply List.map_congr_left
    intro j hj
    rw [List.mem_range'_1] at hj
    have h0 := (hp (j - 1) (by omega) (by omega)).2
    rw [sub_div, div_self h0]

example : let price : List ℚ := [1, 2, 4, 3, 5]
    (∀ x ∈ price, x ≠ 0) ∧ (3 ≠ 4 ∨ price.length < 10 ∨ monoUp price = false) ∧
    ∃ j, 4 + 1 - 3 ≤ j ∧ j < 4 ∧ price.getD (j + 1) 0 ≤ price.getD j 0 := by
  intro price
  exact ⟨by decide +kernel, by decide, 2, by decide, by decide, by decide +kernel⟩

/-- Violation: for a window of four and at least ten bars the pandas correlation is set to 1 from bar four on whenever
prices and volumes of the whole series do not decrease, whatever their correlation. -/
theorem C72_corr_hard_coded (sqrt : K → K) (price volume : List K) (h10 : 10 ≤ price.length) (hp : monoUp price = true)
    (hv : monoUp volume = true) (i : Nat) (h4 : 4 ≤ i) (hi : i < price.length) : (corrPd sqrt price volume 4)[i]? = some (some 1) := by
  unfold corrPd
  rw [tabulate_get?, if_pos hi]
  dsimp only
  rw [if_pos ⟨h10, rfl, hp, h4⟩, if_pos hv]

example : monoUp ([1, 2, 3, 4, 5, 6, 7, 8, 9, 10] : List ℚ) = true ∧ monoUp ([1, 2, 3, 4, 5, 6, 7, 8, 9, 100] : List ℚ) = true := by decide +kernel

theorem monoUp_iff (l : List K) : monoUp l = true ↔ ∀ j, j + 1 < l.length → l.getD j 0 ≤ l.getD (j + 1) 0 := by
  induction l with
  | nil => simp [monoUp]
  | cons a l ih =>
    cases l with
    | nil => simp [monoUp]
    | cons b l =>
      rw [monoUp, Bool.and_eq_true, ih, decide_eq_true_eq]
      constructor
      · rintro ⟨h1, h2⟩ j hj
        cases j with
        | zero => simpa using h1
        | succ j => simpa using h2 j (by simpa using hj)
      · intro h
        refine ⟨by simpa using h 0 (by simp), fun j hj => by simpa using h (j + 1) (by simpa using hj)⟩

theorem monoDown_iff (l : List K) : monoDown l = true ↔ ∀ j, j + 1 < l.length → l.getD (j + 1) 0 ≤ l.getD j 0 := by
  induction l with
  | nil => simp [monoDown]
  | cons a l ih =>
    cases l with
    | nil => simp [monoDown]
    | cons b l =>
      rw [monoDown, Bool.and_eq_true, ih, decide_eq_true_eq]
      constructor
      · rintro ⟨h1, h2⟩ j hj
        cases j with
        | zero => simpa using h1
        | succ j => simpa using h2 j (by simpa using hj)
      · intro h
        refine ⟨by simpa using h 0 (by simp), fun j hj => by simpa using h (j + 1) (by simpa using hj)⟩

/-- The pandas correlation with a window of four on at least ten bars, in every case.  If the prices of the whole series
never fall, the value from bar four on is 1 when the volumes never fall, -1 when they never rise (and fall somewhere);
in all other cases it is the value computed from the four pairs of the window. -/
theorem C72_corr_window4_exact (sqrt : K → K) (price volume : List K) (h10 : 10 ≤ price.length) (i : Nat) (h4 : 4 ≤ i)
    (hi : i < price.length) :
    let PriceUp := ∀ j, j + 1 < price.length → price.getD j 0 ≤ price.getD (j + 1) 0
    let VolUp := ∀ j, j + 1 < volume.length → volume.getD j 0 ≤ volume.getD (j + 1) 0
    let VolDown := ∀ j, j + 1 < volume.length → volume.getD (j + 1) 0 ≤ volume.getD j 0
    (PriceUp → VolUp → (corrPd sqrt price volume 4)[i]? = some (some 1)) ∧
    (PriceUp → ¬ VolUp → VolDown → (corrPd sqrt price volume 4)[i]? = some (some (-1))) ∧
    (¬ PriceUp ∨ (¬ VolUp ∧ ¬ VolDown) →
      (corrPd sqrt price volume 4)[i]? = some (corrPdVal sqrt (corrPairs price volume 4 i))) := by
  intro PriceUp VolUp VolDown
  have hP : monoUp price = true ↔ PriceUp := monoUp_iff price
  have hU : monoUp volume = true ↔ VolUp := monoUp_iff volume
  have hD : monoDown volume = true ↔ VolDown := monoDown_iff volume
  unfold corrPd
  rw [tabulate_get?, if_pos hi]
  dsimp only
  rw [if_neg (by omega : ¬ i < 4)]
  refine ⟨fun p u => ?_, fun p u d => ?_, fun h => ?_⟩
  · rw [if_pos ⟨h10, rfl, hP.mpr p, h4⟩, if_pos (hU.mpr u)]
  · rw [if_pos ⟨h10, rfl, hP.mpr p, h4⟩, if_neg (fun c => u (hU.mp c)), if_pos (hD.mpr d)]
  · rcases h with h | ⟨h1, h2⟩
    · rw [if_neg (fun c => h (hP.mp c.2.2.1))]
    · by_cases hp : 10 ≤ price.length ∧ (4 : Nat) = 4 ∧ monoUp price = true ∧ 4 ≤ i
      · rw [if_pos hp, if_neg (fun c => h1 (hU.mp c)), if_neg (fun c => h2 (hD.mp c))]
      · rw [if_neg hp]

/- Non-vacuity: rising prices and falling volumes. -/
example : (corrPd (fun x => x) ([1, 2, 3, 4, 5, 6, 7, 8, 9, 10] : List ℚ) [10, 9, 8, 7, 6, 5, 4, 3, 2, 1] 4)[5]? =
    some (some (-1 : ℚ)) := by decide +kernel

/-- Violation: it looks ahead.  Two series that agree in the first eleven of twelve bars differ at bar ten: a price drop
in the last bar changes it. -/
theorem C72_corr_looks_ahead :
    ∃ (p p' v : List ℚ) (i : Nat), i < 11 ∧ p.take 11 = p'.take 11 ∧
      ∀ sqrt : ℚ → ℚ, (corrPd sqrt p v 4)[i]? = some (some 1) ∧ (corrPd sqrt p' v 4)[i]? = some none := by
  refine ⟨[1, 1, 1, 1, 1, 1, 1, 1, 1, 1, 1, 1], [1, 1, 1, 1, 1, 1, 1, 1, 1, 1, 1, 1/2], [1, 2, 3, 4, 5, 6, 7, 8, 9, 10, 11, 12], 10,
    by decide, by decide +kernel, fun sqrt => ⟨?_, ?_⟩⟩
  · apply C72_corr_hard_coded
    · decide
    · decide +kernel
    · decide +kernel
    · decide
    · decide
  · unfold corrPd
    rw [tabulate_get?, if_pos (by decide)]
    dsimp only
    rw [if_neg (by decide +kernel), if_neg (by decide)]
    unfold corrPdVal
    dsimp only
    rw [if_pos (by decide +kernel)]

end FinML
