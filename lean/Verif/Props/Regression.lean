import Mathlib.Analysis.SpecialFunctions.Log.Basic
import Verif.Model.PandasFeatures
import Verif.Lemmas.Indicators
import Verif.Props.PandasRolling

/-!
# C71: trend slope and Hurst exponent are least-squares fits
-/

set_option linter.unusedSectionVars false

namespace FinML

variable {K : Type} [Field K] [LinearOrder K] [IsStrictOrderedRing K]

/-- Sum of squared residuals of the line `a + b x`. -/
def residuals (l : List (K × K)) (a b : K) : K := (l.map (fun p => (p.2 - (a + b * p.1)) ^ 2)).sum

theorem sum_fst_dev (l : List (K × K)) (m : K) (h : (l.map Prod.fst).sum = l.length * m) : (l.map (fun p => p.1 - m)).sum = 0 := by
  have : (l.map (fun p => p.1 - m)).sum = (l.map Prod.fst).sum - l.length * m := by
    clear h
    induction l with
    | nil => simp
    | cons a l ih => simp only [List.map_cons, List.sum_cons, ih, List.length_cons]; push_cast; ring
  rw [this, h, sub_self]

theorem sum_snd_dev (l : List (K × K)) (m : K) (h : (l.map Prod.snd).sum = l.length * m) : (l.map (fun p => p.2 - m)).sum = 0 := by
  have : (l.map (fun p => p.2 - m)).sum = (l.map Prod.snd).sum - l.length * m := by
    clear h
    induction l with
    | nil => simp
    | cons a l ih => simp only [List.map_cons, List.sum_cons, ih, List.length_cons]; push_cast; ring
  rw [this, h, sub_self]

/-- Expansion of the residuals around the centre `(mx, my)`. -/
theorem residuals_expand (l : List (K × K)) (mx my a b : K) :
    residuals l a b = (l.map (fun p => (p.2 - my) ^ 2)).sum - 2 * b * (l.map (fun p => (p.1 - mx) * (p.2 - my))).sum
      + b ^ 2 * (l.map (fun p => (p.1 - mx) ^ 2)).sum + 2 * (my - a - b * mx) * ((l.map (fun p => p.2 - my)).sum - b * (l.map (fun p => p.1 - mx)).sum)
      + l.length * (my - a - b * mx) ^ 2 := by
  unfold residuals
  induction l with
  | nil => simp
  | cons p l ih => simp only [List.map_cons, List.sum_cons, ih, List.length_cons]; push_cast; ring

/-- The slope is the least-squares slope: together with the intercept through the centre of the points, no line has
a smaller sum of squared residuals. -/
theorem C71_least_squares (l : List (K × K)) (hl : l ≠ []) (a b : K) :
    residuals l ((l.map Prod.snd).sum / l.length - slopeOf l * ((l.map Prod.fst).sum / l.length)) (slopeOf l) ≤ residuals l a b := by
  have hn0 : (0 : K) < l.length := by exact_mod_cast List.length_pos_iff.mpr hl
  set mx := (l.map Prod.fst).sum / (l.length : K) with hmx
  set my := (l.map Prod.snd).sum / (l.length : K) with hmy
  have h1 := sum_fst_dev l mx (by rw [hmx]; field_simp)
  have h2 := sum_snd_dev l my (by rw [hmy]; field_simp)
  rw [residuals_expand l mx my, residuals_expand l mx my a b, h1, h2]
  set sxx := (l.map (fun p => (p.1 - mx) ^ 2)).sum with hsxx
  set sxy := (l.map (fun p => (p.1 - mx) * (p.2 - my))).sum with hsxy
  have hs : slopeOf l = sxy / sxx := rfl
  have hnn : 0 ≤ sxx := sum_map_nonneg _ _ (fun _ _ => sq_nonneg _)
  have h3 : 0 ≤ (l.length : K) * (my - a - b * mx) ^ 2 := by positivity
  by_cases h0 : sxx = 0
  · have hz : ∀ p ∈ l, p.1 - mx = 0 := by
      intro p hp
      have : (p.1 - mx) ^ 2 ≤ 0 := by
        rw [← h0, hsxx]
        exact List.single_le_sum (by simp only [List.mem_map]; rintro _ ⟨a, _, rfl⟩; exact sq_nonneg _) _ (List.mem_map_of_mem (f := fun p : K × K => (p.1 - mx) ^ 2) hp)
      exact pow_eq_zero_iff two_ne_zero |>.mp (le_antisymm this (sq_nonneg _))
    have hxy : sxy = 0 := by
      rw [hsxy]
      apply List.sum_eq_zero
      simp only [List.mem_map]
      rintro _ ⟨p, hp, rfl⟩
      rw [hz p hp, zero_mul]
    rw [hs, h0, hxy]
    simp only [div_zero]
    nlinarith
  · have hpos : 0 < sxx := lt_of_le_of_ne hnn (Ne.symm h0)
    have e : slopeOf l * sxx = sxy := by rw [hs]; field_simp
    have : 0 ≤ (slopeOf l - b) ^ 2 * sxx := by positivity
    have h4 : (my - (my - slopeOf l * mx) - slopeOf l * mx) = 0 := by ring
    rw [h4, ← e]
    nlinarith

example : residuals [(0, 1), (1, 2), (2, (2 : ℚ))] (7 / 6) (slopeOf [(0, 1), (1, 2), (2, (2 : ℚ))]) = 1 / 6 ∧
    residuals [(0, 1), (1, 2), (2, (2 : ℚ))] 1 1 = 1 := by decide +kernel

/-- The minimising slope is unique as soon as two abscissas differ. -/
theorem C71_least_squares_unique (l : List (K × K)) (p q : K × K) (hp : p ∈ l) (hq : q ∈ l) (hpq : p.1 ≠ q.1) (a b : K)
    (h : ∀ a' b', residuals l a b ≤ residuals l a' b') : b = slopeOf l := by
  have hl : l ≠ [] := List.ne_nil_of_mem hp
  have hn0 : (0 : K) < l.length := by exact_mod_cast List.length_pos_iff.mpr hl
  set mx := (l.map Prod.fst).sum / (l.length : K) with hmx
  set my := (l.map Prod.snd).sum / (l.length : K) with hmy
  have h1 := sum_fst_dev l mx (by rw [hmx]; field_simp)
  have h2 := sum_snd_dev l my (by rw [hmy]; field_simp)
  have h := h (my - slopeOf l * mx) (slopeOf l)
  rw [residuals_expand l mx my, residuals_expand l mx my (my - slopeOf l * mx), h1, h2] at h
  set sxx := (l.map (fun p => (p.1 - mx) ^ 2)).sum with hsxx
  set sxy := (l.map (fun p => (p.1 - mx) * (p.2 - my))).sum with hsxy
  have hs : slopeOf l = sxy / sxx := rfl
  have single : ∀ r ∈ l, (r.1 - mx) ^ 2 ≤ sxx := fun r hr =>
    List.single_le_sum (by simp only [List.mem_map]; rintro _ ⟨a, _, rfl⟩; exact sq_nonneg _) _ (List.mem_map_of_mem (f := fun p : K × K => (p.1 - mx) ^ 2) hr)
  have hpos : 0 < sxx := by
    rcases lt_or_eq_of_le (sum_map_nonneg l (fun p : K × K => (p.1 - mx) ^ 2) (fun _ _ => sq_nonneg _)) with h' | h'
    · exact h'
    · exfalso
      have e1 := single p hp
      have e2 := single q hq
      rw [hsxx, ← h'] at e1 e2
      have e1 := pow_eq_zero_iff two_ne_zero |>.mp (le_antisymm e1 (sq_nonneg _))
      have e2 := pow_eq_zero_iff two_ne_zero |>.mp (le_antisymm e2 (sq_nonneg _))
      exact hpq (by linarith)
  have e : slopeOf l * sxx = sxy := by rw [hs]; field_simp
  have h4 : (my - (my - slopeOf l * mx) - slopeOf l * mx) = 0 := by ring
  rw [h4, ← e] at h
  have h5 : (slopeOf l - b) ^ 2 * sxx ≤ 0 := by nlinarith [sq_nonneg (my - a - b * mx)]
  have h6 : (slopeOf l - b) ^ 2 ≤ 0 := by
    by_contra hc
    have := mul_pos (not_le.mp hc) hpos
    linarith
  have := pow_eq_zero_iff two_ne_zero |>.mp (le_antisymm h6 (sq_nonneg _))
  linarith

example (a' b' : ℚ) : residuals [((0 : ℚ), 1), (1, 3)] 1 2 ≤ residuals [(0, 1), (1, 3)] a' b' := by
  have h0 : residuals [((0 : ℚ), 1), (1, 3)] 1 2 = 0 := by decide +kernel
  rw [h0]
  exact List.sum_nonneg (by simp only [List.mem_map]; rintro x ⟨y, _, rfl⟩; positivity)

/-- Points on a line have the slope of the line. -/
theorem C71_exact_on_lines (l : List (K × K)) (p q : K × K) (hp : p ∈ l) (hq : q ∈ l) (hpq : p.1 ≠ q.1) (a b : K)
    (h : ∀ r ∈ l, r.2 = a + b * r.1) : slopeOf l = b := by
  symm
  apply C71_least_squares_unique l p q hp hq hpq a b
  intro a' b'
  have : residuals l a b = 0 := by
    unfold residuals
    apply List.sum_eq_zero
    simp only [List.mem_map]
    rintro _ ⟨r, hr, rfl⟩
    rw [h r hr, sub_self]
    simp
  rw [this]
  exact sum_map_nonneg _ _ (fun _ _ => sq_nonneg _)

example : slopeOf ([(0, 1), (1, 3), (2, 5)] : List (ℚ × ℚ)) = 2 := by decide +kernel

/-! ## Trend slope -/

theorem withIndex_mem (l : List K) (p : K × K) : p ∈ withIndex l ↔ ∃ i : Nat, l[i]? = some p.2 ∧ p.1 = i := by
  unfold withIndex
  rw [List.mem_iff_getElem?]
  constructor
  · rintro ⟨i, hi⟩
    rw [List.getElem?_zip_eq_some, List.getElem?_map] at hi
    refine ⟨i, hi.2, ?_⟩
    have h1 := hi.1
    have hl : i < l.length := (List.getElem?_eq_some_iff.mp hi.2).1
    rw [List.getElem?_range hl] at h1
    simp at h1
    exact h1.symm
  · rintro ⟨i, hi, hp⟩
    refine ⟨i, ?_⟩
    have hl : i < l.length := (List.getElem?_eq_some_iff.mp hi).1
    rw [List.getElem?_zip_eq_some, List.getElem?_map, List.getElem?_range hl]
    exact ⟨by simp [hp], hi⟩

/-- At a bar with `w` present log prices the feature is the angle of the slope of the regression of the log price on
the bar number; otherwise it is missing. -/
theorem C71_trend_slope (angle : K → K) (w i : Nat) (logs : List (Option K)) (hi : i < logs.length) (y : K) :
    (trendSlope angle w logs)[i]? = some (some y) ↔
      w ≤ i + 1 ∧ ∃ l : List K, (logs.drop (i + 1 - w)).take w = l.map some ∧ y = angle (slopeOf (withIndex l)) := by
  unfold trendSlope
  rw [C70_rolling_iff _ _ _ _ _ hi]
  simp only [Option.some.injEq]
  constructor
  · rintro ⟨h, l, h1, h2⟩; exact ⟨h, l, h1, h2.symm⟩
  · rintro ⟨h, l, h1, h2⟩; exact ⟨h, l, h1, h2.symm⟩

example : (trendSlope (fun x => x) 3 [none, some (1 : ℚ), some 3, some 5])[3]? = some (some 2) ∧
    (trendSlope (fun x => x) 3 [none, some (1 : ℚ), some 3, some 5])[2]? = some none := by decide +kernel

/-- A price growing by a constant factor (log price `a + b i`) over at least two bars gives the angle of `b`. -/
theorem C71_trend_exact (l : List K) (a b : K) (h2 : 2 ≤ l.length) (h : ∀ i x, l[i]? = some x → x = a + b * (i : Nat)) :
    slopeOf (withIndex l) = b := by
  have h0 : l[0]? = some l[0] := List.getElem?_eq_getElem (by omega)
  have h1 : l[1]? = some l[1] := List.getElem?_eq_getElem (by omega)
  apply C71_exact_on_lines (withIndex l) (((0 : Nat) : K), l[0]) (((1 : Nat) : K), l[1]) ((withIndex_mem _ _).mpr ⟨0, h0, rfl⟩)
    ((withIndex_mem _ _).mpr ⟨1, h1, rfl⟩) (by simp) a b
  intro r hr
  obtain ⟨i, hi, e⟩ := (withIndex_mem _ _).mp hr
  rw [h i r.2 hi, e]

example : 2 ≤ ([1, 3, 5] : List ℚ).length ∧ slopeOf (withIndex ([1, 3, 5] : List ℚ)) = 2 := by decide +kernel

/-- Multiplying all prices by a constant (adding to the logs) does not change the slope; neither does the level of
the bar numbers. -/
theorem C71_slope_shift (l : List (K × K)) (c d : K) : slopeOf (l.map (fun p => (p.1 + c, p.2 + d))) = slopeOf l := by
  by_cases hl : l = []
  · subst hl; rfl
  have hn0 : (l.length : K) ≠ 0 := by
    have := List.length_pos_iff.mpr hl
    exact_mod_cast this.ne'
  have e1 : ∀ (t : List (K × K)), ((t.map (fun p => (p.1 + c, p.2 + d))).map Prod.fst).sum = (t.map Prod.fst).sum + t.length * c := by
    intro t
    induction t with
    | nil => simp
    | cons a t ih => simp only [List.map_cons, List.sum_cons, ih, List.length_cons]; push_cast; ring
  have e2 : ∀ (t : List (K × K)), ((t.map (fun p => (p.1 + c, p.2 + d))).map Prod.snd).sum = (t.map Prod.snd).sum + t.length * d := by
    intro t
    induction t with
    | nil => simp
    | cons a t ih => simp only [List.map_cons, List.sum_cons, ih, List.length_cons]; push_cast; ring
  unfold slopeOf
  dsimp only
  rw [e1, e2, List.length_map, List.map_map, List.map_map]
  have m1 : ((l.map Prod.fst).sum + l.length * c) / (l.length : K) = (l.map Prod.fst).sum / l.length + c := by field_simp
  have m2 : ((l.map Prod.snd).sum + l.length * d) / (l.length : K) = (l.map Prod.snd).sum / l.length + d := by field_simp
  rw [m1, m2]
  congr 2
  · apply List.map_congr_left
    intro p _
    simp only [Function.comp]
    ring
  · apply List.map_congr_left
    intro p _
    simp only [Function.comp]
    ring

/-- Scaling the values scales the slope. -/
theorem C71_slope_scale (l : List (K × K)) (c : K) : slopeOf (l.map (fun p => (p.1, c * p.2))) = c * slopeOf l := by
  have e2 : ∀ (t : List (K × K)), ((t.map (fun p => (p.1, c * p.2))).map Prod.snd).sum = c * (t.map Prod.snd).sum := by
    intro t
    induction t with
    | nil => simp
    | cons a t ih => simp only [List.map_cons, List.sum_cons, ih]; ring
  have e1 : (l.map (fun p => (p.1, c * p.2))).map Prod.fst = l.map Prod.fst := by simp [Function.comp_def]
  unfold slopeOf
  dsimp only
  rw [e2, e1, List.length_map]
  generalize (l.map Prod.fst).sum / (l.length : K) = mx
  rw [mul_div_assoc]
  generalize (l.map Prod.snd).sum / (l.length : K) = my
  have n1 : ((l.map (fun p => (p.1, c * p.2))).map (fun p => (p.1 - mx) * (p.2 - c * my))).sum = c * (l.map (fun p => (p.1 - mx) * (p.2 - my))).sum := by
    rw [← List.sum_map_mul_left, List.map_map]
    congr 1
    apply List.map_congr_left
    intro p _
    simp only [Function.comp]
    ring
  have n2 : ((l.map (fun p => (p.1, c * p.2))).map (fun p => (p.1 - mx) ^ 2)).sum = (l.map (fun p => (p.1 - mx) ^ 2)).sum := by
    rw [List.map_map]; rfl
  rw [n1, n2, mul_div_assoc]

/-! ## Hurst exponent -/

/-- Closed form of the fit for the lags 1, 2, 4, 8, when the logarithm satisfies `log 1 = 0`, `log 4 = 2 log 2`,
`log 8 = 3 log 2`. -/
theorem slopeOf_hurst (L t0 t1 t2 t3 : K) (hL : L ≠ 0) :
    slopeOf [(0, t0), (L, t1), (2 * L, t2), (3 * L, t3)] = (3 * (t3 - t0) + (t2 - t1)) / (10 * L) := by
  unfold slopeOf
  simp only [List.map_cons, List.map_nil, List.sum_cons, List.sum_nil, List.length_cons, List.length_nil]
  push_cast
  have h : ((0 : K) - (0 + (L + (2 * L + (3 * L + 0)))) / 4) ^ 2 + ((L - (0 + (L + (2 * L + (3 * L + 0)))) / 4) ^ 2 +
    ((2 * L - (0 + (L + (2 * L + (3 * L + 0)))) / 4) ^ 2 + ((3 * L - (0 + (L + (2 * L + (3 * L + 0)))) / 4) ^ 2 + 0))) = 5 * L ^ 2 := by
    norm_num
    ring
  rw [h]
  rw [div_eq_div_iff (by positivity) (by positivity)]
  norm_num
  ring

theorem length_cumsum (l : List K) : (cumsum l).length = l.length := by
  induction l with
  | nil => rfl
  | cons a l ih => rw [cumsum, List.length_cons, List.length_map, ih, List.length_cons]

/-- The path: entry `i` is the sum of the first `i + 1` returns. -/
theorem C71_path (l : List K) (i : Nat) (hi : i < l.length) : (cumsum l)[i]? = some (l.take (i + 1)).sum := by
  induction l generalizing i with
  | nil => simp at hi
  | cons a l ih =>
    cases i with
    | zero => simp [cumsum]
    | succ i =>
      rw [cumsum, List.getElem?_cons_succ, List.getElem?_map, ih i (by simpa using hi)]
      simp

example : 2 < ([1, 3, 5] : List ℚ).length ∧ cumsum ([1, 3, 5] : List ℚ) = [1, 4, 9] := by decide +kernel

/-- The exponent for windows of more than eight returns: with `T k` the standard deviation of the `k`-step differences
of the path, `(3 (log T8 - log T1) + log T4 - log T2) / (10 log 2)`, missing if one of them is not positive. -/
theorem C71_hurst_formula (sqrt log : K → K) (h1 : log 1 = 0) (h2 : log 2 ≠ 0) (h4 : log 4 = 2 * log 2) (h8 : log 8 = 3 * log 2)
    (l : List K) (hl : 8 < l.length) (T : Nat → K) (hT : ∀ k, T k = lagStd sqrt (cumsum l) k) :
    hurstWin sqrt log l = .ok (if 0 < T 1 ∧ 0 < T 2 ∧ 0 < T 4 ∧ 0 < T 8 then
      some ((3 * (log (T 8) - log (T 1)) + (log (T 4) - log (T 2))) / (10 * log 2)) else none) := by
  unfold hurstWin hurstTaus
  rw [length_cumsum]
  have hf : [1, 2, 4, 8].filter (fun k => decide (k < l.length)) = [1, 2, 4, 8] := by
    rw [List.filter_eq_self]
    intro k hk
    simp at hk
    simp; omega
  rw [hf]
  simp only [List.map_cons, List.map_nil, ← hT, List.all_cons, List.all_nil, Bool.and_true, Bool.and_eq_true, decide_eq_true_eq, gt_iff_lt,
    List.length_cons, List.length_nil]
  by_cases h : 0 < T 1 ∧ 0 < T 2 ∧ 0 < T 4 ∧ 0 < T 8
  · rw [if_pos h, if_pos h]
    simp only [if_true]
    simp only [List.zip_cons_cons, List.zip_nil_right, h1, h4, h8]
    rw [slopeOf_hurst _ _ _ _ _ h2]
  · rw [if_neg h, if_neg h]

example : Real.log 1 = 0 ∧ Real.log 2 ≠ 0 ∧ Real.log 4 = 2 * Real.log 2 ∧ Real.log 8 = 3 * Real.log 2 := by
  refine ⟨Real.log_one, (Real.log_pos (by norm_num)).ne', ?_, ?_⟩
  · rw [show (4 : ℝ) = 2 ^ 2 by norm_num, Real.log_pow]; norm_num
  · rw [show (8 : ℝ) = 2 ^ 3 by norm_num, Real.log_pow]; norm_num

/-- Differences of the path that scale like `C k ^ H` give the exponent `H`. -/
theorem C71_hurst_power_law (sqrt log : K → K) (h1 : log 1 = 0) (h2 : log 2 ≠ 0) (h4 : log 4 = 2 * log 2) (h8 : log 8 = 3 * log 2)
    (l : List K) (hl : 8 < l.length) (C H : K) (hpos : ∀ k ∈ [1, 2, 4, 8], 0 < lagStd sqrt (cumsum l) k)
    (hlaw : ∀ k ∈ [1, 2, 4, 8], log (lagStd sqrt (cumsum l) k) = C + H * log (k : Nat)) :
    hurstWin sqrt log l = .ok (some H) := by
  rw [C71_hurst_formula sqrt log h1 h2 h4 h8 l hl _ (fun _ => rfl), if_pos ⟨hpos 1 (by simp), hpos 2 (by simp), hpos 4 (by simp), hpos 8 (by simp)⟩,
    hlaw 1 (by simp), hlaw 2 (by simp), hlaw 4 (by simp), hlaw 8 (by simp)]
  push_cast
  rw [h1, h4, h8]
  congr 2
  field_simp
  ring

/-- Violation: a window of at most eight returns never produces an exponent. It raises, or is missing when one of the
available deviations is zero. -/
theorem C71_hurst_short_window (sqrt log : K → K) (l : List K) (hl : l.length ≤ 8) :
    hurstWin sqrt log l = .ok none ∨ ∃ e, hurstWin sqrt log l = .error e := by
  unfold hurstWin
  dsimp only
  have hlen : (hurstTaus sqrt (cumsum l)).length ≠ 4 := by
    unfold hurstTaus
    rw [List.length_map, length_cumsum]
    have : ([1, 2, 4, 8].filter (fun k => decide (k < l.length))).length < 4 := by
      have : ([1, 2, 4, 8].filter (fun k => decide (k < l.length))).length < [1, 2, 4, 8].length := by
        rw [List.length_filter_lt_length_iff_exists]
        exact ⟨8, by simp, by simp; omega⟩
      simpa using this
    omega
  rw [if_neg hlen]
  split
  · exact Or.inr ⟨_, rfl⟩
  · exact Or.inl rfl

example : hurstWin (fun v : ℚ => v) (fun v => v) [1, 2, 4, 1] = .error "TypeError: expected x and y to have same length" := by
  decide +kernel

example : ∃ e, hurstWin (fun v : ℚ => v) (fun v => v) [] = .error e := ⟨_, rfl⟩

/-- A window of more than eight returns never raises. -/
theorem C71_hurst_total (sqrt log : K → K) (l : List K) (hl : 8 < l.length) : ∃ o, hurstWin sqrt log l = .ok o := by
  unfold hurstWin hurstTaus
  dsimp only
  rw [length_cumsum]
  have hf : [1, 2, 4, 8].filter (fun k => decide (k < l.length)) = [1, 2, 4, 8] := by
    rw [List.filter_eq_self]
    intro k hk
    simp at hk
    simp; omega
  rw [hf]
  split
  · exact ⟨_, by rw [if_pos (by simp)]⟩
  · exact ⟨_, rfl⟩

example : 8 < ([1, -1, 2, 1, 1, -2, 1, 1, 3] : List ℚ).length ∧ (hurstWin id id ([1, -1, 2, 1, 1, -2, 1, 1, 3] : List ℚ)).isOk = true := by
  decide +kernel

theorem cumsum_scale (c : K) (l : List K) : cumsum (l.map (c * ·)) = (cumsum l).map (c * ·) := by
  induction l with
  | nil => rfl
  | cons a l ih =>
    rw [List.map_cons, cumsum, ih, cumsum, List.map_cons, List.map_map, List.map_map]
    congr 1
    apply List.map_congr_left
    intro x _
    simp only [Function.comp]
    ring

theorem lagStd_scale (sqrt : K → K) (hs : ∀ a v : K, 0 < a → sqrt (a ^ 2 * v) = a * sqrt v) (c : K) (hc : 0 < c) (y : List K) (k : Nat) :
    lagStd sqrt (y.map (c * ·)) k = c * lagStd sqrt y k := by
  unfold lagStd
  rw [← hs c _ hc, ← List.map_drop]
  have : List.zipWith (fun a b => a - b) ((y.drop k).map (c * ·)) (y.map (c * ·)) =
      (List.zipWith (fun a b => a - b) (y.drop k) y).map (fun x => c * x + 0) := by
    rw [List.zipWith_map, List.map_zipWith]
    congr 1
    funext a b
    ring
  rw [this, centralMoment_affine]

/-- The exponent does not depend on the scale of the returns. -/
theorem C71_hurst_scale_free (sqrt log : K → K) (hs : ∀ a v : K, 0 < a → sqrt (a ^ 2 * v) = a * sqrt v)
    (hlog : ∀ a b : K, 0 < a → 0 < b → log (a * b) = log a + log b) (h2 : log 2 ≠ 0) (l : List K) (hl : 8 < l.length) (c : K) (hc : 0 < c) :
    hurstWin sqrt log (l.map (c * ·)) = hurstWin sqrt log l := by
  have h1 : log 1 = 0 := by
    have := hlog 1 1 one_pos one_pos
    rw [mul_one] at this
    linarith
  have h4 : log 4 = 2 * log 2 := by
    have := hlog 2 2 two_pos two_pos
    rw [show (2 : K) * 2 = 4 by norm_num] at this
    rw [this]; ring
  have h8 : log 8 = 3 * log 2 := by
    have := hlog 2 4 two_pos (by norm_num)
    rw [show (2 : K) * 4 = 8 by norm_num] at this
    rw [this, h4]; ring
  rw [C71_hurst_formula sqrt log h1 h2 h4 h8 l hl _ (fun _ => rfl),
    C71_hurst_formula sqrt log h1 h2 h4 h8 (l.map (c * ·)) (by simpa using hl) _ (fun _ => rfl)]
  simp only [cumsum_scale, lagStd_scale sqrt hs c hc, mul_pos_iff_of_pos_left hc]
  by_cases h : 0 < lagStd sqrt (cumsum l) 1 ∧ 0 < lagStd sqrt (cumsum l) 2 ∧ 0 < lagStd sqrt (cumsum l) 4 ∧ 0 < lagStd sqrt (cumsum l) 8
  · rw [if_pos h, if_pos h, hlog _ _ hc h.1, hlog _ _ hc h.2.1, hlog _ _ hc h.2.2.1, hlog _ _ hc h.2.2.2]
    congr 3
    ring
  · rw [if_neg h, if_neg h]

/-- Constant returns have no exponent: all differences of the path agree. -/
example : hurstWin (fun v : ℚ => v) (fun v => v) [1, 1, 1, 1, 1, 1, 1, 1, 1] = .ok none := by decide +kernel

end FinML
