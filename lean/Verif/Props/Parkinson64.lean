/-
C139: the Parkinson range in float64 arithmetic (`finmlkit/feature/core/volatility.py:341-349`).
-/
import Verif.Model.Float64Mean0
import Verif.Props.Cusum64
import Verif.Props.Returns64
import Verif.Props.TripleBarrier64

set_option linter.unusedSectionVars false

namespace FinML

/-- The quotient of two positive float64 numbers rounds to one only if they are equal. -/
theorem f64_div_eq_one (a b : ℚ) (ha : f64 a = a) (hb : f64 b = b) (ha0 : 0 < a) (hb0 : 0 < b) : f64 (a / b) = 1 ↔ a = b := by
  constructor
  · intro h
    apply (C133_ratio_sign a b ha hb ha0 hb0).2.1.mp
    unfold ratioRet64
    rw [h, sub_self, f64_zero]
  · rintro rfl
    rw [div_self ha0.ne']
    decide +kernel

example : f64 (100 / 101) ≠ 1 ∧ f64 (101 / 101) = 1 := by decide +kernel

/-- An accurate logarithm vanishes only at one, and is positive at two. -/
theorem logAccurate_zero (log64 : ℚ → ℚ) (hl : LogAccurate log64) (x : ℚ) (hx : 0 < x) : log64 x = 0 ↔ x = 1 := by
  have h := hl x hx
  have hxr : (0 : ℝ) < x := by exact_mod_cast hx
  constructor
  · intro h0
    rw [h0, Rat.cast_zero, zero_sub, abs_neg] at h
    have hz : |Real.log x| = 0 := by
      have := abs_nonneg (Real.log x)
      by_contra hne
      have hp : 0 < |Real.log x| := lt_of_le_of_ne this (Ne.symm hne)
      have : |Real.log x| / 2 ^ 52 < |Real.log x| := div_lt_self hp (by norm_num)
      linarith
    rcases Real.log_eq_zero.mp (abs_eq_zero.mp hz) with h1 | h1 | h1
    · exact absurd h1 hxr.ne'
    · exact_mod_cast h1
    · linarith
  · rintro rfl
    rw [Rat.cast_one, Real.log_one, abs_zero, zero_div] at h
    have := abs_nonpos_iff.mp h
    rw [sub_zero] at this
    exact_mod_cast this

/-- The divisor is `4 log 2` up to a relative error of `2 * 2^-52`. -/
theorem parkinsonDiv64_near (log64 : ℚ → ℚ) (hl : LogAccurate log64) :
    |(parkinsonDiv64 log64 : ℝ) - 4 * Real.log 2| ≤ 4 * Real.log 2 * (2 / 2 ^ 52) := by
  have h2 : 0 < Real.log 2 := Real.log_pos (by norm_num)
  have h := hl 2 (by norm_num)
  rw [Rat.cast_ofNat, abs_of_pos h2] at h
  have r : |((f64 (log64 2 * 4) : ℚ) : ℝ) - (log64 2 : ℝ) * 4| ≤ |(log64 2 : ℝ) * 4| / 2 ^ 53 := by
    exact_mod_cast f64_relErr (log64 2 * 4)
  have hb : |(log64 2 : ℝ) * 4| ≤ 8 * Real.log 2 := by
    have h3 := abs_le.mp h
    have h4 : Real.log 2 / 2 ^ 52 ≤ Real.log 2 := div_le_self h2.le (by norm_num)
    rw [abs_le]
    constructor <;> linarith [h3.1, h3.2]
  unfold parkinsonDiv64
  have hb' : |(log64 2 : ℝ) * 4| ≤ 4 * Real.log 2 * (1 + 1 / 2 ^ 52) := by
    have h3 := abs_le.mp h
    have h4 : Real.log 2 / 2 ^ 52 ≤ Real.log 2 := div_le_self h2.le (by norm_num)
    rw [abs_le]
    constructor <;> linarith [h3.1, h3.2]
  calc |((f64 (log64 2 * 4) : ℚ) : ℝ) - 4 * Real.log 2|
      = |(((f64 (log64 2 * 4) : ℚ) : ℝ) - (log64 2 : ℝ) * 4) + 4 * ((log64 2 : ℝ) - Real.log 2)| := by congr 1; ring
    _ ≤ |((f64 (log64 2 * 4) : ℚ) : ℝ) - (log64 2 : ℝ) * 4| + |4 * ((log64 2 : ℝ) - Real.log 2)| := abs_add_le _ _
    _ ≤ 4 * Real.log 2 * (1 + 1 / 2 ^ 52) / 2 ^ 53 + 4 * (Real.log 2 / 2 ^ 52) := by
        rw [abs_mul, abs_of_pos (by norm_num : (0 : ℝ) < 4)]
        have : |(log64 2 : ℝ) * 4| / 2 ^ 53 ≤ 4 * Real.log 2 * (1 + 1 / 2 ^ 52) / 2 ^ 53 := by gcongr
        linarith
    _ ≤ _ := by
        have : 4 * Real.log 2 * (1 + 1 / 2 ^ 52) / 2 ^ 53 ≤ 4 * Real.log 2 * (1 / 2 ^ 52) := by
          rw [mul_div_assoc]
          exact mul_le_mul_of_nonneg_left (by norm_num) (by linarith)
        linarith

theorem parkinsonDiv64_pos (log64 : ℚ → ℚ) (hl : LogAccurate log64) : 0 < parkinsonDiv64 log64 := by
  have h := (abs_le.mp (parkinsonDiv64_near log64 hl)).1
  have h2 : 0 < Real.log 2 := Real.log_pos (by norm_num)
  have h3 : 4 * Real.log 2 * (2 / 2 ^ 52) < 4 * Real.log 2 := by
    have : (2 / 2 ^ 52 : ℝ) < 1 := by norm_num
    nlinarith
  have : (0 : ℝ) < (parkinsonDiv64 log64 : ℝ) := by linarith
  exact_mod_cast this

/-- **C139.** The float64 Parkinson range of two positive float64 prices is never negative, and it is 0 exactly when high and low are equal,
however close they are. -/
theorem C139_zero (log64 : ℚ → ℚ) (hl : LogAccurate log64) (h l : ℚ) (hh : f64 h = h) (hlo : f64 l = l) (h0 : 0 < h) (l0 : 0 < l) :
    0 ≤ parkinsonVal64 log64 h l ∧ (parkinsonVal64 log64 h l = 0 ↔ h = l) := by
  have hd := parkinsonDiv64_pos log64 hl
  unfold parkinsonVal64
  refine ⟨f64_nonneg (div_nonneg (f64_nonneg (mul_self_nonneg _)) hd.le), ?_⟩
  rw [f64_eq_zero_iff, div_eq_zero_iff, or_iff_left hd.ne', f64_eq_zero_iff, mul_self_eq_zero,
    logAccurate_zero log64 hl _ (f64_pos' (div_pos h0 l0)), f64_div_eq_one h l hh hlo h0 l0]

/-- **C139.** With `x = log (h / l)`, the float64 Parkinson range is within `(|x| + 2) (|x| + (|x| + 2) 2^-52) 2^-51` of
`x² / (4 log 2)`. -/
theorem C139_error (log64 : ℚ → ℚ) (hl : LogAccurate log64) (h l : ℚ) (h0 : 0 < h) (l0 : 0 < l) :
    let x := Real.log ((h : ℝ) / l)
    |(parkinsonVal64 log64 h l : ℝ) - x ^ 2 / (4 * Real.log 2)| ≤ (|x| + 2) * (|x| + (|x| + 2) / 2 ^ 52) / 2 ^ 51 := by
  intro x
  have hr := ret64_err log64 hl (h / l) (div_pos h0 l0) |x| (by rw [Rat.cast_div])
  rw [Rat.cast_div] at hr
  change |(log64 (f64 (h / l)) : ℝ) - x| ≤ _ at hr
  have hD := parkinsonDiv64_near log64 hl
  have hDpos : (0 : ℝ) < (parkinsonDiv64 log64 : ℝ) := by exact_mod_cast parkinsonDiv64_pos log64 hl
  have hlog2 : 0.6931471803 < Real.log 2 := Real.log_two_gt_d9
  unfold parkinsonVal64
  generalize log64 (f64 (h / l)) = L at *
  generalize parkinsonDiv64 log64 = D at *
  have r1 : |((f64 (L * L) : ℚ) : ℝ) - (L : ℝ) * L| ≤ |(L : ℝ) * L| / 2 ^ 53 := by exact_mod_cast f64_relErr (L * L)
  generalize f64 (L * L) = P at *
  have r2 : |((f64 (P / D) : ℚ) : ℝ) - (P : ℝ) / D| ≤ |(P : ℝ) / D| / 2 ^ 53 := by exact_mod_cast f64_relErr (P / D)
  generalize f64 (P / D) = R at *
  generalize (L : ℝ) = L' at *
  generalize (P : ℝ) = P' at *
  generalize (D : ℝ) = D' at *
  generalize (R : ℝ) = R' at *
  clear_value x
  generalize hC : 4 * Real.log 2 = C at *
  have hC27 : 2.77 < C := by rw [← hC]; linarith
  clear hC
  have hx0 := abs_nonneg x
  obtain ⟨e, he⟩ : ∃ e : ℝ, e = (|x| + 2) / 2 ^ 52 := ⟨_, rfl⟩
  rw [← he] at hr ⊢
  have he0 : 0 < e := by rw [he]; positivity
  obtain ⟨Y, hY⟩ : ∃ Y : ℝ, Y = |x| + e := ⟨_, rfl⟩
  rw [← hY]
  have hY0 : 0 < Y := by linarith
  have hYA : Y ≤ 1.01 * (|x| + 2) := by
    have : e ≤ 0.01 * (|x| + 2) := by
      rw [he, div_le_iff₀ (by positivity)]
      norm_num
      linarith
    linarith
  have hu : 1 / 2 ^ 53 * Y ^ 2 ≤ 0.51 * (e * Y) := by
    calc 1 / 2 ^ 53 * Y ^ 2 = 1 / 2 ^ 53 * (Y * Y) := by ring
      _ ≤ 1 / 2 ^ 53 * ((1.01 * (|x| + 2)) * Y) := by gcongr
      _ = 0.505 * (e * Y) := by rw [he]; ring
      _ ≤ _ := by
        have : 0 < e * Y := by positivity
        linarith
  have hL : |L'| ≤ Y := by
    calc |L'| = |(L' - x) + x| := by congr 1; ring
      _ ≤ _ := abs_add_le _ _
      _ ≤ _ := by linarith
  have hLL : |L' * L'| ≤ Y ^ 2 := by
    rw [abs_mul, sq]
    exact mul_le_mul hL hL (abs_nonneg _) hY0.le
  have hLx : |L' * L' - x ^ 2| ≤ 2 * (e * Y) := by
    rw [show L' * L' - x ^ 2 = (L' - x) * (L' + x) by ring, abs_mul]
    have : |L' + x| ≤ 2 * Y := (abs_add_le _ _).trans (by linarith)
    calc |L' - x| * |L' + x| ≤ e * (2 * Y) := by gcongr
      _ = _ := by ring
  have hPx : |P' - x ^ 2| ≤ 2 * (e * Y) + 1 / 2 ^ 53 * Y ^ 2 := by
    calc |P' - x ^ 2| = |(P' - L' * L') + (L' * L' - x ^ 2)| := by congr 1; ring
      _ ≤ _ := abs_add_le _ _
      _ ≤ |L' * L'| / 2 ^ 53 + 2 * (e * Y) := add_le_add r1 hLx
      _ ≤ Y ^ 2 / 2 ^ 53 + 2 * (e * Y) := by gcongr
      _ = _ := by ring
  have hP : |P'| ≤ 1.01 * Y ^ 2 := by
    calc |P'| = |(P' - L' * L') + L' * L'| := by congr 1; ring
      _ ≤ _ := abs_add_le _ _
      _ ≤ |L' * L'| / 2 ^ 53 + |L' * L'| := by linarith
      _ ≤ Y ^ 2 / 2 ^ 53 + Y ^ 2 := by gcongr
      _ ≤ _ := by
        have : 0 < Y ^ 2 := by positivity
        norm_num
        linarith
  have hC0 : 0 < C := by linarith
  have hD' : 2.7 ≤ D' := by
    have h1 := (abs_le.mp hD).1
    have h2 : C * (2 / 2 ^ 52) ≤ C * 0.01 := by
      apply mul_le_mul_of_nonneg_left _ hC0.le
      norm_num
    linarith
  have hPD : |P' / D'| ≤ 1.01 / 2.7 * Y ^ 2 := by
    rw [abs_div, abs_of_pos hDpos, div_le_iff₀ hDpos]
    calc |P'| ≤ 1.01 * Y ^ 2 := hP
      _ = 1.01 / 2.7 * Y ^ 2 * 2.7 := by ring
      _ ≤ _ := by gcongr
  have q1 : |P' / D' - x ^ 2 / C| ≤ (2 * (e * Y) + 1 / 2 ^ 53 * Y ^ 2) / 2.77 + 1.01 / 2.7 * Y ^ 2 * (4 * (1 / 2 ^ 53)) := by
    have e1 : P' / D' - x ^ 2 / C = (P' - x ^ 2) / C + (P' / D') * ((C - D') / C) := by field_simp; ring
    rw [e1]
    refine (abs_add_le _ _).trans (add_le_add ?_ ?_)
    · rw [abs_div, abs_of_pos hC0]
      calc |P' - x ^ 2| / C ≤ |P' - x ^ 2| / 2.77 := by gcongr
        _ ≤ _ := by gcongr
    · rw [abs_mul]
      have : |(C - D') / C| ≤ 4 * (1 / 2 ^ 53) := by
        rw [abs_div, abs_of_pos hC0, abs_sub_comm, div_le_iff₀ hC0]
        exact hD.trans (le_of_eq (by ring))
      gcongr
  calc |R' - x ^ 2 / C| = |(R' - P' / D') + (P' / D' - x ^ 2 / C)| := by congr 1; ring
    _ ≤ _ := abs_add_le _ _
    _ ≤ |P' / D'| / 2 ^ 53 + ((2 * (e * Y) + 1 / 2 ^ 53 * Y ^ 2) / 2.77 + 1.01 / 2.7 * Y ^ 2 * (4 * (1 / 2 ^ 53))) := add_le_add r2 q1
    _ ≤ 1.01 / 2.7 * Y ^ 2 / 2 ^ 53 + ((2 * (e * Y) + 1 / 2 ^ 53 * Y ^ 2) / 2.77 + 1.01 / 2.7 * Y ^ 2 * (4 * (1 / 2 ^ 53))) := by gcongr
    _ = (1 / 2 ^ 53 * Y ^ 2) * (5 * (1.01 / 2.7) + 1 / 2.77) + 2 / 2.77 * (e * Y) := by ring
    _ ≤ (0.51 * (e * Y)) * (5 * (1.01 / 2.7) + 1 / 2.77) + 2 / 2.77 * (e * Y) := by gcongr
    _ ≤ 2 * (e * Y) := by
        have : 0 < e * Y := by positivity
        norm_num
        linarith
    _ = (|x| + 2) * Y / 2 ^ 51 := by rw [he]; ring

example : ∃ log64, LogAccurate log64 ∧ 0 < parkinsonVal64 log64 101 100 := by
  obtain ⟨log64, hl⟩ := logAccurate_exists
  refine ⟨log64, hl, ?_⟩
  obtain ⟨h1, h2⟩ := C139_zero log64 hl 101 100 (by decide +kernel) (by decide +kernel) (by norm_num) (by norm_num)
  exact lt_of_le_of_ne h1 (fun h => by have := h2.mp h.symm; norm_num at this)

/-- **C139.** The column: a value for every bar, computed from that bar alone. -/
theorem C139_column (log64 : ℚ → ℚ) (high low : List ℚ) (i : Nat) (hi : i < high.length) :
    (parkinson64 log64 high low)[i]? = some (parkinsonVal64 log64 (high.getD i 0) (low.getD i 0)) ∧ (parkinson64 log64 high low).length = high.length := by
  unfold parkinson64
  rw [tabulate_get?, if_pos hi]
  exact ⟨rfl, by simp [tabulate]⟩

example : parkinson64 (fun x => x - 1) [2, 3] [1, 2] = [1 / 4, 1 / 16] := by decide +kernel

/-- **C139, violation.** No relative error bound holds: for neighbouring float64 prices near 3 the ratio that enters the logarithm is
`1 + 2^-52`, the exact one below `1 + 0.7 * 2^-52`, so that the range comes out twice as large as it is. -/
theorem C139_ratio_inaccurate : f64 (3 - 1 / 2 ^ 50) = 3 - 1 / 2 ^ 50 ∧ f64 (3 - 1 / 2 ^ 51) = 3 - 1 / 2 ^ 51 ∧
    f64 ((3 - 1 / 2 ^ 51) / (3 - 1 / 2 ^ 50)) = 1 + 1 / 2 ^ 52 ∧ ((3 : ℚ) - 1 / 2 ^ 51) / (3 - 1 / 2 ^ 50) < 1 + 7 / 10 / 2 ^ 52 := by
  decide +kernel

end FinML
