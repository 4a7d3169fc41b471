/-
C132: accuracy of the critical values of the Chu-Stinchcombe-White test.
-/
import Verif.Props.Break64
import Verif.Props.Cusum64

set_option linter.unusedSectionVars false

namespace FinML

/-- **C132.** With a logarithm accurate to one unit in the last place and a correctly rounded square root, the square of the critical
value of start index `n` is `4.6 + log (t - n)` up to the relative error `6 · 2^-53`. -/
theorem C132_critical_value (lg sq : ℚ → ℚ) (hl : LogAccurate lg) (hs : SqrtRounded sq) (t n : Nat) (hn : n < t) :
    0 ≤ breakCrit64 lg sq t n ∧
    |((breakCrit64 lg sq t n ^ 2 : ℚ) : ℝ) - (46 / 10 + Real.log ((t - n : Nat) : ℝ))| ≤
      (46 / 10 + Real.log ((t - n : Nat) : ℝ)) * (6 / 2 ^ 53) := by
  have h1 : 1 ≤ t - n := by omega
  have hx : (0 : ℚ) < ((t - n : Nat) : ℚ) := by exact_mod_cast h1
  have hL : 0 ≤ Real.log ((t - n : Nat) : ℝ) := Real.log_nonneg (by exact_mod_cast h1)
  have hlg := hl _ hx
  rw [Rat.cast_natCast, abs_of_nonneg hL] at hlg
  unfold breakCrit64
  generalize Real.log ((t - n : Nat) : ℝ) = L at *
  generalize lg ((t - n : Nat) : ℚ) = g at *
  obtain ⟨g1, g2⟩ := abs_le.mp hlg
  have hc := f64_factor (x := 46 / 10) (by norm_num)
  generalize f64 (46 / 10) = c at *
  have hg0 : (0 : ℝ) ≤ g := by
    have : L / 2 ^ 52 ≤ L := div_le_self hL (by norm_num)
    linarith
  have hgq : 0 ≤ g := by exact_mod_cast hg0
  have hsum : 0 ≤ c + g := by
    have : (0 : ℚ) ≤ c := le_trans (by norm_num) hc.1
    linarith
  have hf := f64_factor hsum
  have hf0 := f64_nonneg hsum
  generalize f64 (c + g) = z at *
  obtain ⟨s0, s1, s2⟩ := hs z hf0
  refine ⟨s0, ?_⟩
  generalize sq z = r at *
  have c1 : (46 / 10 : ℝ) * (1 - 1 / 2 ^ 53) ≤ (c : ℝ) := by
    have h := (Rat.cast_le (K := ℝ)).mpr hc.1
    push_cast at h ⊢
    exact h
  have c2 : (c : ℝ) ≤ (46 / 10 : ℝ) * (1 + 1 / 2 ^ 53) := by
    have h := (Rat.cast_le (K := ℝ)).mpr hc.2
    push_cast at h ⊢
    exact h
  have f1 : ((c : ℝ) + g) * (1 - 1 / 2 ^ 53) ≤ z := by
    have h := (Rat.cast_le (K := ℝ)).mpr hf.1
    push_cast at h ⊢
    exact h
  have f2 : (z : ℝ) ≤ ((c : ℝ) + g) * (1 + 1 / 2 ^ 53) := by
    have h := (Rat.cast_le (K := ℝ)).mpr hf.2
    push_cast at h ⊢
    exact h
  have r1 : (z : ℝ) * (1 - 1 / 2 ^ 53) ^ 2 ≤ ((r ^ 2 : ℚ) : ℝ) := by
    have h := (Rat.cast_le (K := ℝ)).mpr s1
    push_cast at h ⊢
    exact h
  have r2 : ((r ^ 2 : ℚ) : ℝ) ≤ (z : ℝ) * (1 + 1 / 2 ^ 53) ^ 2 := by
    have h := (Rat.cast_le (K := ℝ)).mpr s2
    push_cast at h ⊢
    exact h
  generalize ((r ^ 2 : ℚ) : ℝ) = R at *
  generalize (z : ℝ) = Z at *
  generalize (c : ℝ) = C at *
  generalize (g : ℝ) = G at *
  have lo : (46 / 10 + L) * (1 - 2 / 2 ^ 53) ≤ C + G := by
    have : L / 2 ^ 52 = L * (2 / 2 ^ 53) := by ring
    nlinarith
  have hi : C + G ≤ (46 / 10 + L) * (1 + 2 / 2 ^ 53) := by
    have : L / 2 ^ 52 = L * (2 / 2 ^ 53) := by ring
    nlinarith
  have hT : 0 ≤ 46 / 10 + L := by linarith
  generalize 46 / 10 + L = T at *
  have l2 : T * ((1 - 2 / 2 ^ 53) * (1 - 1 / 2 ^ 53) * (1 - 1 / 2 ^ 53) ^ 2) ≤ R := by
    calc T * ((1 - 2 / 2 ^ 53) * (1 - 1 / 2 ^ 53) * (1 - 1 / 2 ^ 53) ^ 2)
        = T * (1 - 2 / 2 ^ 53) * (1 - 1 / 2 ^ 53) * (1 - 1 / 2 ^ 53) ^ 2 := by ring
      _ ≤ (C + G) * (1 - 1 / 2 ^ 53) * (1 - 1 / 2 ^ 53) ^ 2 :=
          mul_le_mul_of_nonneg_right (mul_le_mul_of_nonneg_right lo (by norm_num)) (by norm_num)
      _ ≤ Z * (1 - 1 / 2 ^ 53) ^ 2 := mul_le_mul_of_nonneg_right f1 (by norm_num)
      _ ≤ R := r1
  have u2 : R ≤ T * ((1 + 2 / 2 ^ 53) * (1 + 1 / 2 ^ 53) * (1 + 1 / 2 ^ 53) ^ 2) := by
    calc R ≤ Z * (1 + 1 / 2 ^ 53) ^ 2 := r2
      _ ≤ (C + G) * (1 + 1 / 2 ^ 53) * (1 + 1 / 2 ^ 53) ^ 2 := mul_le_mul_of_nonneg_right f2 (by norm_num)
      _ ≤ T * (1 + 2 / 2 ^ 53) * (1 + 1 / 2 ^ 53) * (1 + 1 / 2 ^ 53) ^ 2 :=
          mul_le_mul_of_nonneg_right (mul_le_mul_of_nonneg_right hi (by norm_num)) (by norm_num)
      _ = T * ((1 + 2 / 2 ^ 53) * (1 + 1 / 2 ^ 53) * (1 + 1 / 2 ^ 53) ^ 2) := by ring
  have k1 : (1 : ℝ) - 6 / 2 ^ 53 ≤ (1 - 2 / 2 ^ 53) * (1 - 1 / 2 ^ 53) * (1 - 1 / 2 ^ 53) ^ 2 := by norm_num
  have k2 : ((1 : ℝ) + 2 / 2 ^ 53) * (1 + 1 / 2 ^ 53) * (1 + 1 / 2 ^ 53) ^ 2 ≤ 1 + 6 / 2 ^ 53 := by norm_num
  have e1 := mul_le_mul_of_nonneg_left k1 hT
  have e2 := mul_le_mul_of_nonneg_left k2 hT
  rw [abs_le]
  constructor <;> nlinarith

example : (∃ lg, LogAccurate lg) ∧ (∃ s, SqrtRounded s) ∧ 3 < 10 := ⟨logAccurate_exists, sqrtRounded_exists, by norm_num⟩

/-- **C132.** The critical value always exceeds 2. -/
theorem C132_critical_above_two (lg sq : ℚ → ℚ) (hl : LogAccurate lg) (hs : SqrtRounded sq) (t n : Nat) (hn : n < t) :
    2 < breakCrit64 lg sq t n := by
  obtain ⟨h0, h⟩ := C132_critical_value lg sq hl hs t n hn
  have hL : 0 ≤ Real.log ((t - n : Nat) : ℝ) := Real.log_nonneg (by exact_mod_cast (by omega : 1 ≤ t - n))
  have h1 := (abs_le.mp h).1
  have h4 : (4 : ℝ) < ((breakCrit64 lg sq t n ^ 2 : ℚ) : ℝ) := by
    have : (46 / 10 + Real.log ((t - n : Nat) : ℝ)) * (1 - 6 / 2 ^ 53) ≥ (46 / 10) * (1 - 6 / 2 ^ 53) :=
      mul_le_mul_of_nonneg_right (by linarith) (by norm_num)
    have k : (4 : ℝ) < 46 / 10 * (1 - 6 / 2 ^ 53) := by norm_num
    nlinarith
  have h4' : (4 : ℚ) < breakCrit64 lg sq t n ^ 2 := by exact_mod_cast h4
  by_contra hc
  have : breakCrit64 lg sq t n ^ 2 ≤ 2 ^ 2 := pow_le_pow_left₀ h0 (not_lt.mp hc) 2
  linarith

example : (∃ lg, LogAccurate lg) ∧ (∃ s, SqrtRounded s) ∧ 3 < 4 := ⟨logAccurate_exists, sqrtRounded_exists, by norm_num⟩

/-- **C132.** The constant 4.6 is itself a float64: the sum under the root differs in the last place from the rounded exact sum. -/
theorem C132_constant_rounded : ∃ g : ℚ, f64 g = g ∧
    breakCrit64 (fun _ => g) (fun x => x) 5 3 = f64 (f64 (46 / 10) + g) ∧
    breakCrit64 (fun _ => g) (fun x => x) 5 3 ≠ f64 (46 / 10 + g) :=
  ⟨f64 (3 / 10), by decide +kernel, by decide +kernel, by decide +kernel⟩

end FinML
