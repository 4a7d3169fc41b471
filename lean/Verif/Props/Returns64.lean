/-
C133: simple returns and the moving average in float64.
-/
import Verif.Model.Float64Returns
import Verif.Props.Break64
import Verif.Props.Weights64
import Verif.Props.PandasRolling

set_option linter.unusedSectionVars false

namespace FinML

/-! ### Lemmas -/

theorem f64_neg_of_neg {x : ℚ} (h : x < 0) : f64 x < 0 := by
  have := f64_pos (neg_pos.mpr h)
  rw [f64_neg] at this
  linarith

/-- Distinct float64 numbers are more than a half relative unit apart. -/
theorem f64_gap {a b : ℚ} (ha : f64 a = a) (hb : f64 b = b) (hb0 : 0 < b) (h : b < a) : b * (1 + 1 / 2 ^ 53) < a := by
  obtain ⟨l, u⟩ := log2_bounds b hb0
  unfold f64 at ha hb
  rw [rndBits_pos 53 b hb0] at hb
  generalize Int.log 2 b = e at *
  have e0 : e - (((53 : Nat) : Int) - 1) = e - 52 := by norm_num
  rw [e0] at hb
  unfold rndAt at hb
  have hP := two_zpow_pos (e - 52)
  have e1 : (2 : ℚ) ^ (e + 1) = 2 ^ 53 * 2 ^ (e - 52) := by
    rw [show e + 1 = (53 : Int) + (e - 52) by ring, zpow_add₀ (by norm_num)]; norm_num
  generalize rint (b / 2 ^ (e - 52)) = m at hb
  have hm : (m : ℚ) + 1 ≤ 2 ^ 53 := by
    have : (m : ℚ) * 2 ^ (e - 52) < 2 ^ 53 * 2 ^ (e - 52) := by rw [hb, ← e1]; exact u
    have := lt_of_mul_lt_mul_right this hP.le
    have : m < 2 ^ 53 := by exact_mod_cast this
    exact_mod_cast this
  have hstep : b + 2 ^ (e - 52) ≤ a := by
    by_cases ha1 : a < 2 ^ (e + 1)
    · rw [rndBits_binade 53 a e (by linarith) ha1, e0] at ha
      unfold rndAt at ha
      generalize rint (a / 2 ^ (e - 52)) = k at ha
      have : (m : ℚ) * 2 ^ (e - 52) < k * 2 ^ (e - 52) := by rw [hb, ha]; exact h
      have := lt_of_mul_lt_mul_right this hP.le
      have h2 : m + 1 ≤ k := by exact_mod_cast this
      have h3 : (m : ℚ) + 1 ≤ k := by exact_mod_cast h2
      have := mul_le_mul_of_nonneg_right h3 hP.le
      linarith
    · have := mul_le_mul_of_nonneg_right hm hP.le
      rw [← e1] at this
      linarith [not_lt.mp ha1]
  have : b / 2 ^ 53 < 2 ^ (e - 52) := by
    rw [div_lt_iff₀ (by norm_num)]
    linarith
  linarith

/-- Rounding a number clearly above 1. -/
theorem f64_gt_one {x : ℚ} (h : 1 + 1 / 2 ^ 53 < x) : 1 < f64 x := by
  by_cases h2 : x < 2
  · have hb := rndBits_binade 53 x 0 (by norm_num; linarith) (by norm_num; exact h2)
    unfold f64
    rw [hb, show (0 : Int) - (((53 : Nat) : Int) - 1) = -52 by norm_num]
    unfold rndAt
    have hr := (rint_bounds (x / 2 ^ (-52 : Int))).1
    have e : (2 : ℚ) ^ (-52 : Int) = 1 / 2 ^ 52 := by norm_num
    rw [e] at hr ⊢
    rw [div_div_eq_mul_div, div_one] at hr ⊢
    have : (2 : ℚ) ^ 52 < rint (x * 2 ^ 52) := by
      have : (1 + 1 / 2 ^ 53 : ℚ) * 2 ^ 52 < x * 2 ^ 52 := mul_lt_mul_of_pos_right h (by norm_num)
      have e2 : (1 + 1 / 2 ^ 53 : ℚ) * 2 ^ 52 = 2 ^ 52 + 1 / 2 := by norm_num
      rw [e2] at this
      generalize x * 2 ^ 52 = y at *
      generalize (2 : ℚ) ^ 52 = P at *
      linarith
    rw [mul_one_div, lt_div_iff₀ (by norm_num)]
    linarith
  · have := f64_mono (not_lt.mp h2)
    have e : f64 2 = 2 := by have := f64_int 2 (by norm_num); simpa using this
    rw [e] at this
    linarith

/-- Rounding a number clearly below 1. -/
theorem f64_lt_one {x : ℚ} (h0 : 0 ≤ x) (h : x < 1 - 1 / 2 ^ 54) : f64 x < 1 := by
  by_cases h2 : 1 / 2 ≤ x
  · have hb := rndBits_binade 53 x (-1) (by norm_num; linarith) (by norm_num; linarith)
    unfold f64
    rw [hb, show (-1 : Int) - (((53 : Nat) : Int) - 1) = -53 by norm_num]
    unfold rndAt
    have hr := (rint_bounds (x / 2 ^ (-53 : Int))).2
    have e : (2 : ℚ) ^ (-53 : Int) = 1 / 2 ^ 53 := by norm_num
    rw [e] at hr ⊢
    rw [div_div_eq_mul_div, div_one] at hr ⊢
    have : (rint (x * 2 ^ 53) : ℚ) < 2 ^ 53 := by
      have : x * 2 ^ 53 < (1 - 1 / 2 ^ 54 : ℚ) * 2 ^ 53 := mul_lt_mul_of_pos_right h (by norm_num)
      have e2 : (1 - 1 / 2 ^ 54 : ℚ) * 2 ^ 53 = 2 ^ 53 - 1 / 2 := by norm_num
      rw [e2] at this
      generalize x * 2 ^ 53 = y at *
      generalize (2 : ℚ) ^ 53 = P at *
      linarith
    rw [mul_one_div, div_lt_one (by norm_num)]
    exact this
  · have := f64_up h0
    have : x * (1 + 1 / 2 ^ 53) ≤ 1 / 2 * (1 + 1 / 2 ^ 53) := mul_le_mul_of_nonneg_right (not_le.mp h2).le (by norm_num)
    have : (1 / 2 * (1 + 1 / 2 ^ 53) : ℚ) < 1 := by norm_num
    linarith

/-! ### Returns -/

/-- **C133.** The sign of a simple return `a / b - 1` of positive float64 prices is exact: it is positive, zero or negative exactly when the
price rose, stayed or fell, however small the move. -/
theorem C133_ratio_sign (a b : ℚ) (ha : f64 a = a) (hb : f64 b = b) (ha0 : 0 < a) (hb0 : 0 < b) :
    (0 < ratioRet64 a b ↔ b < a) ∧ (ratioRet64 a b = 0 ↔ a = b) ∧ (ratioRet64 a b < 0 ↔ a < b) := by
  have up : b < a → 0 < ratioRet64 a b := by
    intro h
    have hg := f64_gap ha hb hb0 h
    have : 1 < f64 (a / b) := f64_gt_one (by rw [lt_div_iff₀ hb0]; linarith)
    exact f64_pos (by linarith)
  have dn : a < b → ratioRet64 a b < 0 := by
    intro h
    have hg := f64_gap hb ha ha0 h
    have hx : a / b < 1 - 1 / 2 ^ 54 := by
      rw [div_lt_iff₀ hb0]
      have : a < b / (1 + 1 / 2 ^ 53) := by rw [lt_div_iff₀ (by norm_num)]; exact hg
      have : b / (1 + 1 / 2 ^ 53) ≤ (1 - 1 / 2 ^ 54) * b := by
        rw [div_le_iff₀ (by norm_num)]
        have : (1 : ℚ) ≤ (1 - 1 / 2 ^ 54) * (1 + 1 / 2 ^ 53) := by norm_num
        have := mul_le_mul_of_nonneg_right this hb0.le
        linarith
      linarith
    have : f64 (a / b) < 1 := f64_lt_one (div_nonneg ha0.le hb0.le) hx
    exact f64_neg_of_neg (by linarith)
  have eq : a = b → ratioRet64 a b = 0 := by
    rintro rfl
    unfold ratioRet64
    rw [div_self hb0.ne', f64_one, sub_self, f64_zero]
  rcases lt_trichotomy a b with h | h | h
  · have := dn h
    exact ⟨⟨fun h1 => by linarith, fun h1 => by linarith⟩, ⟨fun h1 => by linarith, fun h1 => by linarith⟩, ⟨fun _ => h, fun _ => this⟩⟩
  · have := eq h
    exact ⟨⟨fun h1 => by linarith, fun h1 => by linarith⟩, ⟨fun _ => h, fun _ => this⟩, ⟨fun h1 => by linarith, fun h1 => by linarith⟩⟩
  · have := up h
    exact ⟨⟨fun _ => h, fun _ => this⟩, ⟨fun h1 => by linarith, fun h1 => by linarith⟩, ⟨fun h1 => by linarith, fun h1 => by linarith⟩⟩

example : 0 < ratioRet64 (1 + 1 / 2 ^ 52) 1 ∧ ratioRet64 1 (1 + 1 / 2 ^ 52) < 0 := ⟨by decide +kernel, by decide +kernel⟩

/-- **C133.** Its error is at most `3 (a / b + 1) 2^-53`. -/
theorem C133_ratio_error (a b : ℚ) (ha0 : 0 ≤ a) (hb0 : 0 < b) : |ratioRet64 a b - (a / b - 1)| ≤ 3 / 2 ^ 53 * (a / b + 1) := by
  have hx : 0 ≤ a / b := div_nonneg ha0 hb0.le
  unfold ratioRet64
  generalize a / b = x at *
  have h1 := f64_relErr x
  have h2 := f64_relErr (f64 x - 1)
  rw [abs_of_nonneg hx] at h1
  have h3 : |f64 x - 1| ≤ x * (1 + 1 / 2 ^ 53) + 1 := by
    have := f64_up hx
    have := f64_nonneg hx
    rw [abs_le]; constructor <;> linarith
  have h4 : |f64 x - 1| / 2 ^ 53 ≤ (x * (1 + 1 / 2 ^ 53) + 1) / 2 ^ 53 := div_le_div_of_nonneg_right h3 (by norm_num)
  rw [abs_le] at h1 h2 ⊢
  have h5 : x / 2 ^ 53 + (x * (1 + 1 / 2 ^ 53) + 1) / 2 ^ 53 ≤ 3 / 2 ^ 53 * (x + 1) := by
    rw [← add_div, div_mul_eq_mul_div]
    refine div_le_div_of_nonneg_right ?_ (by norm_num)
    have : x * (1 + 1 / 2 ^ 53) ≤ x * 2 := mul_le_mul_of_nonneg_left (by norm_num) hx
    linarith
  constructor <;> linarith [h1.1, h1.2, h2.1, h2.2]

example : |ratioRet64 4 3 - (4 / 3 - 1)| ≠ 0 := by decide +kernel

/-- **C133, violation.** The relative error of a small return computed as a ratio is not small: here the return is half as large again as it
should be, while the difference over the base is right to 16 digits. -/
theorem C133_ratio_inaccurate :
    let b : ℚ := 3 / 2
    let a : ℚ := 3 / 2 + 1 / 2 ^ 52
    f64 a = a ∧ ratioRet64 a b = 3 / 2 * ((a - b) / b) ∧ |diffRet64 a b - (a - b) / b| ≤ 1 / 2 ^ 53 * ((a - b) / b) := by
  intro b a
  exact ⟨by decide +kernel, by decide +kernel, by decide +kernel⟩

/-- **C133.** A return computed as difference over base has the sign of the exact one and a relative error of at most `3 * 2^-53`. -/
theorem C133_diff_error (a b : ℚ) :
    |diffRet64 a b - (a - b) / b| ≤ 3 / 2 ^ 53 * |(a - b) / b| ∧
    (0 < b → (0 < diffRet64 a b ↔ b < a) ∧ (diffRet64 a b = 0 ↔ a = b) ∧ (diffRet64 a b < 0 ↔ a < b)) := by
  constructor
  · unfold diffRet64
    have h1 := f64_relErr (a - b)
    have h2 := f64_relErr (f64 (a - b) / b)
    have k : |f64 (a - b) / b - (a - b) / b| ≤ |(a - b) / b| / 2 ^ 53 := by
      rw [← sub_div, abs_div, abs_div, div_right_comm]
      exact div_le_div_of_nonneg_right h1 (abs_nonneg b)
    generalize f64 (a - b) / b = y at *
    generalize (a - b) / b = x at *
    have h3 : |y| ≤ |x| + |x| / 2 ^ 53 := by
      have := abs_add_le (y - x) x
      rw [sub_add_cancel] at this
      linarith
    have h4 : |f64 y - x| ≤ |f64 y - y| + |y - x| := by
      have := abs_add_le (f64 y - y) (y - x)
      rwa [sub_add_sub_cancel] at this
    have h5 : |y| / 2 ^ 53 ≤ (|x| + |x| / 2 ^ 53) / 2 ^ 53 := div_le_div_of_nonneg_right h3 (by norm_num)
    have hx := abs_nonneg x
    generalize |x| = X at *
    norm_num at *
    linarith
  · intro hb0
    have s1 : b < a → 0 < diffRet64 a b := fun h => f64_pos (div_pos (f64_pos (by linarith)) hb0)
    have s2 : a < b → diffRet64 a b < 0 := fun h => f64_neg_of_neg (div_neg_of_neg_of_pos (f64_neg_of_neg (by linarith)) hb0)
    have s3 : a = b → diffRet64 a b = 0 := by rintro rfl; simp [diffRet64, f64_zero]
    rcases lt_trichotomy a b with h | h | h
    · have := s2 h
      exact ⟨⟨fun h1 => by linarith, fun h1 => by linarith⟩, ⟨fun h1 => by linarith, fun h1 => by linarith⟩, ⟨fun _ => h, fun _ => this⟩⟩
    · have := s3 h
      exact ⟨⟨fun h1 => by linarith, fun h1 => by linarith⟩, ⟨fun _ => h, fun _ => this⟩, ⟨fun h1 => by linarith, fun h1 => by linarith⟩⟩
    · have := s1 h
      exact ⟨⟨fun _ => h, fun _ => this⟩, ⟨fun h1 => by linarith, fun h1 => by linarith⟩, ⟨fun h1 => by linarith, fun h1 => by linarith⟩⟩

example : diffRet64 3 2 = 1 / 2 ∧ diffRet64 2 3 ≠ (2 - 3) / 3 := ⟨by decide +kernel, by decide +kernel⟩

/-- **C133.** The percentage change of a column: the same positions are missing, every other value is within `3 * 2^-53` of the exact one and
has its sign. -/
theorem C133_pct_change (xs : List ℚ) (p i : Nat) (hi : i < xs.length) :
    ((pctChange64 xs p)[i]? = some none ∧ (pctChange xs p)[i]? = some none) ∨
    ∃ y x, (pctChange64 xs p)[i]? = some (some y) ∧ (pctChange xs p)[i]? = some (some x) ∧
      |y - x| ≤ 3 / 2 ^ 53 * |x| ∧ (0 < y ↔ 0 < x) ∧ (y < 0 ↔ x < 0) := by
  unfold pctChange64 pctChange
  rw [tabulate_get?, tabulate_get?, if_pos hi, if_pos hi]
  by_cases hp : i < p
  · left; rw [if_pos hp, if_pos hp]; exact ⟨rfl, rfl⟩
  rw [if_neg hp, if_neg hp]
  simp only
  by_cases hb : xs.getD (i - p) 0 > 0
  · right
    rw [if_pos hb, if_pos hb]
    obtain ⟨h1, h2⟩ := C133_diff_error (xs.getD i 0) (xs.getD (i - p) 0)
    obtain ⟨h3, _, h5⟩ := h2 hb
    refine ⟨_, _, rfl, rfl, h1, ?_, ?_⟩
    · rw [h3, div_pos_iff_of_pos_right hb, sub_pos]
    · rw [h5, div_neg_iff]
      constructor
      · intro h; right; exact ⟨by linarith, hb⟩
      · rintro (⟨_, h⟩ | ⟨h, _⟩)
        · exact absurd hb (by linarith)
        · linarith
  · left; rw [if_neg hb, if_neg hb]; exact ⟨rfl, rfl⟩

example : pctChange64 [2, 3, 0, 5] 1 = [none, some (1 / 2), some (-1), none] := by decide +kernel

/-! ### Moving average -/

/-- **C133.** The moving average of nonnegative values: the same positions are missing, and a value is within `w + 2` roundings of the exact
average. -/
theorem C133_sma (xs : List ℚ) (hx : ∀ x ∈ xs, 0 ≤ x) (w i : Nat) (hi : i < xs.length) :
    ((sma64 xs w)[i]? = some none ∧ (sma xs w)[i]? = some none) ∨
    ∃ y x, (sma64 xs w)[i]? = some (some y) ∧ (sma xs w)[i]? = some (some x) ∧
      x * (1 - 1 / 2 ^ 53) ^ (w + 2) ≤ y ∧ y ≤ x * (1 + 1 / 2 ^ 53) ^ (w + 2) := by
  unfold sma64 sma
  rw [rolling_get? _ _ _ _ hi, rolling_get? _ _ _ _ hi]
  by_cases h : i + 1 < w
  · left; rw [if_pos h, if_pos h]; exact ⟨rfl, rfl⟩
  right
  rw [if_neg h, if_neg h]
  refine ⟨_, _, rfl, rfl, ?_⟩
  have hlen : (window xs w i).length ≤ w := (window_length xs w i hi (not_lt.mp h)).le
  have hnn : ∀ x ∈ window xs w i, 0 ≤ x := fun x hx' => hx x (List.mem_of_mem_drop (List.mem_of_mem_take hx'))
  have hS := List.sum_nonneg hnn
  have hw : (0 : ℚ) ≤ 1 / (w : ℚ) := by positivity
  have r := ((rounds_f64 hw).mul hw hS ((sum64_rounds _ hnn).mono hS hlen)).f64 (mul_nonneg hw hS)
  rw [show 1 + w + 1 = w + 2 by ring] at r
  exact r

example : sma64 [1, 2, 4] 2 = [none, some (3 / 2), some 3] ∧ sma64 [1, 2, 4] 3 ≠ [none, none, some (7 / 3)] := by decide +kernel

/-- Sums of multiples of a power of two are exact while they stay below `2^53` of them. -/
theorem sum64_grid (j : Int) (l : List Nat) (h : l.sum ≤ 2 ^ 53) :
    sum64 (l.map (fun n : Nat => (n : ℚ) * 2 ^ j)) = (l.sum : ℚ) * 2 ^ j := by
  induction l using List.reverseRecOn with
  | nil => simp [sum64]
  | append_singleton l n ih =>
    rw [List.sum_append, List.sum_singleton] at h
    rw [List.map_append, List.map_singleton, sum64_append, ih (by omega), List.sum_append, List.sum_singleton, ← add_mul]
    have := rndBits_exact 53 (by norm_num) ((l.sum + n : Nat) : Int) j (by rw [Nat.abs_cast]; exact_mod_cast h)
    unfold f64
    rw [Int.cast_natCast, Nat.cast_add] at this
    rw [Nat.cast_add]
    exact this

/-- **C133.** With a window of a power of two and prices that are moderate multiples of a power of two (a tick of 1/4, say) the moving average
is exact. -/
theorem C133_sma_exact (xs : List Nat) (j : Int) (k i : Nat) (hs : ∀ n ∈ xs, n * 2 ^ k ≤ 2 ^ 53) (hi : i < xs.length) :
    (sma64 (xs.map (fun n : Nat => (n : ℚ) * 2 ^ j)) (2 ^ k))[i]? = (sma (xs.map (fun n : Nat => (n : ℚ) * 2 ^ j)) (2 ^ k))[i]? := by
  unfold sma64 sma
  rw [rolling_get? _ _ _ _ (by simpa using hi), rolling_get? _ _ _ _ (by simpa using hi)]
  by_cases h : i + 1 < 2 ^ k
  · rw [if_pos h, if_pos h]
  rw [if_neg h, if_neg h, window_map]
  have hlen := window_length xs (2 ^ k) i hi (not_lt.mp h)
  have hmem : ∀ n ∈ window xs (2 ^ k) i, n * 2 ^ k ≤ 2 ^ 53 := fun n hn => hs n (List.mem_of_mem_drop (List.mem_of_mem_take hn))
  generalize window xs (2 ^ k) i = l at *
  have hsum : l.sum ≤ 2 ^ 53 := by
    have h1 : ∀ n ∈ l, n ≤ 2 ^ 53 / 2 ^ k := fun n hn => (Nat.le_div_iff_mul_le (by positivity)).mpr (hmem n hn)
    have h2 := List.sum_le_card_nsmul l _ h1
    rw [hlen, smul_eq_mul] at h2
    exact h2.trans (Nat.mul_div_le _ _)
  have e1 : (1 : ℚ) / ((2 ^ k : Nat) : ℚ) = 2 ^ (-(k : Int)) := by
    push_cast
    rw [zpow_neg, zpow_natCast, one_div]
  have e2 : f64 (2 ^ (-(k : Int))) = 2 ^ (-(k : Int)) := by
    have := rndBits_exact 53 (by norm_num) 1 (-(k : Int)) (by norm_num)
    rw [Int.cast_one, one_mul] at this
    exact this
  have e3 : (l.map (fun n : Nat => (n : ℚ) * 2 ^ j)).sum = (l.sum : ℚ) * 2 ^ j := by
    rw [List.sum_map_mul_right]
    congr 1
    clear hlen hmem hsum
    induction l with
    | nil => simp
    | cons a l ih => rw [List.map_cons, List.sum_cons, List.sum_cons, Nat.cast_add, ih]
  rw [e1, e2, sum64_grid j l hsum, e3, show (2 : ℚ) ^ (-(k : Int)) * ((l.sum : ℚ) * 2 ^ j) = (l.sum : ℚ) * 2 ^ (j - k) by
    rw [sub_eq_add_neg, zpow_add₀ (by norm_num)]; ring]
  have := rndBits_exact 53 (by norm_num) (l.sum : Int) (j - k) (by rw [Nat.abs_cast]; exact_mod_cast hsum)
  unfold f64
  rw [Int.cast_natCast] at this
  rw [this]

example : sma64 [10 * 2 ^ (-2 : Int), 13 * 2 ^ (-2 : Int)] 2 = [none, some (23 / 8)] := by decide +kernel

/-- **C133, violation.** The average of a constant series need not be that constant: the reciprocal of the window is rounded before it is
multiplied, and over 49 ones it gives `1 - 2^-53`, below the minimum of the data. -/
theorem C133_sma_constant :
    (sma (List.replicate 49 (1 : ℚ)) 49).getD 48 none = some 1 ∧ (sma64 (List.replicate 49 1) 49).getD 48 none = some (1 - 1 / 2 ^ 53) := by
  decide +kernel

end FinML
