/-
C111: moving averages and rates of change in the element type of the column.
-/
import Verif.Model.ColumnTypes
import Verif.Props.Ohlcv64
import Verif.Props.Features64
import Verif.Lemmas.Indicators
import Mathlib.Tactic.FieldSimp
import Mathlib.Tactic.Positivity

set_option linter.unusedSectionVars false

namespace FinML

/-! ### Auxiliary -/

theorem truncZ_nonneg {x : ℚ} (h : 0 ≤ x) : truncZ x = ⌊x⌋ := by
  rw [truncZ, if_pos h]; rfl

theorem truncZ_neg (x : ℚ) : truncZ (-x) = -truncZ x := by
  unfold truncZ
  rcases lt_trichotomy x 0 with h | h | h
  · rw [if_pos (by linarith), if_neg (by linarith), neg_neg]
  · subst h; decide +kernel
  · rw [if_neg (by linarith), if_pos h.le, neg_neg]

theorem truncZ_zero_of_abs {x : ℚ} (h : |x| < 1) : truncZ x = 0 := by
  obtain ⟨h1, h2⟩ := abs_lt.1 h
  rcases le_or_gt 0 x with h0 | h0
  · rw [truncZ_nonneg h0, Int.floor_eq_iff]; constructor <;> push_cast <;> linarith
  · have e : x = -(-x) := by ring
    rw [e, truncZ_neg, truncZ_nonneg (by linarith), neg_eq_zero, Int.floor_eq_iff]
    constructor <;> push_cast <;> linarith

theorem truncZ_err (x : ℚ) : |(truncZ x : ℚ) - x| < 1 := by
  rcases le_or_gt 0 x with h0 | h0
  · rw [truncZ_nonneg h0, abs_lt]
    have := Int.floor_le x
    have := Int.lt_floor_add_one x
    constructor <;> linarith
  · have e : truncZ x = -⌊-x⌋ := by rw [← truncZ_nonneg (by linarith), truncZ_neg, neg_neg]
    rw [e, abs_lt]
    have := Int.floor_le (-x)
    have := Int.lt_floor_add_one (-x)
    push_cast
    constructor <;> linarith

theorem sum64_ints (zs : List Int) (hz : ∀ z ∈ zs, 0 ≤ z) (hs : zs.sum ≤ 2 ^ 53) :
    sum64 (zs.map (fun z : Int => (z : ℚ))) = (zs.sum : ℚ) := by
  have := C88_exact_volumes zs 0 hz hs
  simpa using this

/-- The two roundings of `1/w * S`. -/
theorem smaVal64_factor (w : Nat) (l : List ℚ) (S : ℚ) (hS : 0 ≤ S) (e : sum64 l = S) :
    S / w * (1 - 1 / 2 ^ 53) ^ 2 ≤ smaVal64 w l ∧ smaVal64 w l ≤ S / w * (1 + 1 / 2 ^ 53) ^ 2 := by
  unfold smaVal64
  rw [e]
  have hw : (0 : ℚ) ≤ 1 / (w : ℚ) := by positivity
  have hq := f64_relErr (1 / (w : ℚ))
  rw [abs_of_nonneg hw, abs_le] at hq
  set q := f64 (1 / (w : ℚ)) with hqd
  have hq0 : 0 ≤ q := f64_nonneg hw
  have hv := f64_relErr (q * S)
  rw [abs_of_nonneg (mul_nonneg hq0 hS), abs_le] at hv
  have e1 : S / (w : ℚ) = 1 / (w : ℚ) * S := by ring
  have hl : 1 / (w : ℚ) * (1 - 1 / 2 ^ 53) * S ≤ q * S := mul_le_mul_of_nonneg_right (by linarith [hq.1]) hS
  have hu : q * S ≤ 1 / (w : ℚ) * (1 + 1 / 2 ^ 53) * S := mul_le_mul_of_nonneg_right (by linarith [hq.2]) hS
  rw [e1]
  constructor
  · calc 1 / (w : ℚ) * S * (1 - 1 / 2 ^ 53) ^ 2 = (1 / (w : ℚ) * (1 - 1 / 2 ^ 53) * S) * (1 - 1 / 2 ^ 53) := by ring
      _ ≤ q * S * (1 - 1 / 2 ^ 53) := mul_le_mul_of_nonneg_right hl (by norm_num)
      _ ≤ _ := by linarith [hv.1]
  · calc f64 (q * S) ≤ q * S * (1 + 1 / 2 ^ 53) := by linarith [hv.2]
      _ ≤ (1 / (w : ℚ) * (1 + 1 / 2 ^ 53) * S) * (1 + 1 / 2 ^ 53) := mul_le_mul_of_nonneg_right hu (by norm_num)
      _ = _ := by ring

/-! ### Statements -/

/-- **C111.** The float64 moving average of `w` non-negative numbers is their mean up to `w + 2` roundings. -/
theorem C111_sma_accuracy (w : Nat) (l : List ℚ) (h : ∀ v ∈ l, 0 ≤ v) :
    l.sum / w * (1 - 1 / 2 ^ 53) ^ (l.length + 2) ≤ smaVal64 w l ∧
      smaVal64 w l ≤ l.sum / w * (1 + 1 / 2 ^ 53) ^ (l.length + 2) := by
  obtain ⟨h1, h2⟩ := C88_volume l h
  obtain ⟨g1, g2⟩ := smaVal64_factor w l (sum64 l) (sum64_nonneg l h) rfl
  have hw : (0 : ℚ) ≤ 1 / (w : ℚ) := by positivity
  constructor
  · refine le_trans ?_ g1
    rw [pow_add]
    calc l.sum / w * ((1 - 1 / 2 ^ 53) ^ l.length * (1 - 1 / 2 ^ 53) ^ 2)
        = (l.sum * (1 - 1 / 2 ^ 53) ^ l.length) * (1 / (w : ℚ) * (1 - 1 / 2 ^ 53) ^ 2) := by ring
      _ ≤ sum64 l * (1 / (w : ℚ) * (1 - 1 / 2 ^ 53) ^ 2) := mul_le_mul_of_nonneg_right h1 (by positivity)
      _ = _ := by ring
  · refine le_trans g2 ?_
    rw [pow_add]
    calc sum64 l / w * (1 + 1 / 2 ^ 53) ^ 2 = sum64 l * (1 / (w : ℚ) * (1 + 1 / 2 ^ 53) ^ 2) := by ring
      _ ≤ (l.sum * (1 + 1 / 2 ^ 53) ^ l.length) * (1 / (w : ℚ) * (1 + 1 / 2 ^ 53) ^ 2) :=
        mul_le_mul_of_nonneg_right h2 (by positivity)
      _ = _ := by ring

example : (∀ v ∈ ([1, 2, 2] : List ℚ), 0 ≤ v) ∧ smaVal64 3 [1, 2, 2] ≠ 5 / 3 ∧ |smaVal64 3 [1, 2, 2] - 5 / 3| ≤ 1 / 2 ^ 51 := by decide +kernel

/-- **C111.** The moving average of an integer column is the mean rounded down, whenever the window does not divide the
sum; when it does, the stored number is the mean or one less.  (Windows and sums up to `2^50`.) -/
theorem C111_sma_int (w : Nat) (zs : List Int) (hw : 0 < w) (hw2 : w ≤ 2 ^ 50) (hz : ∀ z ∈ zs, 0 ≤ z) (hs : zs.sum ≤ 2 ^ 50) :
    (¬ (w : Int) ∣ zs.sum → ColType.int64.store (smaVal64 w (zs.map (fun z : Int => (z : ℚ)))) = ((zs.sum / (w : Int) : Int) : ℚ)) ∧
    ((w : Int) ∣ zs.sum →
      ColType.int64.store (smaVal64 w (zs.map (fun z : Int => (z : ℚ)))) = ((zs.sum / (w : Int) : Int) : ℚ) ∨
      ColType.int64.store (smaVal64 w (zs.map (fun z : Int => (z : ℚ)))) = ((zs.sum / (w : Int) - 1 : Int) : ℚ)) := by
  have hS0 : 0 ≤ zs.sum := List.sum_nonneg hz
  have e := sum64_ints zs hz (by omega)
  obtain ⟨g1, g2⟩ := smaVal64_factor w _ (zs.sum : ℚ) (by exact_mod_cast hS0) e
  set v := smaVal64 w (zs.map (fun z : Int => (z : ℚ))) with hv
  set S := zs.sum with hSd
  set k := S / (w : Int) with hk
  have hwq : (0 : ℚ) < (w : ℚ) := by exact_mod_cast hw
  have hkr : S = (w : Int) * k + S % (w : Int) := (Int.mul_ediv_add_emod S w).symm
  have hr0 : 0 ≤ S % (w : Int) := Int.emod_nonneg _ (by omega)
  have hr1 : S % (w : Int) < w := Int.emod_lt_of_pos _ (by omega)
  have hk0 : 0 ≤ k := Int.ediv_nonneg hS0 (by omega)
  have hv0 : 0 ≤ v := le_trans (by have : (0:ℚ) ≤ (S : ℚ) := by exact_mod_cast hS0
                                   positivity) g1
  set r := S % (w : Int) with hrd
  have hkw : (w : Int) * k ≤ 2 ^ 50 := by omega
  have hkwq : (w : ℚ) * (k : ℚ) ≤ 1125899906842624 := by norm_num at hkw; exact_mod_cast hkw
  have hwq2 : (w : ℚ) ≤ 1125899906842624 := by norm_num at hw2; exact_mod_cast hw2
  have hkq : (0 : ℚ) ≤ k := by exact_mod_cast hk0
  have hSq : (S : ℚ) = w * k + r := by exact_mod_cast hkr
  have hr0q : (0 : ℚ) ≤ r := by exact_mod_cast hr0
  have hr1q : (r : ℚ) ≤ w - 1 := by
    have : r + 1 ≤ (w : Int) := hr1
    have : ((r + 1 : Int) : ℚ) ≤ ((w : Int) : ℚ) := by exact_mod_cast this
    push_cast at this; linarith
  -- multiply the bounds by `w`
  have g1' : (S : ℚ) * (1 - 1 / 2 ^ 53) ^ 2 ≤ v * w := by
    have := mul_le_mul_of_nonneg_right g1 hwq.le
    have e2 : (S : ℚ) / w * (1 - 1 / 2 ^ 53) ^ 2 * w = (S : ℚ) * (1 - 1 / 2 ^ 53) ^ 2 := by field_simp
    linarith
  have g2' : v * w ≤ (S : ℚ) * (1 + 1 / 2 ^ 53) ^ 2 := by
    have := mul_le_mul_of_nonneg_right g2 hwq.le
    have e2 : (S : ℚ) / w * (1 + 1 / 2 ^ 53) ^ 2 * w = (S : ℚ) * (1 + 1 / 2 ^ 53) ^ 2 := by field_simp
    linarith
  have hup : v < k + 1 := by
    have : v * w < (k + 1) * w := by
      refine lt_of_le_of_lt g2' ?_
      rw [hSq]
      norm_num1
      nlinarith
    exact lt_of_mul_lt_mul_right this hwq.le
  have st : ColType.int64.store v = ((⌊v⌋ : Int) : ℚ) := by
    show ((truncZ v : Int) : ℚ) = _
    rw [truncZ_nonneg hv0]
  rw [st]
  constructor
  · intro hd
    have hrne : r ≠ 0 := fun h => hd (Int.dvd_of_emod_eq_zero h)
    have hr1' : (1 : ℚ) ≤ r := by
      have : 1 ≤ r := by omega
      exact_mod_cast this
    have hlow : (k : ℚ) ≤ v := by
      have : (k : ℚ) * w ≤ v * w := by
        refine le_trans ?_ g1'
        rw [hSq]
        norm_num1
        nlinarith
      exact le_of_mul_le_mul_right this hwq
    have : ⌊v⌋ = k := by rw [Int.floor_eq_iff]; exact ⟨hlow, hup⟩
    rw [this]
  · intro _
    have hlow : (k : ℚ) - 1 < v := by
      have : ((k : ℚ) - 1) * w < v * w := by
        refine lt_of_lt_of_le ?_ g1'
        rw [hSq]
        have h1w : (1 : ℚ) ≤ w := by exact_mod_cast hw
        norm_num1
        nlinarith
      exact lt_of_mul_lt_mul_right this hwq.le
    rcases le_or_gt (k : ℚ) v with h | h
    · left
      have : ⌊v⌋ = k := by rw [Int.floor_eq_iff]; exact ⟨h, hup⟩
      rw [this]
    · right
      have : ⌊v⌋ = k - 1 := by rw [Int.floor_eq_iff]; push_cast; exact ⟨hlow.le, by linarith⟩
      rw [this]

example : (∀ z ∈ ([1, 2, 2] : List Int), 0 ≤ z) ∧ ([1, 2, 2] : List Int).sum ≤ 2 ^ 50 ∧ ColType.int64.store (smaVal64 3 [1, 2, 2]) = 1 := by
  decide +kernel

/-- **C111.** For windows that are powers of two nothing but the truncation is lost: the float64 average is the exact
mean, and the stored integer is the mean rounded down. -/
theorem C111_sma_pow2 (j : Nat) (zs : List Int) (hz : ∀ z ∈ zs, 0 ≤ z) (hs : zs.sum ≤ 2 ^ 53) :
    smaVal64 (2 ^ j) (zs.map (fun z : Int => (z : ℚ))) = (zs.sum : ℚ) / 2 ^ j ∧
    ColType.int64.store (smaVal64 (2 ^ j) (zs.map (fun z : Int => (z : ℚ)))) = ((zs.sum / 2 ^ j : Int) : ℚ) := by
  have hS0 : 0 ≤ zs.sum := List.sum_nonneg hz
  have e := sum64_ints zs hz hs
  have h1 : smaVal64 (2 ^ j) (zs.map (fun z : Int => (z : ℚ))) = (zs.sum : ℚ) / 2 ^ j := by
    unfold smaVal64
    rw [e]
    have e1 : (1 : ℚ) / ((2 ^ j : Nat) : ℚ) = ((1 : Int) : ℚ) * 2 ^ (-(j : Int)) := by
      rw [zpow_neg, zpow_natCast]; push_cast; ring
    have x1 : f64 (((1 : Int) : ℚ) * 2 ^ (-(j : Int))) = ((1 : Int) : ℚ) * 2 ^ (-(j : Int)) :=
      rndBits_exact 53 (by norm_num) 1 _ (by norm_num)
    rw [e1, x1]
    have e2 : ((1 : Int) : ℚ) * 2 ^ (-(j : Int)) * (zs.sum : ℚ) = ((zs.sum : Int) : ℚ) * 2 ^ (-(j : Int)) := by
      push_cast; ring
    have x2 : f64 (((zs.sum : Int) : ℚ) * 2 ^ (-(j : Int))) = ((zs.sum : Int) : ℚ) * 2 ^ (-(j : Int)) :=
      rndBits_exact 53 (by norm_num) _ _ (by rw [abs_of_nonneg hS0]; exact hs)
    rw [e2, x2, zpow_neg, zpow_natCast]
    ring
  refine ⟨h1, ?_⟩
  rw [h1]
  show ((truncZ _ : Int) : ℚ) = _
  have hq : (0 : ℚ) ≤ (zs.sum : ℚ) := by exact_mod_cast hS0
  rw [truncZ_nonneg (by positivity)]
  have := Rat.floor_intCast_div_natCast zs.sum (2 ^ j)
  push_cast at this
  rw [this]

example : (∀ z ∈ ([1, 2, 2, 6] : List Int), 0 ≤ z) ∧ ([1, 2, 2, 6] : List Int).sum ≤ 2 ^ 53 ∧ smaVal64 (2 ^ 2) [1, 2, 2, 6] = 11 / 4 := by
  decide +kernel

/-- **C111.** The warm-up: NaN in a float column, the smallest `int64` in an integer column. -/
theorem C111_warmup (c : ColType) (xs : List ℚ) (w i : Nat) (hi : i < xs.length) (h : i + 1 < w) :
    (smaTyped c xs w)[i]? = some (if c = .int64 then some (-(2 ^ 63)) else none) := by
  unfold smaTyped
  rw [tabulate_get?, if_pos hi, if_pos h]
  cases c <;> rfl

example : (smaTyped .int64 [1, 2, 2] 3)[1]? = some (some (-(2 ^ 63) : ℚ)) ∧ (smaTyped .float64 [1, 2, 2] 3)[1]? = some none := by decide +kernel

/-- **C111.** So no position of an integer column is ever NaN. -/
theorem C111_int_never_nan (xs : List ℚ) (w p : Nat) :
    (∀ x ∈ smaTyped .int64 xs w, x ≠ none) ∧ ∀ x ∈ rocTyped .int64 xs p, x ≠ none := by
  constructor <;> intro x hx <;> simp only [smaTyped, rocTyped, tabulate, List.mem_map] at hx <;>
    obtain ⟨i, _, rfl⟩ := hx <;> split <;> simp [ColType.storeNan]

/-- **C111.** The rate of change of an integer column is truncated: it differs from the exact percentage by less than one
plus the two roundings. -/
theorem C111_roc_int (a b : Int) :
    |ColType.int64.store (rocVal64 .int64 a b) - ((b : ℚ) - a) / a * 100|
      < 1 + |((b : ℚ) - a) / a * 100| * (1 / 2 ^ 52 + 1 / 2 ^ 106) := by
  set r := ((b : ℚ) - a) / a with hr
  show |((truncZ (f64 (f64 (((b : ℚ) - a) / a) * 100)) : Int) : ℚ) - r * 100| < _
  rw [← hr]
  have h1 := f64_relErr r
  have h2 := f64_relErr (f64 r * 100)
  have h3 := truncZ_err (f64 (f64 r * 100))
  have h4 : |f64 r * 100 - r * 100| ≤ |r * 100| / 2 ^ 53 := by
    rw [← sub_mul, abs_mul, abs_mul]
    have : |(100 : ℚ)| = 100 := by norm_num
    rw [this]
    have := mul_le_mul_of_nonneg_right h1 (by norm_num : (0 : ℚ) ≤ 100)
    linarith
  have h5 : |f64 r * 100| ≤ |r * 100| + |r * 100| / 2 ^ 53 := by
    have := abs_sub_abs_le_abs_sub (f64 r * 100) (r * 100)
    linarith
  have h6 : |f64 (f64 r * 100) - f64 r * 100| ≤ (|r * 100| + |r * 100| / 2 ^ 53) / 2 ^ 53 :=
    le_trans h2 (by have : (0 : ℚ) < 2 ^ 53 := by norm_num
                    exact div_le_div_of_nonneg_right h5 this.le)
  set T : ℚ := ((truncZ (f64 (f64 r * 100)) : Int) : ℚ) with hT
  have e : T - r * 100 = (T - f64 (f64 r * 100)) + ((f64 (f64 r * 100) - f64 r * 100) + (f64 r * 100 - r * 100)) := by ring
  calc |T - r * 100| ≤ |T - f64 (f64 r * 100)| + (|f64 (f64 r * 100) - f64 r * 100| + |f64 r * 100 - r * 100|) := by
        rw [e]; exact le_trans (abs_add_le _ _) (by gcongr; exact abs_add_le _ _)
    _ < 1 + ((|r * 100| + |r * 100| / 2 ^ 53) / 2 ^ 53 + |r * 100| / 2 ^ 53) := by linarith
    _ = _ := by ring

/-- **C111.** A change of an integer column by less than one percent is reported as no change. -/
theorem C111_roc_int_small (a b : Int) (ha : 0 < a) (ha2 : a ≤ 2 ^ 50) (h : 100 * |b - a| < a) :
    ColType.int64.store (rocVal64 .int64 a b) = 0 := by
  set r := ((b : ℚ) - a) / a with hr
  have haq : (0 : ℚ) < a := by exact_mod_cast ha
  have hr1 : |r| * 100 ≤ 1 - 1 / a := by
    have h' : 100 * |b - a| + 1 ≤ a := h
    have h'' : 100 * |(b : ℚ) - a| + 1 ≤ a := by exact_mod_cast h'
    rw [hr, abs_div, abs_of_pos haq, div_mul_eq_mul_div, div_le_iff₀ haq, sub_mul, one_div, inv_mul_cancel₀ haq.ne']
    linarith
  have h1 : |f64 r| ≤ |r| * (1 + 1 / 2 ^ 53) := by
    have := f64_relErr r
    have := abs_sub_abs_le_abs_sub (f64 r) r
    linarith
  have h2 : |f64 (f64 r * 100)| ≤ |f64 r| * 100 * (1 + 1 / 2 ^ 53) := by
    have h3 := f64_relErr (f64 r * 100)
    have h4 := abs_sub_abs_le_abs_sub (f64 (f64 r * 100)) (f64 r * 100)
    have : |f64 r * 100| = |f64 r| * 100 := by rw [abs_mul]; norm_num
    rw [this] at h3 h4
    linarith
  have h3 : |f64 (f64 r * 100)| < 1 := by
    have h5 : |f64 (f64 r * 100)| ≤ (1 - 1 / a) * (1 + 1 / 2 ^ 53) ^ 2 := by
      refine le_trans h2 ?_
      calc |f64 r| * 100 * (1 + 1 / 2 ^ 53) ≤ |r| * (1 + 1 / 2 ^ 53) * 100 * (1 + 1 / 2 ^ 53) := by gcongr
        _ = |r| * 100 * (1 + 1 / 2 ^ 53) ^ 2 := by ring
        _ ≤ _ := by gcongr
    have h6 : (1 : ℚ) / 2 ^ 50 ≤ 1 / a := by
      apply one_div_le_one_div_of_le haq
      exact_mod_cast ha2
    refine lt_of_le_of_lt h5 ?_
    norm_num at h6 ⊢
    nlinarith
  show ((truncZ (f64 (f64 (((b : ℚ) - a) / a) * 100)) : Int) : ℚ) = 0
  rw [← hr, truncZ_zero_of_abs h3]
  rfl

example : (0 : Int) < 1000 ∧ 100 * |(1009 : Int) - 1000| < 1000 ∧ ColType.int64.store (rocVal64 .int64 1000 1009) = 0 := by decide +kernel

/-! ### Violations -/

/-- Forty-nine bars of one trade each: the moving average over forty-nine of them is stored as 0. -/
theorem C111_sma_of_ones : (smaTyped .int64 (List.replicate 49 1) 49)[48]? = some (some 0) := by decide +kernel

/-- The float64 average of the same column is below every element of the column. -/
theorem C111_sma_below_constant : smaVal64 49 (List.replicate 49 1) < 1 := by decide +kernel

/-- Rounding multiplies by a factor close to 1. -/
theorem rndBits_factor (p : Nat) (x : ℚ) : ∃ d : ℚ, |d| ≤ 1 / 2 ^ p ∧ rndBits p x = x * (1 + d) := by
  by_cases hx : x = 0
  · exact ⟨0, by rw [abs_zero]; positivity, by rw [hx, rndBits_zero, zero_mul]⟩
  · refine ⟨(rndBits p x - x) / x, ?_, by field_simp; ring⟩
    rw [abs_div, div_le_iff₀ (abs_pos.mpr hx)]
    have := rndBits_relErr p x
    rw [div_eq_mul_inv] at this
    rw [one_div]; linarith

/-- Unit roundoff of a float column. -/
def ColType.unit : ColType → ℚ
  | .float32 => 1 / 2 ^ 24
  | _ => 1 / 2 ^ 53

/-- **C111.** The rate of change of a float column is the exact percentage times three factors close to 1: the difference and the
quotient are rounded in the type of the column, the product with 100 in float64. -/
theorem C111_roc_float (c : ColType) (hc : c ≠ .int64) (a b : ℚ) : ∃ d1 d2 d3 : ℚ, |d1| ≤ c.unit ∧ |d2| ≤ c.unit ∧ |d3| ≤ 1 / 2 ^ 53 ∧
    rocVal64 c a b = (b - a) / a * 100 * ((1 + d1) * (1 + d2) * (1 + d3)) := by
  have key : ∀ p, ∃ d1 d2 d3 : ℚ, |d1| ≤ 1 / 2 ^ p ∧ |d2| ≤ 1 / 2 ^ p ∧ |d3| ≤ 1 / 2 ^ 53 ∧
      f64 (rndBits p (rndBits p (b - a) / a) * 100) = (b - a) / a * 100 * ((1 + d1) * (1 + d2) * (1 + d3)) := by
    intro p
    obtain ⟨d1, h1, e1⟩ := rndBits_factor p (b - a)
    obtain ⟨d2, h2, e2⟩ := rndBits_factor p (rndBits p (b - a) / a)
    obtain ⟨d3, h3, e3⟩ := rndBits_factor 53 (rndBits p (rndBits p (b - a) / a) * 100)
    refine ⟨d1, d2, d3, h1, h2, h3, ?_⟩
    unfold f64
    rw [e3, e2, e1]
    ring
  cases c with
  | int64 => exact absurd rfl hc
  | float32 => exact key 24
  | float64 => exact key 53

example : ColType.float32 ≠ .int64 ∧ rocVal64 .float64 4 5 = 25 ∧ rocVal64 .float32 4 5 = 25 := by decide +kernel

/-- **C111.** So the rate of change of a float column of positive numbers is positive exactly when the price has risen, negative
exactly when it has fallen. -/
theorem C111_roc_sign (c : ColType) (hc : c ≠ .int64) (a b : ℚ) (ha : 0 < a) :
    (0 < rocVal64 c a b ↔ a < b) ∧ (rocVal64 c a b < 0 ↔ b < a) := by
  obtain ⟨d1, d2, d3, h1, h2, h3, e⟩ := C111_roc_float c hc a b
  have hu : c.unit ≤ 1 / 2 := by cases c <;> norm_num [ColType.unit]
  have p1 : 0 < 1 + d1 := by have := (abs_le.mp h1).1; linarith
  have p2 : 0 < 1 + d2 := by have := (abs_le.mp h2).1; linarith
  have p3 : 0 < 1 + d3 := by have := (abs_le.mp h3).1; norm_num at this; linarith
  have hf : 0 < (1 + d1) * (1 + d2) * (1 + d3) := by positivity
  have e' : rocVal64 c a b = (b - a) * (100 / a * ((1 + d1) * (1 + d2) * (1 + d3))) := by rw [e]; ring
  have hg : 0 < 100 / a * ((1 + d1) * (1 + d2) * (1 + d3)) := by positivity
  rw [e']
  constructor
  · rw [mul_pos_iff_of_pos_right hg, sub_pos]
  · rw [mul_neg_iff]
    constructor
    · rintro (⟨_, h⟩ | ⟨h, _⟩)
      · exact absurd hg (not_lt.mpr h.le)
      · linarith
    · intro h; exact Or.inr ⟨by linarith, hg⟩

example : 33 < rocVal64 .float32 3 4 ∧ rocVal64 .float32 3 4 < 34 ∧ rocVal64 .float32 3 4 ≠ rocVal64 .float64 3 4 := by decide +kernel

/-- A count going from 100 to 129 is reported to grow by 28 percent, and from 100 to 129 in float64 by slightly less than 29. -/
theorem C111_roc_wrong_percent :
    ColType.int64.store (rocVal64 .int64 100 129) = 28 ∧ rocVal64 .float64 100 129 < 29 := by decide +kernel

example : smaTyped .int64 [3, 4, 4] 2 = [some (-(2 ^ 63)), some 3, some 4] := by decide +kernel
example : smaTyped .float64 [3, 4, 4] 2 = [none, some (7 / 2), some 4] := by decide +kernel
example : smaVal64 3 [(3 : ℚ), 4, 4] ≠ 11 / 3 := by decide +kernel
example : ¬ ((3 : Nat) : Int) ∣ ([3, 4, 4] : List Int).sum ∧ ([3, 4, 4] : List Int).sum / (3 : Nat) = 3 := by decide
example : rocTyped .int64 [200, 201, 300] 1 = [some (-(2 ^ 63)), some 0, some 49] := by decide +kernel
example : 100 * |(201 : Int) - 200| < 200 := by decide

end FinML
