/-
Binary rounding: monotone, exact on representable numbers, relative error.
-/
import Verif.Model.Float64
import Mathlib.Data.Rat.Floor
import Mathlib.Data.Int.Log
import Mathlib.Tactic.Linarith
import Mathlib.Tactic.Positivity
import Mathlib.Tactic.Ring
import Mathlib.Tactic.FieldSimp
import Mathlib.Tactic.NormNum
import Mathlib.Tactic.Push

set_option linter.unusedSectionVars false

namespace FinML

theorem rint_bounds (x : ℚ) : x - 1 / 2 ≤ (rint x : ℚ) ∧ (rint x : ℚ) ≤ x + 1 / 2 := by
  have h1 : (x.floor : ℚ) ≤ x := Rat.floor_le x
  have h2 : x < (x.floor : ℚ) + 1 := by exact_mod_cast Rat.lt_floor_add_one x
  unfold rint
  simp only []
  split_ifs with a b c
  · constructor <;> linarith
  · push_cast; constructor <;> linarith
  · constructor <;> linarith
  · push_cast; constructor <;> linarith

theorem rat_floor_eq (x : ℚ) (z : Int) (h1 : (z : ℚ) ≤ x) (h2 : x < z + 1) : x.floor = z := by
  have a : (x.floor : ℚ) ≤ x := Rat.floor_le x
  have b : x < (x.floor : ℚ) + 1 := by exact_mod_cast Rat.lt_floor_add_one x
  have c : x.floor < z + 1 := by exact_mod_cast (lt_of_le_of_lt a h2)
  have d : z < x.floor + 1 := by exact_mod_cast (lt_of_le_of_lt h1 b)
  omega

theorem rint_int (z : Int) : rint (z : ℚ) = z := by
  unfold rint
  have : ((z : ℚ)).floor = z := rat_floor_eq _ _ le_rfl (by linarith)
  simp [this]

theorem rint_mono {x y : ℚ} (h : x ≤ y) : rint x ≤ rint y := by
  by_contra hlt
  rw [not_le] at hlt
  have h1 := rint_bounds x
  have h2 := rint_bounds y
  have h3 : (rint y : ℚ) + 1 ≤ rint x := by exact_mod_cast hlt
  have hxy : x = y := by linarith
  subst hxy
  omega

theorem rint_add_even (x : ℚ) (k : Int) : rint (x + 2 * k) = rint x + 2 * k := by
  have h1 : (x.floor : ℚ) ≤ x := Rat.floor_le x
  have h2 : x < (x.floor : ℚ) + 1 := by exact_mod_cast Rat.lt_floor_add_one x
  have hf : (x + 2 * k).floor = x.floor + 2 * k := by
    apply rat_floor_eq
    · push_cast; linarith
    · push_cast; linarith
  unfold rint
  simp only []
  rw [hf]
  have hr : x + 2 * (k : ℚ) - ((x.floor + 2 * k : Int) : ℚ) = x - x.floor := by push_cast; ring
  have hm : (x.floor + 2 * k) % 2 = x.floor % 2 := by omega
  rw [hr, hm]
  split_ifs <;> ring

theorem rint_neg (x : ℚ) : rint (-x) = - rint x := by
  have h1 : (x.floor : ℚ) ≤ x := Rat.floor_le x
  have h2 : x < (x.floor : ℚ) + 1 := by exact_mod_cast Rat.lt_floor_add_one x
  by_cases hz : x = x.floor
  · rw [hz]
    have : -((x.floor : Int) : ℚ) = ((-x.floor : Int) : ℚ) := by push_cast; rfl
    rw [this, rint_int, rint_int]
  · have hlt : (x.floor : ℚ) < x := lt_of_le_of_ne h1 (Ne.symm hz)
    have hf : (-x).floor = -x.floor - 1 := by
      apply rat_floor_eq
      · push_cast; linarith
      · push_cast; linarith
    unfold rint
    simp only []
    rw [hf]
    have hr : -x - ((-x.floor - 1 : Int) : ℚ) = 1 - (x - x.floor) := by push_cast; ring
    rw [hr]
    generalize x - (x.floor : ℚ) = r at *
    generalize x.floor = f at *
    split_ifs <;> first | omega | (exfalso; linarith)

/-- Rounding to a multiple of `2 ^ e`. -/
def rndAt (e : Int) (x : ℚ) : ℚ := (rint (x / 2 ^ e) : ℚ) * 2 ^ e

theorem two_zpow_pos (e : Int) : (0 : ℚ) < 2 ^ e := zpow_pos (by norm_num) e

theorem rndAt_mono (e : Int) {x y : ℚ} (h : x ≤ y) : rndAt e x ≤ rndAt e y := by
  unfold rndAt
  have hp := two_zpow_pos e
  have : rint (x / 2 ^ e) ≤ rint (y / 2 ^ e) := rint_mono (by gcongr)
  have h2 : (rint (x / 2 ^ e) : ℚ) ≤ rint (y / 2 ^ e) := by exact_mod_cast this
  exact mul_le_mul_of_nonneg_right h2 hp.le

theorem rndAt_near (e : Int) (x : ℚ) : |rndAt e x - x| ≤ 2 ^ e / 2 := by
  unfold rndAt
  have hp := two_zpow_pos e
  have hb := rint_bounds (x / 2 ^ e)
  have hx : x = x / 2 ^ e * 2 ^ e := by field_simp
  generalize hy : x / 2 ^ e = y at *
  generalize (2 : ℚ) ^ e = P at *
  rw [hx, abs_le]
  constructor <;> nlinarith

theorem rndAt_exact (e : Int) (m : Int) (k : Int) (h : e ≤ k) : rndAt e ((m : ℚ) * 2 ^ k) = (m : ℚ) * 2 ^ k := by
  obtain ⟨n, rfl⟩ := Int.le.dest h
  unfold rndAt
  have h2 : (m : ℚ) * 2 ^ (e + (n : Int)) / 2 ^ e = ((m * 2 ^ n : Int) : ℚ) := by
    rw [zpow_add₀ (by norm_num)]
    have := (two_zpow_pos e).ne'
    push_cast
    rw [zpow_natCast]
    field_simp
  rw [h2, rint_int, zpow_add₀ (by norm_num)]
  push_cast
  rw [zpow_natCast]
  ring

theorem log2_bounds (x : ℚ) (hx : 0 < x) : (2 : ℚ) ^ Int.log 2 x ≤ x ∧ x < (2 : ℚ) ^ (Int.log 2 x + 1) :=
  ⟨by exact_mod_cast Int.zpow_log_le_self (b := 2) (by norm_num) hx,
    by exact_mod_cast Int.lt_zpow_succ_log_self (b := 2) (by norm_num) x⟩

theorem log2_eq (x : ℚ) (e : Int) (h1 : (2 : ℚ) ^ e ≤ x) (h2 : x < (2 : ℚ) ^ (e + 1)) : Int.log 2 x = e := by
  have hx : 0 < x := lt_of_lt_of_le (two_zpow_pos e) h1
  obtain ⟨a, b⟩ := log2_bounds x hx
  have l1 := (zpow_lt_zpow_iff_right₀ (by norm_num : (1 : ℚ) < 2)).mp (lt_of_le_of_lt a h2)
  have l2 := (zpow_lt_zpow_iff_right₀ (by norm_num : (1 : ℚ) < 2)).mp (lt_of_le_of_lt h1 b)
  omega

theorem rndBits_pos (p : Nat) (x : ℚ) (hx : 0 < x) : rndBits p x = rndAt (Int.log 2 x - ((p : Int) - 1)) x := by
  unfold rndBits
  rw [if_neg hx.ne', abs_of_pos hx]
  rfl

theorem rndBits_zero (p : Nat) : rndBits p 0 = 0 := by simp [rndBits]

theorem rndBits_neg (p : Nat) (x : ℚ) : rndBits p (-x) = -rndBits p x := by
  unfold rndBits
  by_cases h : x = 0
  · simp [h]
  · rw [if_neg h, if_neg (neg_ne_zero.mpr h), abs_neg]
    simp only [neg_div, rint_neg]
    push_cast
    ring

/-- In the binade of `2 ^ e` rounding is to multiples of `2 ^ (e - p + 1)`. -/
theorem rndBits_binade (p : Nat) (x : ℚ) (e : Int) (h1 : (2 : ℚ) ^ e ≤ x) (h2 : x < (2 : ℚ) ^ (e + 1)) :
    rndBits p x = rndAt (e - ((p : Int) - 1)) x := by
  rw [rndBits_pos p x (lt_of_lt_of_le (two_zpow_pos e) h1), log2_eq x e h1 h2]

theorem rndAt_pow (e k : Int) (h : e ≤ k) : rndAt e ((2 : ℚ) ^ k) = 2 ^ k := by
  have := rndAt_exact e 1 k h
  simpa using this

/-- A rounded positive number stays between the powers of two around it. -/
theorem rndBits_between (p : Nat) (hp : 1 ≤ p) (x : ℚ) (e : Int) (h1 : (2 : ℚ) ^ e ≤ x) (h2 : x < (2 : ℚ) ^ (e + 1)) :
    (2 : ℚ) ^ e ≤ rndBits p x ∧ rndBits p x ≤ 2 ^ (e + 1) := by
  rw [rndBits_binade p x e h1 h2]
  constructor
  · calc (2 : ℚ) ^ e = rndAt (e - ((p : Int) - 1)) (2 ^ e) := (rndAt_pow _ _ (by omega)).symm
      _ ≤ _ := rndAt_mono _ h1
  · calc rndAt (e - ((p : Int) - 1)) x ≤ rndAt (e - ((p : Int) - 1)) (2 ^ (e + 1)) := rndAt_mono _ h2.le
      _ = _ := rndAt_pow _ _ (by omega)

theorem rndBits_nonneg (p : Nat) (hp : 1 ≤ p) (x : ℚ) (hx : 0 ≤ x) : 0 ≤ rndBits p x := by
  rcases hx.eq_or_lt with rfl | h
  · rw [rndBits_zero]
  · obtain ⟨a, b⟩ := log2_bounds x h
    exact (two_zpow_pos _).le.trans (rndBits_between p hp x _ a b).1

theorem rndBits_mono_pos (p : Nat) (hp : 1 ≤ p) {x y : ℚ} (hx : 0 < x) (h : x ≤ y) : rndBits p x ≤ rndBits p y := by
  have hy := lt_of_lt_of_le hx h
  obtain ⟨a, b⟩ := log2_bounds x hx
  obtain ⟨c, d⟩ := log2_bounds y hy
  have hle : Int.log 2 x ≤ Int.log 2 y := Int.log_mono_right hx h
  rcases hle.eq_or_lt with he | hlt
  · rw [rndBits_pos p x hx, rndBits_pos p y hy, he]
    exact rndAt_mono _ h
  · refine (rndBits_between p hp x _ a b).2.trans (le_trans ?_ (rndBits_between p hp y _ c d).1)
    exact zpow_le_zpow_right₀ (by norm_num) (by omega)

/-- Rounding is monotone. -/
theorem rndBits_mono (p : Nat) (hp : 1 ≤ p) {x y : ℚ} (h : x ≤ y) : rndBits p x ≤ rndBits p y := by
  rcases lt_trichotomy x 0 with hx | hx | hx
  · rcases lt_or_ge y 0 with hy | hy
    · have := rndBits_mono_pos p hp (x := -y) (y := -x) (by linarith) (by linarith)
      rw [rndBits_neg, rndBits_neg] at this
      linarith
    · have h1 := rndBits_nonneg p hp (-x) (by linarith)
      rw [rndBits_neg] at h1
      have h2 := rndBits_nonneg p hp y hy
      linarith
  · subst hx
    rw [rndBits_zero]
    exact rndBits_nonneg p hp y h
  · exact rndBits_mono_pos p hp hx h

/-- Numbers with at most `p` significant bits are not changed. -/
theorem rndBits_exact (p : Nat) (hp : 1 ≤ p) (m k : Int) (hm : |m| ≤ 2 ^ p) : rndBits p ((m : ℚ) * 2 ^ k) = (m : ℚ) * 2 ^ k := by
  have hpos : ∀ m : Int, 0 < m → m ≤ 2 ^ p → rndBits p ((m : ℚ) * 2 ^ k) = (m : ℚ) * 2 ^ k := by
    intro m h0 hm
    have hmq : (1 : ℚ) ≤ m := by exact_mod_cast h0
    have hk := two_zpow_pos k
    have hx : (0 : ℚ) < (m : ℚ) * 2 ^ k := by positivity
    obtain ⟨a, b⟩ := log2_bounds _ hx
    rw [rndBits_pos p _ hx]
    rcases hm.eq_or_lt with he | hlt
    · have hxe : (m : ℚ) * 2 ^ k = 2 ^ ((p : Int) + k) := by
        rw [he, zpow_add₀ (by norm_num)]
        push_cast
        rw [zpow_natCast]
      rw [hxe] at a b ⊢
      have hl : Int.log 2 ((2 : ℚ) ^ ((p : Int) + k)) = p + k :=
        log2_eq _ _ le_rfl (zpow_lt_zpow_right₀ (by norm_num) (by omega))
      rw [hl]
      exact rndAt_pow _ _ (by omega)
    · apply rndAt_exact
      have hmp : (m : ℚ) < 2 ^ (p : Int) := by
        rw [zpow_natCast]
        exact_mod_cast hlt
      have : (2 : ℚ) ^ Int.log 2 ((m : ℚ) * 2 ^ k) < 2 ^ ((p : Int) + k) := by
        refine lt_of_le_of_lt a ?_
        rw [zpow_add₀ (by norm_num)]
        exact mul_lt_mul_of_pos_right hmp hk
      have := (zpow_lt_zpow_iff_right₀ (by norm_num : (1 : ℚ) < 2)).mp this
      omega
  rcases lt_trichotomy m 0 with h | h | h
  · have := hpos (-m) (by omega) (by rw [abs_of_neg h] at hm; exact hm)
    have e : (((-m : Int) : ℚ)) * 2 ^ k = -((m : ℚ) * 2 ^ k) := by push_cast; ring
    rw [e, rndBits_neg] at this
    linarith
  · subst h
    simp [rndBits_zero]
  · exact hpos m h (by rw [abs_of_pos h] at hm; exact hm)

/-- Relative error at most `2 ^ (-p)`. -/
theorem rndBits_relErr (p : Nat) (x : ℚ) : |rndBits p x - x| ≤ |x| / 2 ^ p := by
  have hpos : ∀ x : ℚ, 0 < x → |rndBits p x - x| ≤ x / 2 ^ p := by
    intro x hx
    obtain ⟨a, b⟩ := log2_bounds x hx
    rw [rndBits_pos p x hx]
    refine (rndAt_near _ x).trans ?_
    have h : (2 : ℚ) ^ (Int.log 2 x - ((p : Int) - 1)) / 2 = 2 ^ Int.log 2 x / 2 ^ p := by
      have e : Int.log 2 x - ((p : Int) - 1) = Int.log 2 x + 1 - p := by ring
      rw [e, zpow_sub₀ (by norm_num), zpow_add₀ (by norm_num), zpow_natCast, zpow_one]
      field_simp
    rw [h]
    gcongr
  rcases lt_trichotomy x 0 with h | h | h
  · have := hpos (-x) (by linarith)
    rw [rndBits_neg, ← abs_neg] at this
    rw [abs_of_neg h]
    have e : -(-rndBits p x - -x) = rndBits p x - x := by ring
    rwa [e] at this
  · subst h
    simp [rndBits_zero]
  · rw [abs_of_pos h]
    exact hpos x h

/-- Rounding twice is rounding once. -/
theorem rndBits_idem (p : Nat) (hp : 1 ≤ p) (x : ℚ) : rndBits p (rndBits p x) = rndBits p x := by
  have hpos : ∀ x : ℚ, 0 < x → rndBits p (rndBits p x) = rndBits p x := by
    intro x hx
    obtain ⟨a, b⟩ := log2_bounds x hx
    have h := rndBits_between p hp x _ a b
    rw [rndBits_pos p x hx] at h ⊢
    unfold rndAt at h ⊢
    apply rndBits_exact p hp
    generalize Int.log 2 x = l at *
    generalize rint (x / 2 ^ (l - ((p : Int) - 1))) = m at *
    have hP := two_zpow_pos (l - ((p : Int) - 1))
    have h0 : (0 : ℚ) ≤ m := by
      by_contra hneg
      rw [not_le] at hneg
      have := mul_neg_of_neg_of_pos hneg hP
      have := two_zpow_pos l
      linarith [h.1]
    have h1 : (m : ℚ) ≤ 2 ^ (p : Int) := by
      have e : (2 : ℚ) ^ (l + 1) = 2 ^ (p : Int) * 2 ^ (l - ((p : Int) - 1)) := by
        rw [← zpow_add₀ (by norm_num)]; congr 1; ring
      rw [e] at h
      exact le_of_mul_le_mul_right h.2 hP
    rw [zpow_natCast] at h1
    rw [abs_of_nonneg (by exact_mod_cast h0)]
    exact_mod_cast h1
  rcases lt_trichotomy x 0 with h | h | h
  · have := hpos (-x) (by linarith)
    rw [rndBits_neg, rndBits_neg] at this
    linarith
  · subst h
    simp [rndBits_zero]
  · exact hpos x h

/-! ### float64 -/

theorem f64_mono {x y : ℚ} (h : x ≤ y) : f64 x ≤ f64 y := rndBits_mono 53 (by norm_num) h
theorem f64_idem (x : ℚ) : f64 (f64 x) = f64 x := rndBits_idem 53 (by norm_num) x
theorem f64_relErr (x : ℚ) : |f64 x - x| ≤ |x| / 2 ^ 53 := rndBits_relErr 53 x
theorem f64_zero : f64 0 = 0 := rndBits_zero 53
theorem f64_neg (x : ℚ) : f64 (-x) = -f64 x := rndBits_neg 53 x
theorem f64_nonneg {x : ℚ} (h : 0 ≤ x) : 0 ≤ f64 x := rndBits_nonneg 53 (by norm_num) x h

/-- Integers up to `2^53` times a power of two are float64 numbers. -/
theorem f64_exact (m : Int) (k : Nat) (hm : |m| ≤ 2 ^ 53) : f64 ((m * 2 ^ k : Int) : ℚ) = ((m * 2 ^ k : Int) : ℚ) := by
  have := rndBits_exact 53 (by norm_num) m k hm
  push_cast
  simpa [f64] using this

theorem f64_int (m : Int) (hm : |m| ≤ 2 ^ 53) : f64 (m : ℚ) = m := by
  have := f64_exact m 0 hm
  simpa using this

end FinML
