/-
C143: when the bounded exponent range of IEEE arithmetic makes no difference.
-/
import Verif.Model.Ieee
import Verif.Props.Ohlcv64
import Verif.Props.TradeSize64
import Verif.Lemmas.Float64
import Mathlib.Tactic.Linarith
import Mathlib.Tactic.NormNum
import Mathlib.Tactic.Ring
import Mathlib.Tactic.Positivity

set_option linter.unusedSectionVars false

namespace FinML

/-! ### One rounding -/

theorem ieee_eq (p : Nat) (emin emax : Int) (x : ℚ) :
    ieee p emin emax x = if |rndAt (max (Int.log 2 |x|) emin - ((p : Int) - 1)) x| < 2 ^ (emax + 1)
      then some (rndAt (max (Int.log 2 |x|) emin - ((p : Int) - 1)) x) else none := rfl

theorem rndAt_zero (e : Int) : rndAt e 0 = 0 := by
  have := rndAt_exact e 0 e le_rfl
  simpa using this

theorem rndAt_neg (e : Int) (x : ℚ) : rndAt e (-x) = -rndAt e x := by
  unfold rndAt
  rw [neg_div, rint_neg]
  push_cast
  ring

theorem rndBits_eq_rndAt (p : Nat) (x : ℚ) : rndBits p x = rndAt (Int.log 2 |x| - ((p : Int) - 1)) x := by
  by_cases h : x = 0
  · rw [h, rndBits_zero, rndAt_zero]
  · unfold rndBits
    rw [if_neg h]; rfl

theorem log_ge (x : ℚ) (e : Int) (h : (2 : ℚ) ^ e ≤ |x|) : e ≤ Int.log 2 |x| := by
  have hx : 0 < |x| := lt_of_lt_of_le (two_zpow_pos e) h
  have := (zpow_lt_zpow_iff_right₀ (by norm_num : (1 : ℚ) < 2)).mp (lt_of_le_of_lt h (log2_bounds |x| hx).2)
  omega

theorem log_lt (x : ℚ) (e : Int) (hx : x ≠ 0) (h : |x| < (2 : ℚ) ^ e) : Int.log 2 |x| < e :=
  (zpow_lt_zpow_iff_right₀ (by norm_num : (1 : ℚ) < 2)).mp (lt_of_le_of_lt (log2_bounds |x| (abs_pos.mpr hx)).1 h)

/-- In the normal range the bounded format rounds like the unbounded one. -/
theorem ieee_normal (p : Nat) (emin emax : Int) (x : ℚ) (h : (2 : ℚ) ^ emin ≤ |x|) :
    ieee p emin emax x = if |rndBits p x| < 2 ^ (emax + 1) then some (rndBits p x) else none := by
  rw [ieee_eq, max_eq_left (log_ge x emin h), ← rndBits_eq_rndAt]

/-- Numbers that are whole multiples of the smallest positive number of the format. -/
def MultOf (p : Nat) (emin : Int) (x : ℚ) : Prop := ∃ m : Int, x = (m : ℚ) * 2 ^ (emin - ((p : Int) - 1))

theorem MultOf.add {p : Nat} {emin : Int} {x y : ℚ} (hx : MultOf p emin x) (hy : MultOf p emin y) : MultOf p emin (x + y) := by
  obtain ⟨m, rfl⟩ := hx
  obtain ⟨n, rfl⟩ := hy
  exact ⟨m + n, by push_cast; ring⟩

theorem MultOf.neg {p : Nat} {emin : Int} {x : ℚ} (hx : MultOf p emin x) : MultOf p emin (-x) := by
  obtain ⟨m, rfl⟩ := hx
  exact ⟨-m, by push_cast; ring⟩

theorem MultOf.sub {p : Nat} {emin : Int} {x y : ℚ} (hx : MultOf p emin x) (hy : MultOf p emin y) : MultOf p emin (x - y) := by
  rw [sub_eq_add_neg]; exact hx.add hy.neg

theorem MultOf.zero (p : Nat) (emin : Int) : MultOf p emin 0 := ⟨0, by simp⟩

theorem MultOf.rndAt {p : Nat} {emin : Int} (e : Int) (x : ℚ) (h : emin ≤ e) : MultOf p emin (rndAt (e - ((p : Int) - 1)) x) := by
  obtain ⟨n, rfl⟩ := Int.le.dest h
  refine ⟨rint (x / 2 ^ (emin + (n : Int) - ((p : Int) - 1))) * 2 ^ n, ?_⟩
  unfold FinML.rndAt
  have e1 : emin + (n : Int) - ((p : Int) - 1) = (emin - ((p : Int) - 1)) + (n : Int) := by ring
  rw [e1]
  generalize rint _ = z
  rw [zpow_add₀ (by norm_num), zpow_natCast]
  push_cast
  ring

/-- Below the normal range multiples of the smallest number are exact in both arithmetics. -/
theorem grid_small (p : Nat) (hp : 1 ≤ p) (emin : Int) (x : ℚ) (hg : MultOf p emin x) (h : |x| < 2 ^ emin) :
    rndAt (max (Int.log 2 |x|) emin - ((p : Int) - 1)) x = x ∧ rndBits p x = x := by
  obtain ⟨m, hm⟩ := hg
  by_cases hx : x = 0
  · rw [hx, rndAt_zero, rndBits_zero]; exact ⟨rfl, rfl⟩
  constructor
  · rw [max_eq_right (log_lt x emin hx h).le, hm]
    exact rndAt_exact _ _ _ le_rfl
  · rw [hm]
    apply rndBits_exact p hp
    have hpos := two_zpow_pos (emin - ((p : Int) - 1))
    have h1 : |(m : ℚ)| * 2 ^ (emin - ((p : Int) - 1)) < 2 ^ ((p : Int) - 1) * 2 ^ (emin - ((p : Int) - 1)) := by
      rw [← zpow_add₀ (by norm_num)]
      have : (p : Int) - 1 + (emin - ((p : Int) - 1)) = emin := by ring
      rw [this]
      rwa [hm, abs_mul, abs_of_pos hpos] at h
    have h2 : |(m : ℚ)| < 2 ^ ((p : Int) - 1) := lt_of_mul_lt_mul_right h1 hpos.le
    have h3 : (2 : ℚ) ^ ((p : Int) - 1) ≤ 2 ^ (p : Int) := zpow_le_zpow_right₀ (by norm_num) (by omega)
    rw [zpow_natCast] at h3
    have h4 : ((|m| : Int) : ℚ) ≤ ((2 ^ p : Int) : ℚ) := by push_cast; linarith
    exact_mod_cast h4

/-- On the grid the two arithmetics agree up to overflow, at every magnitude. -/
theorem ieee_grid (p : Nat) (hp : 1 ≤ p) (emin emax : Int) (x : ℚ) (hg : MultOf p emin x) :
    ieee p emin emax x = (if |rndBits p x| < 2 ^ (emax + 1) then some (rndBits p x) else none) ∧ MultOf p emin (rndBits p x) := by
  by_cases h : (2 : ℚ) ^ emin ≤ |x|
  · refine ⟨ieee_normal p emin emax x h, ?_⟩
    rw [rndBits_eq_rndAt]
    exact MultOf.rndAt _ x (log_ge x emin h)
  · obtain ⟨h1, h2⟩ := grid_small p hp emin x hg (not_le.mp h)
    rw [ieee_eq, h1, h2]
    exact ⟨rfl, hg⟩

/-- Overflow happens exactly from the middle between the largest number and the next power of two on. -/
theorem rndBits_overflow (p : Nat) (hp : 2 ≤ p) (emax : Int) (x : ℚ) :
    |rndBits p x| < 2 ^ (emax + 1) ↔ |x| < 2 ^ (emax + 1) - 2 ^ (emax - (p : Int)) := by
  have key : ∀ x : ℚ, 0 ≤ x → (rndBits p x < 2 ^ (emax + 1) ↔ x < 2 ^ (emax + 1) - 2 ^ (emax - (p : Int))) := by
    intro x hx
    have hq : (0 : ℚ) < 2 ^ (emax - (p : Int)) := two_zpow_pos _
    have hB : (2 : ℚ) ^ (emax + 1) = 2 ^ ((p : Int) + 1) * 2 ^ (emax - (p : Int)) := by
      rw [← zpow_add₀ (by norm_num)]; congr 1; ring
    have hE : (2 : ℚ) ^ emax = 2 ^ (p : Int) * 2 ^ (emax - (p : Int)) := by
      rw [← zpow_add₀ (by norm_num)]; congr 1; ring
    have hU : (2 : ℚ) ^ (emax - ((p : Int) - 1)) = 2 * 2 ^ (emax - (p : Int)) := by
      rw [show emax - ((p : Int) - 1) = 1 + (emax - (p : Int)) by ring, zpow_add₀ (by norm_num), zpow_one]
    by_cases h1 : x < 2 ^ emax
    · have hlt : rndBits p x ≤ 2 ^ emax := by
        have := rndBits_mono p (by omega) h1.le
        have h2 := rndBits_exact p (by omega) 1 emax (by
          rw [abs_one]; exact one_le_pow₀ (by norm_num))
        rw [Int.cast_one, one_mul] at h2
        rwa [h2] at this
      have hp4 : (2 : ℚ) ^ (p : Int) ≥ 4 := by
        rw [zpow_natCast]
        calc (4 : ℚ) = 2 ^ 2 := by norm_num
          _ ≤ 2 ^ p := pow_le_pow_right₀ (by norm_num) hp
      have hB2 : (2 : ℚ) ^ (emax + 1) = 2 * 2 ^ emax := by rw [zpow_add₀ (by norm_num), zpow_one]; ring
      constructor
      · intro _
        nlinarith
      · intro _
        have := two_zpow_pos emax
        linarith
    · have h1' := not_lt.mp h1
      by_cases h2 : x < 2 ^ (emax + 1)
      · rw [rndBits_binade p x emax h1' h2]
        unfold rndAt
        rw [hU]
        generalize hg : (2 : ℚ) ^ (emax - (p : Int)) = g at *
        have hpe : (2 : ℚ) ^ ((p : Int) + 1) = 2 * 2 ^ p := by
          rw [zpow_add₀ (by norm_num), zpow_one, zpow_natCast]; ring
        rw [hB, hpe]
        have hxg : x = x / (2 * g) * (2 * g) := by field_simp
        have hr := rint_bounds (x / (2 * g))
        constructor
        · intro h
          by_contra hc
          have hc' := not_lt.mp hc
          have hy : (-(1 / 2) : ℚ) + 2 * ((2 ^ (p - 1) : Int) : ℚ) ≤ x / (2 * g) := by
            have e : (2 : ℚ) * ((2 ^ (p - 1) : Int) : ℚ) = 2 ^ p := by
              push_cast
              rw [← pow_succ', Nat.sub_add_cancel (by omega)]
            rw [e, le_div_iff₀ (by linarith)]
            linarith
          have hm := rint_mono hy
          rw [rint_add_even] at hm
          have h0 : rint (-(1 / 2) : ℚ) = 0 := by decide +kernel
          rw [h0, zero_add] at hm
          have hmq : (2 : ℚ) ^ p ≤ (rint (x / (2 * g)) : ℚ) := by
            have e : (2 : Int) * 2 ^ (p - 1) = 2 ^ p := by rw [← pow_succ', Nat.sub_add_cancel (by omega)]
            rw [e] at hm
            exact_mod_cast hm
          have := mul_le_mul_of_nonneg_right hmq (by linarith : (0 : ℚ) ≤ 2 * g)
          linarith
        · intro h
          have hlt : x / (2 * g) < 2 ^ p - 1 / 2 := by
            rw [div_lt_iff₀ (by linarith)]
            linarith
          have : (rint (x / (2 * g)) : ℚ) < 2 ^ p := by linarith [hr.2]
          have := mul_lt_mul_of_pos_right this (by linarith : (0 : ℚ) < 2 * g)
          linarith
      · have h2' := not_lt.mp h2
        constructor
        · intro h
          have := rndBits_mono p (by omega) h2'
          have h3 := rndBits_exact p (by omega) 1 (emax + 1) (by
            rw [abs_one]; exact one_le_pow₀ (by norm_num))
          rw [Int.cast_one, one_mul] at h3
          rw [h3] at this
          linarith
        · intro h; linarith
  rcases le_total 0 x with h | h
  · rw [abs_of_nonneg h, abs_of_nonneg (rndBits_nonneg p (by omega) x h)]
    exact key x h
  · have hn : 0 ≤ -x := by linarith
    have h0 := rndBits_nonneg p (by omega) (-x) hn
    have := key (-x) hn
    rw [rndBits_neg] at this h0
    rw [abs_of_nonpos h, abs_of_nonpos (by linarith)]
    exact this

/-- The first number that overflows float64. -/
def top64 : ℚ := 2 ^ 1024 - 2 ^ 970

/-- Whole multiples of the smallest positive float64, `2^-1074`. -/
def Grid64 (x : ℚ) : Prop := MultOf 53 (-1022) x

theorem overflow64 (x : ℚ) : |f64 x| < 2 ^ ((1023 : Int) + 1) ↔ |x| < top64 := by
  have := rndBits_overflow 53 (by norm_num) 1023 x
  rw [show f64 x = rndBits 53 x from rfl, this]
  unfold top64
  norm_num

/-- **C143.** In the normal range of float64, up to the overflow threshold, one rounding is the rounding with an unbounded exponent. -/
theorem C143_normal (x : ℚ) (h1 : (1 : ℚ) / 2 ^ 1022 ≤ |x|) (h2 : |x| < 2 ^ 1024 - 2 ^ 970) : ieee64 x = some (f64 x) := by
  have h : (2 : ℚ) ^ (-1022 : Int) ≤ |x| := by
    rw [zpow_neg, ← one_div]; exact_mod_cast h1
  unfold ieee64
  rw [ieee_normal 53 (-1022) 1023 x h]
  exact if_pos ((overflow64 x).mpr h2)

example : (1 : ℚ) / 2 ^ 1022 ≤ |(-1 / 10 : ℚ)| ∧ |(-1 / 10 : ℚ)| < 2 ^ 1024 - 2 ^ 970 ∧ ieee64 (-1 / 10) = some (f64 (-1 / 10)) := by decide +kernel

theorem ieee64_grid (x : ℚ) (hg : Grid64 x) (h : |x| < top64) : ieee64 x = some (f64 x) := by
  unfold ieee64
  rw [(ieee_grid 53 (by norm_num) (-1022) 1023 x hg).1]
  exact if_pos ((overflow64 x).mpr h)

theorem f64_multOf (x : ℚ) (hg : Grid64 x) : Grid64 (f64 x) := (ieee_grid 53 (by norm_num) (-1022) 1023 x hg).2

/-- Every finite result is a multiple of the smallest number and is itself unchanged by rounding. -/
theorem ieee64_result (x r : ℚ) (h : ieee64 x = some r) : Grid64 r ∧ |r| < 2 ^ 1024 := by
  unfold ieee64 at h
  rw [ieee_eq] at h
  split at h
  · rename_i hlt
    injection h with h
    rw [← h]
    refine ⟨MultOf.rndAt _ x (le_max_right _ _), ?_⟩
    have e : (2 : ℚ) ^ ((1023 : Int) + 1) = 2 ^ 1024 := by norm_num
    rwa [e] at hlt
  · cases h

/-- **C143.** Sums and differences of float64 numbers are never affected by underflow: up to overflow they are rounded as with an
unbounded exponent, however small they are. -/
theorem C143_add (a b x y : ℚ) (hx : ieee64 a = some x) (hy : ieee64 b = some y) :
    (|x + y| < 2 ^ 1024 - 2 ^ 970 → ieee64 (x + y) = some (f64 (x + y))) ∧
    (|x - y| < 2 ^ 1024 - 2 ^ 970 → ieee64 (x - y) = some (f64 (x - y))) :=
  ⟨ieee64_grid _ ((ieee64_result a x hx).1.add (ieee64_result b y hy).1), ieee64_grid _ ((ieee64_result a x hx).1.sub (ieee64_result b y hy).1)⟩

example : ieee64 (3 / 2 ^ 1074) = some (3 / 2 ^ 1074) ∧ ieee64 (1 / 2 ^ 1074) = some (1 / 2 ^ 1074) ∧
    ieee64 (3 / 2 ^ 1074 - 1 / 2 ^ 1074) = some (2 / 2 ^ 1074) := by decide +kernel

/-- **C143.** A number overflows to infinity exactly from `2^1024 - 2^970` on, and otherwise the error is at most `2^-53` of the number or
`2^-1075`. -/
theorem C143_overflow (x : ℚ) : (ieee64 x = none ↔ 2 ^ 1024 - 2 ^ 970 ≤ |x|) ∧
    ∀ r, ieee64 x = some r → |r - x| ≤ max (|x| / 2 ^ 53) (1 / 2 ^ 1075) := by
  by_cases h : (2 : ℚ) ^ (-1022 : Int) ≤ |x|
  · have e := ieee_normal 53 (-1022) 1023 x h
    have e' : ieee64 x = if |f64 x| < 2 ^ ((1023 : Int) + 1) then some (f64 x) else none := e
    rw [e']
    constructor
    · rw [← not_lt, show (2 : ℚ) ^ 1024 - 2 ^ 970 = top64 from rfl, ← overflow64]
      by_cases hc : |f64 x| < 2 ^ ((1023 : Int) + 1)
      · rw [if_pos hc]
        exact ⟨fun h => absurd h (by simp), fun h => absurd hc h⟩
      · rw [if_neg hc]
        exact ⟨fun _ => hc, fun _ => rfl⟩
    · intro r hr
      split at hr
      · injection hr with hr
        rw [← hr]
        exact le_max_of_le_left (f64_relErr x)
      · cases hr
  · have h' := not_le.mp h
    have hs : |x| < 1 / 2 ^ 1022 := by
      rw [zpow_neg, ← one_div] at h'
      exact_mod_cast h'
    have hd : ieee64 x = if |rndAt (max (Int.log 2 |x|) (-1022) - ((53 : Nat) - 1 : Int)) x| < 2 ^ ((1023 : Int) + 1)
      then some (rndAt (max (Int.log 2 |x|) (-1022) - ((53 : Nat) - 1 : Int)) x) else none := rfl
    have hr : rndAt (max (Int.log 2 |x|) (-1022) - ((53 : Nat) - 1 : Int)) x = rndAt (-1074) x := by
      by_cases hx : x = 0
      · rw [hx, rndAt_zero, rndAt_zero]
      · rw [max_eq_right (log_lt x (-1022) hx h').le]; norm_num
    rw [hr] at hd
    have hn := rndAt_near (-1074) x
    have hn' : |rndAt (-1074) x - x| ≤ 1 / 2 ^ 1075 := by
      refine hn.trans (le_of_eq ?_)
      decide +kernel
    have hb : |rndAt (-1074) x| < 2 ^ ((1023 : Int) + 1) := by
      have t := abs_sub_abs_le_abs_sub (rndAt (-1074) x) x
      have hk : (1 : ℚ) / 2 ^ 1022 + 1 / 2 ^ 1075 < 2 ^ ((1023 : Int) + 1) := by decide +kernel
      have t2 : |rndAt (-1074) x| ≤ |x| + |rndAt (-1074) x - x| := by linarith [t]
      exact lt_of_le_of_lt t2 (lt_of_le_of_lt (add_le_add hs.le hn') hk)
    rw [if_pos hb] at hd
    rw [hd]
    constructor
    · constructor
      · intro hc; cases hc
      · intro hc
        have hk : (1 : ℚ) / 2 ^ 1022 < 2 ^ 1024 - 2 ^ 970 := by decide +kernel
        exact absurd (lt_of_lt_of_le hk hc) (not_lt.mpr hs.le)
    · intro r hr
      injection hr with hr
      rw [← hr]
      exact le_max_of_le_right hn'

example : ieee64 (2 ^ 1024 - 2 ^ 970) = none ∧ ieee64 (2 ^ 1024 - 2 ^ 970 - 1) = some (2 ^ 1024 - 2 ^ 971) := by decide +kernel

/-- **C143.** Float32 storage: in the normal range, up to the overflow threshold, it is the rounding with an unbounded exponent. -/
theorem C143_float32 (x : ℚ) (h : x = 0 ∨ (1 : ℚ) / 2 ^ 126 ≤ |x|) (h2 : |x| < 2 ^ 128 - 2 ^ 103) : ieee32 x = some (f32 x) := by
  rcases h with h | h
  · rw [h]; decide +kernel
  · have h' : (2 : ℚ) ^ (-126 : Int) ≤ |x| := by
      rw [zpow_neg, ← one_div]; exact_mod_cast h
    unfold ieee32
    rw [ieee_normal 24 (-126) 127 x h']
    refine if_pos ((rndBits_overflow 24 (by norm_num) 127 x).mpr ?_)
    norm_num at h2 ⊢
    exact h2

example : (1 : ℚ) / 2 ^ 126 ≤ |(1 / 10 : ℚ)| ∧ |(1 / 10 : ℚ)| < 2 ^ 128 - 2 ^ 103 := by decide +kernel

/-- **C143, violation.** Products do underflow: the exact model keeps a product of two tiny numbers that float64 loses, and a subnormal
product is rounded more coarsely; a large volume overflows float32. -/
theorem C143_underflow :
    ieee64 (1 / 2 ^ 600 * (1 / 2 ^ 600)) = some 0 ∧ f64 (1 / 2 ^ 600 * (1 / 2 ^ 600)) ≠ 0 ∧
    ieee64 (3 / 2 ^ 537 * (1 / 2 ^ 538)) = some (2 / 2 ^ 1074) ∧ f64 (3 / 2 ^ 537 * (1 / 2 ^ 538)) = 3 / 2 ^ 1075 ∧
    ieee32 (10 ^ 39) = none := by decide +kernel

/-! ### Whole computations -/

theorem grow_le_two (n : Nat) (h : n ≤ 2 ^ 50) : (1 + 1 / 2 ^ 53 : ℚ) ^ n ≤ 2 := by
  have u := factor_up n 0 (by omega)
  rw [pow_zero, div_one, Nat.add_zero] at u
  have hq : (n : ℚ) ≤ 2 ^ 50 := by exact_mod_cast h
  have : 4 / 3 * (n : ℚ) / 2 ^ 53 ≤ 4 / 3 * 2 ^ 50 / 2 ^ 53 := by gcongr
  have k : (4 : ℚ) / 3 * 2 ^ 50 / 2 ^ 53 ≤ 1 := by decide +kernel
  linarith

theorem sum_fold_ieee (l : List ℚ) (s : ℚ) (hs : 0 ≤ s) (hg : Grid64 s) (hl : ∀ v ∈ l, 0 ≤ v ∧ Grid64 v)
    (hb : (s + l.sum) * (1 + 1 / 2 ^ 53) ^ l.length < top64) :
    l.foldlM (fun s v => ieee64 (s + v)) s = some (l.foldl (fun s v => f64 (s + v)) s) := by
  induction l generalizing s with
  | nil => rfl
  | cons v l ih =>
    obtain ⟨hv, hvg⟩ := hl v (by simp)
    rw [List.sum_cons, List.length_cons] at hb
    have hr : 0 ≤ l.sum := List.sum_nonneg (fun x hx => (hl x (List.mem_cons_of_mem _ hx)).1)
    have hP : (1 : ℚ) ≤ (1 + 1 / 2 ^ 53) ^ (l.length + 1) := one_le_pow₀ (by norm_num)
    have hsv : 0 ≤ s + v := by linarith
    have hlt : |s + v| < top64 := by
      rw [abs_of_nonneg hsv]
      refine lt_of_le_of_lt ?_ hb
      have : s + v ≤ s + (v + l.sum) := by linarith
      calc s + v ≤ s + (v + l.sum) := this
        _ = (s + (v + l.sum)) * 1 := by ring
        _ ≤ _ := mul_le_mul_of_nonneg_left hP (by linarith)
    rw [List.foldlM_cons, List.foldl_cons, ieee64_grid _ (hg.add hvg) hlt]
    show l.foldlM _ (f64 (s + v)) = _
    apply ih _ (f64_nonneg hsv) (f64_multOf _ (hg.add hvg)) (fun x hx => hl x (List.mem_cons_of_mem _ hx))
    refine lt_of_le_of_lt ?_ hb
    have hf := (f64_factor hsv).2
    have h1 : f64 (s + v) + l.sum ≤ (s + (v + l.sum)) * (1 + 1 / 2 ^ 53) := by nlinarith
    calc (f64 (s + v) + l.sum) * (1 + 1 / 2 ^ 53) ^ l.length
        ≤ (s + (v + l.sum)) * (1 + 1 / 2 ^ 53) * (1 + 1 / 2 ^ 53) ^ l.length := mul_le_mul_of_nonneg_right h1 (by positivity)
      _ = _ := by rw [pow_succ]; ring

theorem two_sum_lt {x : ℚ} {n : Nat} (hx : 0 ≤ x) (h : x ≤ 2 ^ 1022) (hn : n ≤ 2 ^ 50) : x * (1 + 1 / 2 ^ 53) ^ n < top64 := by
  have h1 := mul_le_mul_of_nonneg_left (grow_le_two n hn) hx
  have k : (2 : ℚ) ^ 1022 * 2 < top64 := by decide +kernel
  nlinarith

/-- **C143.** The volume of a bar: for up to `2^50` float64 volumes with a sum of at most `2^1022`, however small they are, IEEE arithmetic
gives the sum of the unbounded model, without overflow. -/
theorem C143_volume (l : List ℚ) (hl : ∀ v ∈ l, 0 ≤ v ∧ ∃ a, ieee64 a = some v) (hn : l.length ≤ 2 ^ 50) (hs : l.sum ≤ 2 ^ 1022) :
    sumIeee l = some (sum64 l) := by
  have h0 : 0 ≤ l.sum := List.sum_nonneg (fun v hv => (hl v hv).1)
  apply sum_fold_ieee l 0 le_rfl (MultOf.zero _ _) (fun v hv => ⟨(hl v hv).1, ?_⟩)
  · rw [zero_add]; exact two_sum_lt h0 hs hn
  · obtain ⟨a, ha⟩ := (hl v hv).2
    exact (ieee64_result a v ha).1

example : (∀ v ∈ ([f64 (1 / 10), 1 / 2 ^ 1074, 7] : List ℚ), 0 ≤ v ∧ ieee64 v = some v) ∧
    sumIeee [f64 (1 / 10), 1 / 2 ^ 1074, 7] = some (sum64 [f64 (1 / 10), 1 / 2 ^ 1074, 7]) := by decide +kernel

/-- A product that float64 keeps: zero, or not below the normal range. -/
def Kept (t : ℚ × ℚ) : Prop := t.1 * t.2 = 0 ∨ 1 / 2 ^ 1022 ≤ t.1 * t.2

theorem ieee64_product (t : ℚ × ℚ) (h : Kept t) (h0 : 0 ≤ t.1 * t.2) (hb : t.1 * t.2 ≤ 2 ^ 1022) : ieee64 (t.1 * t.2) = some (f64 (t.1 * t.2)) := by
  rcases h with h | h
  · rw [h]; decide +kernel
  · apply C143_normal
    · rwa [abs_of_nonneg h0]
    · rw [abs_of_nonneg h0]
      exact lt_of_le_of_lt hb (by decide +kernel)

theorem le_sum_of_mem (l : List ℚ) (h : ∀ v ∈ l, 0 ≤ v) (v : ℚ) (hv : v ∈ l) : v ≤ l.sum := by
  induction l with
  | nil => simp at hv
  | cons a l ih =>
    rw [List.sum_cons]
    have ha := h a (by simp)
    have hr : 0 ≤ l.sum := List.sum_nonneg (fun x hx => h x (List.mem_cons_of_mem _ hx))
    rcases List.mem_cons.mp hv with rfl | hv
    · linarith
    · have := ih (fun x hx => h x (List.mem_cons_of_mem _ hx)) hv
      linarith

theorem dollar_fold_ieee (l : List (ℚ × ℚ)) (s : ℚ) (h : ∀ t ∈ l, ieee64 (t.1 * t.2) = some (f64 (t.1 * t.2))) :
    l.foldlM (fun s t => (ieee64 (t.1 * t.2)).bind (fun d => ieee64 (s + d))) s =
    (l.map (fun t => f64 (t.1 * t.2))).foldlM (fun s v => ieee64 (s + v)) s := by
  induction l generalizing s with
  | nil => rfl
  | cons t l ih =>
    rw [List.map_cons, List.foldlM_cons, List.foldlM_cons, h t (by simp)]
    show (ieee64 (s + f64 (t.1 * t.2))).bind _ = (ieee64 (s + f64 (t.1 * t.2))).bind _
    congr 1
    funext a
    exact ih a (fun t ht => h t (List.mem_cons_of_mem _ ht))

/-- **C143.** The dollar value of a bar: if no product falls into the subnormal range and the exact dollar value is at most `2^1021`, IEEE
arithmetic gives the value of the unbounded model. -/
theorem C143_dollar (l : List (ℚ × ℚ)) (hl : ∀ t ∈ l, 0 ≤ t.1 ∧ 0 ≤ t.2 ∧ Kept t) (hn : l.length ≤ 2 ^ 49)
    (hs : (l.map (fun t => t.1 * t.2)).sum ≤ 2 ^ 1021) : dollarIeee l = some (dollar64 l) := by
  have hnn : ∀ v ∈ l.map (fun t => t.1 * t.2), 0 ≤ v := by
    intro v hv
    obtain ⟨t, ht, rfl⟩ := List.mem_map.mp hv
    exact mul_nonneg (hl t ht).1 (hl t ht).2.1
  have hprod : ∀ t ∈ l, ieee64 (t.1 * t.2) = some (f64 (t.1 * t.2)) := by
    intro t ht
    have hm : t.1 * t.2 ∈ l.map (fun t => t.1 * t.2) := List.mem_map.mpr ⟨t, ht, rfl⟩
    refine ieee64_product t (hl t ht).2.2 (hnn _ hm) ?_
    have := le_sum_of_mem _ hnn _ hm
    have k : (2 : ℚ) ^ 1021 ≤ 2 ^ 1022 := pow_le_pow_right₀ (by norm_num) (by norm_num)
    exact this.trans (hs.trans k)
  unfold dollarIeee dollar64
  rw [dollar_fold_ieee l 0 hprod]
  have hd0 : ∀ v ∈ l.map (fun t => f64 (t.1 * t.2)), 0 ≤ v ∧ Grid64 v := by
    intro v hv
    obtain ⟨t, ht, rfl⟩ := List.mem_map.mp hv
    exact ⟨f64_nonneg (mul_nonneg (hl t ht).1 (hl t ht).2.1), (ieee64_result _ _ (hprod t ht)).1⟩
  have hsum : (l.map (fun t => f64 (t.1 * t.2))).sum ≤ (l.map (fun t => t.1 * t.2)).sum * (1 + 1 / 2 ^ 53) := by
    clear hs hn hd0 hprod hnn
    induction l with
    | nil => simp
    | cons t l ih =>
      have := ih (fun t ht => hl t (List.mem_cons_of_mem _ ht))
      have ht := hl t (by simp)
      have hf := (f64_factor (mul_nonneg ht.1 ht.2.1)).2
      rw [List.map_cons, List.map_cons, List.sum_cons, List.sum_cons, add_mul]
      linarith
  rw [sum_fold_ieee _ 0 le_rfl (MultOf.zero _ _) hd0]
  · rw [List.foldl_map]
  · rw [zero_add, List.length_map]
    apply two_sum_lt (List.sum_nonneg (fun v hv => (hd0 v hv).1)) _ (by omega)
    refine hsum.trans ?_
    have k : (2 : ℚ) ^ 1021 * 2 = 2 ^ 1022 := by rw [← pow_succ]
    have h0 : 0 ≤ (l.map (fun t => t.1 * t.2)).sum := List.sum_nonneg hnn
    rw [← k]
    exact mul_le_mul hs (by norm_num) (by norm_num) (by positivity)

example : (∀ t ∈ ([(f64 (1 / 10), 7), (3, 0)] : List (ℚ × ℚ)), 0 ≤ t.1 ∧ 0 ≤ t.2 ∧ Kept t) ∧
    dollarIeee [(f64 (1 / 10), 7), (3, 0)] = some (dollar64 [(f64 (1 / 10), 7), (3, 0)]) := by
  unfold Kept; decide +kernel

/-- **C143.** The VWAP of a bar, for prices between `2^-1000` and `2^1000`. -/
theorem C143_vwap (l : List (ℚ × ℚ)) (hl : ∀ t ∈ l, 1 / 2 ^ 1000 ≤ t.1 ∧ t.1 ≤ 2 ^ 1000 ∧ 0 ≤ t.2 ∧ Kept t ∧ ∃ a, ieee64 a = some t.2)
    (hn : l.length ≤ 2 ^ 48) (hs : (l.map (fun t => t.1 * t.2)).sum ≤ 2 ^ 1021) (hv : (l.map Prod.snd).sum ≤ 2 ^ 1022) :
    vwapIeee l = some (vwap64 l) := by
  have hpos : (0 : ℚ) ≤ 1 / 2 ^ 1000 := by positivity
  have hd := C143_dollar l (fun t ht => ⟨hpos.trans (hl t ht).1, (hl t ht).2.2.1, (hl t ht).2.2.2.1⟩) (by omega) hs
  have hvol := C143_volume (l.map Prod.snd) (by
    intro v hv'
    obtain ⟨t, ht, rfl⟩ := List.mem_map.mp hv'
    exact ⟨(hl t ht).2.2.1, (hl t ht).2.2.2.2⟩) (by rw [List.length_map]; omega) hv
  unfold vwapIeee
  rw [hvol, hd]
  show (if 0 < sum64 (l.map Prod.snd) then ieee64 (dollar64 l / sum64 (l.map Prod.snd)) else some 0) = some (vwap64 l)
  by_cases hp : 0 < sum64 (l.map Prod.snd)
  · rw [if_pos hp]
    have hw := C88_vwap l (1 / 2 ^ 1000) (2 ^ 1000) hpos (fun t ht => ⟨(hl t ht).1, (hl t ht).2.1, (hl t ht).2.2.1⟩) hp
    have hw64 : vwap64 l = f64 (dollar64 l / sum64 (l.map Prod.snd)) := by unfold vwap64; rw [if_pos hp]
    rw [hw64] at hw ⊢
    have hd0 : 0 ≤ dollar64 l := by
      have := (C88_dollar l (fun t ht => ⟨hpos.trans (hl t ht).1, (hl t ht).2.2.1⟩)).1
      refine le_trans (mul_nonneg (List.sum_nonneg ?_) (pow_nonneg (by norm_num) _)) this
      intro v hv'
      obtain ⟨t, ht, rfl⟩ := List.mem_map.mp hv'
      exact mul_nonneg (hpos.trans (hl t ht).1) (hl t ht).2.2.1
    have hq : 0 ≤ dollar64 l / sum64 (l.map Prod.snd) := div_nonneg hd0 hp.le
    generalize dollar64 l / sum64 (l.map Prod.snd) = q at *
    have hf := f64_factor hq
    have u := factor_up (l.length + 2) l.length (by omega)
    have d := factor_down (l.length + 2) l.length
    have hlen : ((l.length + 2 + l.length : Nat) : ℚ) ≤ 2 ^ 50 := by exact_mod_cast (by omega : l.length + 2 + l.length ≤ 2 ^ 50)
    have d2 : (1 : ℚ) / 2 ≤ (1 - 1 / 2 ^ 53) ^ (l.length + 2) / (1 + 1 / 2 ^ 53) ^ l.length := by
      refine le_trans ?_ d
      have : ((l.length + 2 + l.length : Nat) : ℚ) / 2 ^ 53 ≤ 2 ^ 50 / 2 ^ 53 := by gcongr
      have k : (2 : ℚ) ^ 50 / 2 ^ 53 ≤ 1 / 2 := by decide +kernel
      linarith
    have u2 : (1 + 1 / 2 ^ 53 : ℚ) ^ (l.length + 2) / (1 - 1 / 2 ^ 53) ^ l.length ≤ 2 := by
      refine u.trans ?_
      have : 4 / 3 * ((l.length + 2 + l.length : Nat) : ℚ) / 2 ^ 53 ≤ 4 / 3 * 2 ^ 50 / 2 ^ 53 := by gcongr
      have k : 4 / 3 * (2 : ℚ) ^ 50 / 2 ^ 53 ≤ 1 := by decide +kernel
      linarith
    have lo : 1 / 2 ^ 1000 * (1 / 2) ≤ f64 q := le_trans (mul_le_mul_of_nonneg_left d2 hpos) hw.1
    have hi : f64 q ≤ 2 ^ 1000 * 2 := le_trans hw.2 (mul_le_mul_of_nonneg_left u2 (by positivity))
    apply C143_normal
    · rw [abs_of_nonneg hq]
      have h1 : f64 q ≤ q * 2 := le_trans hf.2 (mul_le_mul_of_nonneg_left (by norm_num) hq)
      have k : (1 : ℚ) / 2 ^ 1022 * 2 ≤ 1 / 2 ^ 1000 * (1 / 2) := by decide +kernel
      linarith
    · rw [abs_of_nonneg hq]
      have h1 : q * (1 / 2) ≤ f64 q := le_trans (mul_le_mul_of_nonneg_left (by norm_num) hq) hf.1
      have k : (2 : ℚ) ^ 1000 * 2 * 2 < 2 ^ 1024 - 2 ^ 970 := by decide +kernel
      have h2 : q ≤ f64 q * 2 := by linarith only [h1]
      exact lt_of_le_of_lt (h2.trans (mul_le_mul_of_nonneg_right hi (by norm_num))) k
  · rw [if_neg hp]
    unfold vwap64
    rw [if_neg hp]

example : (∀ t ∈ ([(f64 (1 / 10), 7), (3, 0)] : List (ℚ × ℚ)), 1 / 2 ^ 1000 ≤ t.1 ∧ t.1 ≤ 2 ^ 1000 ∧ 0 ≤ t.2 ∧ Kept t ∧ ieee64 t.2 = some t.2) ∧
    vwapIeee [(f64 (1 / 10), 7), (3, 0)] = some (vwap64 [(f64 (1 / 10), 7), (3, 0)]) := by
  unfold Kept; decide +kernel

/-- **C143.** The stored volume, for a sum that is 0 or between `2^-125` and `2^126`. -/
theorem C143_stored_volume (l : List ℚ) (hl : ∀ v ∈ l, 0 ≤ v ∧ ∃ a, ieee64 a = some v) (hn : l.length ≤ 2 ^ 50)
    (hs : l.sum = 0 ∨ (1 / 2 ^ 125 ≤ l.sum ∧ l.sum ≤ 2 ^ 126)) : volumeIeee l = some (volume32 l) := by
  have h0 : 0 ≤ l.sum := List.sum_nonneg (fun v hv => (hl v hv).1)
  have hle : l.sum ≤ 2 ^ 1022 := by
    have k : (2 : ℚ) ^ 126 ≤ 2 ^ 1022 := pow_le_pow_right₀ (by norm_num) (by norm_num)
    rcases hs with h | h
    · rw [h]; positivity
    · exact h.2.trans k
  unfold volumeIeee volume32
  rw [C143_volume l hl hn hle]
  show ieee32 (sum64 l) = _
  have hb := C88_volume l (fun v hv => (hl v hv).1)
  have hg := grow_le_two l.length hn
  have d := factor_down l.length 0
  rw [pow_zero, div_one, Nat.add_zero] at d
  have hq : (l.length : ℚ) ≤ 2 ^ 50 := by exact_mod_cast hn
  have hd : (1 : ℚ) / 2 ≤ (1 - 1 / 2 ^ 53) ^ l.length := by
    refine le_trans ?_ d
    have : (l.length : ℚ) / 2 ^ 53 ≤ 2 ^ 50 / 2 ^ 53 := by gcongr
    have k : (2 : ℚ) ^ 50 / 2 ^ 53 ≤ 1 / 2 := by decide +kernel
    linarith
  have lo := le_trans (mul_le_mul_of_nonneg_left hd h0) hb.1
  have hi := le_trans hb.2 (mul_le_mul_of_nonneg_left hg h0)
  have hs0 : 0 ≤ sum64 l := le_trans (by linarith) lo
  apply C143_float32
  · rcases hs with h | h
    · left; rw [h] at lo hi; linarith
    · right
      rw [abs_of_nonneg hs0]
      have k : (1 : ℚ) / 2 ^ 126 = 1 / 2 ^ 125 * (1 / 2) := by decide +kernel
      linarith [h.1]
  · rw [abs_of_nonneg hs0]
    have k : (2 : ℚ) ^ 126 * 2 < 2 ^ 128 - 2 ^ 103 := by decide +kernel
    have k2 : (0 : ℚ) < 2 ^ 128 - 2 ^ 103 := by decide +kernel
    rcases hs with h | h
    · rw [h] at hi; linarith
    · linarith [h.2]

example : (1 : ℚ) / 2 ^ 125 ≤ ([f64 (1 / 10), 7] : List ℚ).sum ∧ volumeIeee [f64 (1 / 10), 7] = some (volume32 [f64 (1 / 10), 7]) := by decide +kernel

/-! ### Bar indexers -/

theorem volumeLoop_ieee (thr : ℚ) (l : List ℚ) (i : Nat) (cum : ℚ) (hc : 0 ≤ cum) (hg : Grid64 cum) (hl : ∀ v ∈ l, 0 ≤ v ∧ Grid64 v)
    (hb : (cum + l.sum) * (1 + 1 / 2 ^ 53) ^ l.length < top64) :
    volumeLoopIeee thr i cum l = some (volumeLoop64 thr i cum l) := by
  induction l generalizing i cum with
  | nil => rfl
  | cons v l ih =>
    obtain ⟨hv, hvg⟩ := hl v (by simp)
    rw [List.sum_cons, List.length_cons] at hb
    have hr : 0 ≤ l.sum := List.sum_nonneg (fun x hx => (hl x (List.mem_cons_of_mem _ hx)).1)
    have hP : (1 : ℚ) ≤ (1 + 1 / 2 ^ 53) ^ (l.length + 1) := one_le_pow₀ (by norm_num)
    have hsv : 0 ≤ cum + v := by linarith
    have hlt : |cum + v| < top64 := by
      rw [abs_of_nonneg hsv]
      refine lt_of_le_of_lt ?_ hb
      calc cum + v ≤ cum + (v + l.sum) := by linarith
        _ = (cum + (v + l.sum)) * 1 := by ring
        _ ≤ _ := mul_le_mul_of_nonneg_left hP (by linarith)
    have hstep : ∀ c, 0 ≤ c → c ≤ f64 (cum + v) → (c + l.sum) * (1 + 1 / 2 ^ 53) ^ l.length < top64 := by
      intro c _ hc'
      refine lt_of_le_of_lt ?_ hb
      have hf := (f64_factor hsv).2
      have h1 : c + l.sum ≤ (cum + (v + l.sum)) * (1 + 1 / 2 ^ 53) := by nlinarith
      calc (c + l.sum) * (1 + 1 / 2 ^ 53) ^ l.length
          ≤ (cum + (v + l.sum)) * (1 + 1 / 2 ^ 53) * (1 + 1 / 2 ^ 53) ^ l.length := mul_le_mul_of_nonneg_right h1 (by positivity)
        _ = _ := by rw [pow_succ]; ring
    have htl : ∀ x ∈ l, 0 ≤ x ∧ Grid64 x := fun x hx => hl x (List.mem_cons_of_mem _ hx)
    have hf0 := f64_nonneg hsv
    rw [volumeLoopIeee, volumeLoop64, ieee64_grid _ (hg.add hvg) hlt]
    show (if f64 (cum + v) ≥ thr then _ else _) = some (if f64 (cum + v) ≥ thr then _ else _)
    split
    · rw [ih (i + 1) 0 le_rfl (MultOf.zero _ _) htl (hstep 0 le_rfl hf0)]
      rfl
    · exact ih (i + 1) _ hf0 (f64_multOf _ (hg.add hvg)) htl (hstep _ hf0 le_rfl)

/-- **C143.** Volume bars: for up to `2^50` float64 volumes with a sum of at most `2^1022` the bars are those of the unbounded model. -/
theorem C143_volume_bars (volumes : List ℚ) (thr : ℚ) (hl : ∀ v ∈ volumes, 0 ≤ v ∧ ∃ a, ieee64 a = some v)
    (hn : volumes.length ≤ 2 ^ 50) (hs : volumes.sum ≤ 2 ^ 1022) :
    volumeBarIndexerIeee volumes thr = some (volumeBarIndexer64 volumes thr) := by
  unfold volumeBarIndexerIeee volumeBarIndexer64
  cases volumes with
  | nil => rfl
  | cons v l =>
    have hg : ∀ x ∈ v :: l, 0 ≤ x ∧ Grid64 x := by
      intro x hx
      obtain ⟨h1, a, ha⟩ := hl x hx
      exact ⟨h1, (ieee64_result a x ha).1⟩
    have h0 : 0 ≤ (v :: l).sum := List.sum_nonneg (fun x hx => (hg x hx).1)
    rw [List.headD_cons, List.tail_cons, volumeLoop_ieee thr l 1 v (hg v (by simp)).1 (hg v (by simp)).2
      (fun x hx => hg x (List.mem_cons_of_mem _ hx))]
    · rfl
    · rw [← List.sum_cons]
      rw [List.length_cons] at hn
      exact two_sum_lt h0 hs (by omega)

example : volumeBarIndexerIeee [3, 4, 1 / 2 ^ 1074, 5, 2] 6 = some [0, 1, 4] ∧ volumeBarIndexer64 [3, 4, 1 / 2 ^ 1074, 5, 2] 6 = [0, 1, 4] := by
  decide +kernel

theorem dollarLoop_ieee (thr : ℚ) (ht0 : 0 ≤ thr) (htg : Grid64 thr) (l : List (ℚ × ℚ)) (i : Nat) (cum : ℚ) (hc : 0 ≤ cum) (hg : Grid64 cum)
    (hl : ∀ t ∈ l, 0 ≤ t.1 * t.2 ∧ ieee64 (t.1 * t.2) = some (f64 (t.1 * t.2)))
    (hb : (cum + (l.map (fun t => f64 (t.1 * t.2))).sum) * (1 + 1 / 2 ^ 53) ^ l.length < top64) :
    dollarLoopIeee thr i cum l = some (dollarLoop64 thr i cum l) := by
  induction l generalizing i cum with
  | nil => rfl
  | cons t l ih =>
    obtain ⟨p, v⟩ := t
    obtain ⟨hpv, hprod⟩ := hl (p, v) (by simp)
    simp only at hpv hprod
    rw [List.map_cons, List.sum_cons, List.length_cons] at hb
    have hd0 := f64_nonneg hpv
    have hdg : Grid64 (f64 (p * v)) := (ieee64_result _ _ hprod).1
    rw [dollarLoopIeee, dollarLoop64, hprod]
    simp only at hb
    generalize f64 (p * v) = d at *
    have hr : 0 ≤ (l.map (fun t => f64 (t.1 * t.2))).sum := by
      apply List.sum_nonneg
      intro x hx
      obtain ⟨t, ht, rfl⟩ := List.mem_map.mp hx
      exact f64_nonneg (hl t (List.mem_cons_of_mem _ ht)).1
    have hP : (1 : ℚ) ≤ (1 + 1 / 2 ^ 53) ^ (l.length + 1) := one_le_pow₀ (by norm_num)
    have hsv : 0 ≤ cum + d := by linarith
    have hlt : |cum + d| < top64 := by
      rw [abs_of_nonneg hsv]
      refine lt_of_le_of_lt ?_ hb
      calc cum + d ≤ cum + (d + (l.map (fun t => f64 (t.1 * t.2))).sum) := by linarith
        _ = (cum + (d + (l.map (fun t => f64 (t.1 * t.2))).sum)) * 1 := by ring
        _ ≤ _ := mul_le_mul_of_nonneg_left hP (by linarith)
    have hstep : ∀ c, 0 ≤ c → c ≤ f64 (cum + d) → (c + (l.map (fun t => f64 (t.1 * t.2))).sum) * (1 + 1 / 2 ^ 53) ^ l.length < top64 := by
      intro c _ hc'
      refine lt_of_le_of_lt ?_ hb
      have hf := (f64_factor hsv).2
      generalize (l.map (fun t => f64 (t.1 * t.2))).sum = S at *
      have h1 : c + S ≤ (cum + (d + S)) * (1 + 1 / 2 ^ 53) := by nlinarith
      calc (c + S) * (1 + 1 / 2 ^ 53) ^ l.length
          ≤ (cum + (d + S)) * (1 + 1 / 2 ^ 53) * (1 + 1 / 2 ^ 53) ^ l.length := mul_le_mul_of_nonneg_right h1 (by positivity)
        _ = _ := by rw [pow_succ]; ring
    have htl : ∀ t ∈ l, 0 ≤ t.1 * t.2 ∧ ieee64 (t.1 * t.2) = some (f64 (t.1 * t.2)) := fun x hx => hl x (List.mem_cons_of_mem _ hx)
    have hf0 := f64_nonneg hsv
    have hfg := f64_multOf _ (hg.add hdg)
    have hflt : f64 (cum + d) < top64 := by
      have := hstep (f64 (cum + d)) hf0 le_rfl
      have hP' : (1 : ℚ) ≤ (1 + 1 / 2 ^ 53) ^ l.length := one_le_pow₀ (by norm_num)
      refine lt_of_le_of_lt ?_ this
      calc f64 (cum + d) ≤ (f64 (cum + d) + (l.map (fun t => f64 (t.1 * t.2))).sum) * 1 := by linarith
        _ ≤ _ := mul_le_mul_of_nonneg_left hP' (by linarith)
    have hid := f64_idem (cum + d)
    show ((ieee64 (cum + d)).bind fun cum => _) = _
    rw [ieee64_grid _ (hg.add hdg) hlt]
    show (if f64 (cum + d) ≥ thr then _ else _) = some (if f64 (cum + d) ≥ thr then _ else _)
    generalize f64 (cum + d) = c at *
    split
    · rename_i hge
      have h1 : 0 ≤ c - thr := by linarith
      have h2 : |c - thr| < top64 := by rw [abs_of_nonneg h1]; linarith
      have h3 : f64 (c - thr) ≤ c := by
        have := f64_mono (show c - thr ≤ c by linarith)
        rwa [hid] at this
      rw [ieee64_grid _ (hfg.sub htg) h2]
      show Option.map _ (dollarLoopIeee thr (i + 1) (f64 (c - thr)) l) = _
      rw [ih (i + 1) _ (f64_nonneg h1) (f64_multOf _ (hfg.sub htg)) htl (hstep _ (f64_nonneg h1) h3)]
      rfl
    · exact ih (i + 1) _ hf0 hfg htl (hstep _ hf0 le_rfl)

/-- **C143.** Dollar bars: if no product falls into the subnormal range and the exact dollar value of the data is at most `2^1021`, the bars
are those of the unbounded model. -/
theorem C143_dollar_bars (trades : List (ℚ × ℚ)) (thr : ℚ) (ht0 : 0 ≤ thr) (htg : ∃ a, ieee64 a = some thr)
    (hl : ∀ t ∈ trades, 0 ≤ t.1 ∧ 0 ≤ t.2 ∧ Kept t) (hn : trades.length ≤ 2 ^ 49)
    (hs : (trades.map (fun t => t.1 * t.2)).sum ≤ 2 ^ 1021) :
    dollarBarIndexerIeee trades thr = some (dollarBarIndexer64 trades thr) := by
  have hnn : ∀ v ∈ trades.map (fun t => t.1 * t.2), 0 ≤ v := by
    intro v hv
    obtain ⟨t, ht, rfl⟩ := List.mem_map.mp hv
    exact mul_nonneg (hl t ht).1 (hl t ht).2.1
  have hprod : ∀ t ∈ trades, 0 ≤ t.1 * t.2 ∧ ieee64 (t.1 * t.2) = some (f64 (t.1 * t.2)) := by
    intro t ht
    have hm : t.1 * t.2 ∈ trades.map (fun t => t.1 * t.2) := List.mem_map.mpr ⟨t, ht, rfl⟩
    refine ⟨hnn _ hm, ieee64_product t (hl t ht).2.2 (hnn _ hm) ?_⟩
    have := le_sum_of_mem _ hnn _ hm
    have k : (2 : ℚ) ^ 1021 ≤ 2 ^ 1022 := pow_le_pow_right₀ (by norm_num) (by norm_num)
    exact this.trans (hs.trans k)
  have hsum : (trades.map (fun t => f64 (t.1 * t.2))).sum ≤ (trades.map (fun t => t.1 * t.2)).sum * (1 + 1 / 2 ^ 53) := by
    clear hs hn hprod hnn
    induction trades with
    | nil => simp
    | cons t l ih =>
      have := ih (fun t ht => hl t (List.mem_cons_of_mem _ ht))
      have ht := hl t (by simp)
      have hf := (f64_factor (mul_nonneg ht.1 ht.2.1)).2
      rw [List.map_cons, List.map_cons, List.sum_cons, List.sum_cons, add_mul]
      linarith
  have hsum0 : 0 ≤ (trades.map (fun t => f64 (t.1 * t.2))).sum := by
    apply List.sum_nonneg
    intro x hx
    obtain ⟨t, ht, rfl⟩ := List.mem_map.mp hx
    exact f64_nonneg (hprod t ht).1
  have htot : (trades.map (fun t => f64 (t.1 * t.2))).sum ≤ 2 ^ 1022 := by
    refine hsum.trans ?_
    have k : (2 : ℚ) ^ 1021 * 2 = 2 ^ 1022 := by rw [← pow_succ]
    have h0 : 0 ≤ (trades.map (fun t => t.1 * t.2)).sum := List.sum_nonneg hnn
    rw [← k]
    exact mul_le_mul hs (by norm_num) (by norm_num) (by positivity)
  obtain ⟨a, ha⟩ := htg
  unfold dollarBarIndexerIeee dollarBarIndexer64
  cases trades with
  | nil =>
    show (ieee64 (0 * 0)).bind _ = _
    rw [show ieee64 (0 * 0) = some 0 by decide +kernel]
    rfl
  | cons t l =>
    have h1 := hprod t (by simp)
    rw [List.headD_cons, List.tail_cons, h1.2]
    show Option.map _ (dollarLoopIeee thr 1 (f64 (t.1 * t.2)) l) = _
    rw [dollarLoop_ieee thr ht0 (ieee64_result a thr ha).1 l 1 _ (f64_nonneg h1.1) (ieee64_result _ _ h1.2).1
      (fun x hx => hprod x (List.mem_cons_of_mem _ hx))]
    · rfl
    · rw [List.map_cons, List.sum_cons] at hsum0 htot
      rw [List.length_cons] at hn
      exact two_sum_lt hsum0 htot (by omega)

example : (∀ t ∈ ([(f64 (1 / 10), 7), (3, 2), (2, 5)] : List (ℚ × ℚ)), 0 ≤ t.1 ∧ 0 ≤ t.2 ∧ Kept t) ∧ ieee64 6 = some 6 ∧
    dollarBarIndexerIeee [(f64 (1 / 10), 7), (3, 2), (2, 5)] 6 = some [0, 1, 2] := by
  unfold Kept; decide +kernel

end FinML
