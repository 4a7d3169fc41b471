/-
C131: the trade-size features in float64 and float32.
-/
import Verif.Model.Float64TradeSize
import Verif.Props.Range64
import Verif.Props.TradeSize
import Verif.Props.FootprintStats32

set_option linter.unusedSectionVars false

namespace FinML

/-! ### Lemmas -/

/-- Adding less than a quarter of the last place changes nothing. -/
theorem f64_absorb {s d : ℚ} (hs : f64 s = s) (hs0 : 0 ≤ s) (hd : 0 ≤ d) (h : d ≤ s / 2 ^ 55) : f64 (s + d) = s := by
  rcases hs0.eq_or_lt with rfl | hpos
  · have : d = 0 := le_antisymm (by simpa using h) hd
    rw [this, add_zero, f64_zero]
  obtain ⟨a, b⟩ := log2_bounds s hpos
  unfold f64 at hs ⊢
  rw [rndBits_pos 53 s hpos] at hs
  generalize Int.log 2 s = e at *
  have e0 : e - (((53 : Nat) : Int) - 1) = e - 52 := by norm_num
  rw [e0] at hs
  unfold rndAt at hs
  have hP := two_zpow_pos (e - 52)
  have e1 : (2 : ℚ) ^ (e + 1) = 2 ^ 53 * 2 ^ (e - 52) := by
    rw [show e + 1 = (53 : Int) + (e - 52) by ring, zpow_add₀ (by norm_num)]; norm_num
  have hd4 : d < 2 ^ (e - 52) / 2 := by
    have : s / 2 ^ 55 < 2 ^ 53 * 2 ^ (e - 52) / 2 ^ 55 := by rw [← e1]; gcongr
    have h3 : (2 : ℚ) ^ 53 * 2 ^ (e - 52) / 2 ^ 55 = 2 ^ (e - 52) / 4 := by ring
    linarith
  generalize hm : rint (s / 2 ^ (e - 52)) = m at hs
  have hmlt : m < 2 ^ 53 := by
    have : (m : ℚ) * 2 ^ (e - 52) < 2 ^ 53 * 2 ^ (e - 52) := by rw [hs, ← e1]; exact b
    have := lt_of_mul_lt_mul_right this hP.le
    exact_mod_cast this
  have hmle : (m : ℚ) + 1 ≤ 2 ^ 53 := by exact_mod_cast hmlt
  have hlt : s + d < 2 ^ (e + 1) := by
    rw [e1, ← hs]
    have := mul_le_mul_of_nonneg_right hmle hP.le
    linarith
  rw [rndBits_binade 53 (s + d) e (by linarith) hlt, e0]
  unfold rndAt
  have hq : (s + d) / 2 ^ (e - 52) = m + d / 2 ^ (e - 52) := by
    rw [add_div, ← hs, mul_div_assoc, div_self hP.ne', mul_one]
  have ht0 : 0 ≤ d / 2 ^ (e - 52) := div_nonneg hd hP.le
  have ht1 : d / 2 ^ (e - 52) < 1 / 2 := by rw [div_lt_iff₀ hP]; linarith
  have hr := rint_bounds ((m : ℚ) + d / 2 ^ (e - 52))
  rw [hq]
  have : rint ((m : ℚ) + d / 2 ^ (e - 52)) = m := by
    apply le_antisymm
    · have : (rint ((m : ℚ) + d / 2 ^ (e - 52)) : ℚ) < m + 1 := by linarith [hr.2]
      have h2 : rint ((m : ℚ) + d / 2 ^ (e - 52)) < m + 1 := by exact_mod_cast this
      omega
    · have : (m : ℚ) - 1 < (rint ((m : ℚ) + d / 2 ^ (e - 52)) : ℚ) := by linarith [hr.1]
      have h2 : m - 1 < rint ((m : ℚ) + d / 2 ^ (e - 52)) := by exact_mod_cast this
      omega
  rw [this, hs]

/-- One rounding up or down. -/
theorem f64_up {x : ℚ} (h : 0 ≤ x) : f64 x ≤ x * (1 + 1 / 2 ^ 53) := (f64_factor h).2
theorem f64_down {x : ℚ} (h : 0 ≤ x) : x * (1 - 1 / 2 ^ 53) ≤ f64 x := (f64_factor h).1

theorem f64_one : f64 1 = 1 := by
  have := f64_int 1 (by norm_num)
  simpa using this

theorem f64_le_one {x : ℚ} (h : x ≤ 1) : f64 x ≤ 1 := by
  have := f64_mono h
  rwa [f64_one] at this

/-- Comparable summands: the cross term of the square pays for all roundings. -/
theorem shareStep_comparable {Y r Z s q : ℚ} (hY : 0 ≤ Y) (hr : 0 ≤ r) (hs : s ≤ Y * Y * (1 + 1 / 2 ^ 53))
    (hq : q ≤ r * r * (1 + 1 / 2 ^ 53)) (hs0 : 0 ≤ s) (hq0 : 0 ≤ q) (hZ : (Y + r) * (1 - 3 / 2 ^ 53) ≤ Z)
    (h1 : Y ≤ 2 ^ 48 * r) (h2 : r ≤ 2 ^ 48 * Y) : f64 (s + q) ≤ f64 (Z * Z) := by
  have a1 : f64 (s + q) ≤ (Y * Y + r * r) * (1 + 3 / 2 ^ 53) := by
    have := f64_up (add_nonneg hs0 hq0)
    have h3 : (s + q) * (1 + 1 / 2 ^ 53) ≤ (Y * Y + r * r) * (1 + 1 / 2 ^ 53) * (1 + 1 / 2 ^ 53) :=
      mul_le_mul_of_nonneg_right (by linarith) (by norm_num)
    have h4 : (Y * Y + r * r) * (1 + 1 / 2 ^ 53) * (1 + 1 / 2 ^ 53) ≤ (Y * Y + r * r) * (1 + 3 / 2 ^ 53) := by
      rw [mul_assoc]
      exact mul_le_mul_of_nonneg_left (by norm_num) (add_nonneg (mul_self_nonneg _) (mul_self_nonneg _))
    linarith
  have a2 : (Y + r) * (Y + r) * (1 - 7 / 2 ^ 53) ≤ f64 (Z * Z) := by
    have hz0 : 0 ≤ (Y + r) * (1 - 3 / 2 ^ 53) := mul_nonneg (add_nonneg hY hr) (by norm_num)
    have h3 := mul_self_le_mul_self hz0 hZ
    have h4 := f64_down (mul_self_nonneg Z)
    have h5 : (Y + r) * (1 - 3 / 2 ^ 53) * ((Y + r) * (1 - 3 / 2 ^ 53)) * (1 - 1 / 2 ^ 53) ≤ Z * Z * (1 - 1 / 2 ^ 53) :=
      mul_le_mul_of_nonneg_right h3 (by norm_num)
    have h6 : (Y + r) * (Y + r) * (1 - 7 / 2 ^ 53) ≤ (Y + r) * (Y + r) * ((1 - 3 / 2 ^ 53) * (1 - 3 / 2 ^ 53) * (1 - 1 / 2 ^ 53)) :=
      mul_le_mul_of_nonneg_left (by norm_num) (mul_self_nonneg _)
    linarith
  have c1 : Y * Y ≤ 2 ^ 48 * (Y * r) := by
    have := mul_le_mul_of_nonneg_left h1 hY
    linarith
  have c2 : r * r ≤ 2 ^ 48 * (Y * r) := by
    have := mul_le_mul_of_nonneg_right h2 hr
    linarith
  have c0 : 0 ≤ Y * r := mul_nonneg hY hr
  refine a1.trans (le_trans ?_ a2)
  have e : (Y + r) * (Y + r) = Y * Y + r * r + 2 * (Y * r) := by ring
  rw [e]
  generalize Y * Y = A at *
  generalize r * r = B at *
  generalize Y * r = C at *
  norm_num at *
  linarith

/-- **Invariant of the concentration loop.**  While the volume `t` has been seen out of `T`, the rounded sum of squares stays below the
rounded square of the rounded share `t / T`. -/
theorem shareStep {T t s a : ℚ} (hT : 0 < T) (ht : f64 t = t) (ht0 : 0 ≤ t) (hs : f64 s = s) (hs0 : 0 ≤ s) (ha : f64 a = a) (ha0 : 0 ≤ a)
    (h : s ≤ f64 (f64 (t / T) * f64 (t / T))) :
    f64 (s + shareSq64 T a) ≤ f64 (f64 (f64 (t + a) / T) * f64 (f64 (t + a) / T)) := by
  have hta : t ≤ f64 (t + a) := by have := f64_mono (show t ≤ t + a by linarith); rwa [ht] at this
  have haa : a ≤ f64 (t + a) := by have := f64_mono (show a ≤ t + a by linarith); rwa [ha] at this
  have hx0 : 0 ≤ t / T := div_nonneg ht0 hT.le
  have hy0 : 0 ≤ a / T := div_nonneg ha0 hT.le
  have hYZ : f64 (t / T) ≤ f64 (f64 (t + a) / T) := f64_mono (by gcongr)
  have hrZ : f64 (a / T) ≤ f64 (f64 (t + a) / T) := f64_mono (by gcongr)
  have hZ : (f64 (t / T) + f64 (a / T)) * (1 - 3 / 2 ^ 53) ≤ f64 (f64 (t + a) / T) := by
    have k1 := f64_up hx0
    have k2 := f64_up hy0
    have k3 : (t + a) * (1 - 1 / 2 ^ 53) ≤ f64 (t + a) := f64_down (by linarith)
    have k4 : (t / T + a / T) * (1 - 1 / 2 ^ 53) ≤ f64 (t + a) / T := by
      rw [← add_div, div_mul_eq_mul_div]; gcongr
    have k5 := f64_down (div_nonneg (ht0.trans hta) hT.le)
    have k6 : (t / T + a / T) * (1 - 1 / 2 ^ 53) * (1 - 1 / 2 ^ 53) ≤ f64 (t + a) / T * (1 - 1 / 2 ^ 53) :=
      mul_le_mul_of_nonneg_right k4 (by norm_num)
    have k7 : (f64 (t / T) + f64 (a / T)) * (1 - 3 / 2 ^ 53) ≤ (t / T + a / T) * (1 + 1 / 2 ^ 53) * (1 - 3 / 2 ^ 53) :=
      mul_le_mul_of_nonneg_right (by linarith) (by norm_num)
    have k8 : (t / T + a / T) * ((1 + 1 / 2 ^ 53) * (1 - 3 / 2 ^ 53)) ≤ (t / T + a / T) * ((1 - 1 / 2 ^ 53) * (1 - 1 / 2 ^ 53)) :=
      mul_le_mul_of_nonneg_left (by norm_num) (by linarith)
    linarith
  have hY0 := f64_nonneg hx0
  have hr0 := f64_nonneg hy0
  unfold shareSq64
  generalize f64 (t / T) = Y at *
  generalize f64 (a / T) = r at *
  generalize f64 (f64 (t + a) / T) = Z at *
  have hq0 : 0 ≤ f64 (r * r) := f64_nonneg (mul_self_nonneg r)
  have hqu : f64 (r * r) ≤ r * r * (1 + 1 / 2 ^ 53) := f64_up (mul_self_nonneg r)
  have hsu : s ≤ Y * Y * (1 + 1 / 2 ^ 53) := h.trans (f64_up (mul_self_nonneg Y))
  have hqd : r * r * (1 - 1 / 2 ^ 53) ≤ f64 (r * r) := f64_down (mul_self_nonneg r)
  by_cases h1 : Y ≤ 2 ^ 48 * r
  · by_cases h2 : r ≤ 2 ^ 48 * Y
    · exact shareStep_comparable hY0 hr0 hsu hqu hs0 hq0 hZ h1 h2
    · -- the new share dwarfs what came before
      have h2' := not_le.mp h2
      have c : 2 ^ 96 * (Y * Y) ≤ r * r := by
        have := mul_self_le_mul_self (mul_nonneg (by norm_num) hY0) h2'.le
        have e : (2 ^ 48 * Y) * (2 ^ 48 * Y) = 2 ^ 96 * (Y * Y) := by ring
        rwa [e] at this
      have hab : f64 (f64 (r * r) + s) = f64 (r * r) := by
        apply f64_absorb (f64_idem _) hq0 hs0
        have hAA := mul_self_nonneg Y
        generalize Y * Y = A at *
        generalize r * r = B at *
        norm_num at *
        linarith
      rw [add_comm, hab]
      exact f64_mono (mul_self_le_mul_self hr0 hrZ)
  · have h1' := not_le.mp h1
    have c : 2 ^ 96 * (r * r) ≤ Y * Y := by
      have := mul_self_le_mul_self (mul_nonneg (by norm_num) hr0) h1'.le
      have e : (2 ^ 48 * r) * (2 ^ 48 * r) = 2 ^ 96 * (r * r) := by ring
      rwa [e] at this
    have hBB := mul_self_nonneg r
    have hZZ : Y * Y ≤ Z * Z := mul_self_le_mul_self hY0 hYZ
    by_cases h3 : Y * Y / 4 ≤ s
    · have hab : f64 (s + f64 (r * r)) = s := by
        apply f64_absorb hs hs0 hq0
        generalize Y * Y = A at *
        generalize r * r = B at *
        norm_num at *
        linarith
      rw [hab]
      exact h.trans (f64_mono hZZ)
    · have h3' := not_le.mp h3
      refine f64_mono (le_trans ?_ hZZ)
      generalize Y * Y = A at *
      generalize r * r = B at *
      norm_num at *
      linarith

/-- The rounded sum of the rounded squared shares is at most the rounded square of the rounded share seen. -/
theorem shareFold (T : ℚ) (hT : 0 < T) : ∀ (l : List ℚ), (∀ a ∈ l, f64 a = a ∧ 0 ≤ a) →
    sum64 (l.map (shareSq64 T)) ≤ f64 (f64 (sum64 l / T) * f64 (sum64 l / T)) ∧ 0 ≤ sum64 (l.map (shareSq64 T)) ∧
      f64 (sum64 (l.map (shareSq64 T))) = sum64 (l.map (shareSq64 T)) ∧ f64 (sum64 l) = sum64 l ∧ 0 ≤ sum64 l := by
  intro l
  induction l using List.reverseRecOn with
  | nil => intro _; simp [sum64, f64_zero]
  | append_singleton l a ih =>
    intro h
    obtain ⟨i1, i2, i3, i4, i5⟩ := ih (fun x hx => h x (by simp [hx]))
    obtain ⟨ha, ha0⟩ := h a (by simp)
    have e1 : sum64 (l ++ [a]) = f64 (sum64 l + a) := by simp [sum64]
    have e2 : sum64 ((l ++ [a]).map (shareSq64 T)) = f64 (sum64 (l.map (shareSq64 T)) + shareSq64 T a) := by simp [sum64]
    rw [e1, e2]
    have hq : 0 ≤ shareSq64 T a := f64_nonneg (mul_self_nonneg _)
    exact ⟨shareStep hT i4 i5 i3 i2 ha ha0 i1, f64_nonneg (add_nonneg i2 hq), f64_idem _, f64_idem _, f64_nonneg (add_nonneg i5 ha0)⟩

theorem factor_up (k j : Nat) (h : k + j ≤ 2 ^ 50) :
    (1 + 1 / 2 ^ 53 : ℚ) ^ k / (1 - 1 / 2 ^ 53) ^ j ≤ 1 + 4 / 3 * ((k + j : Nat) : ℚ) / 2 ^ 53 := by
  have hq : ((k + j : Nat) : ℚ) ≤ 2 ^ 50 := by exact_mod_cast h
  have hq0 : (0 : ℚ) ≤ ((k + j : Nat) : ℚ) := Nat.cast_nonneg _
  have b := one_add_mul_le_pow (R := ℚ) (a := -(1 / 2 ^ 53)) (by norm_num) (k + j)
  have e1 : (1 + -(1 / 2 ^ 53) : ℚ) = 1 - 1 / 2 ^ 53 := by ring
  rw [e1, pow_add] at b
  have hk := lowPow_pos k
  have hj := lowPow_pos j
  have hkk : (1 + 1 / 2 ^ 53 : ℚ) ^ k * (1 - 1 / 2 ^ 53) ^ k ≤ 1 := by
    rw [← mul_pow]; exact pow_le_one₀ (by norm_num) (by norm_num)
  rw [div_le_iff₀ hj]
  have hx : (1 + 4 / 3 * ((k + j : Nat) : ℚ) / 2 ^ 53) * (1 - ((k + j : Nat) : ℚ) / 2 ^ 53) ≥ 1 := by
    generalize ((k + j : Nat) : ℚ) = q at *
    have : (1 + 4 / 3 * q / 2 ^ 53) * (1 - q / 2 ^ 53) = 1 + q / (3 * 2 ^ 53) * (1 - 4 * (q / 2 ^ 53)) := by ring
    rw [this]
    have h2 : 4 * (q / 2 ^ 53) ≤ 1 := by rw [← mul_div_assoc, div_le_one (by norm_num)]; linarith
    have : 0 ≤ q / (3 * 2 ^ 53) * (1 - 4 * (q / 2 ^ 53)) := mul_nonneg (by positivity) (by linarith)
    linarith
  have hF : (0 : ℚ) ≤ 1 + 4 / 3 * ((k + j : Nat) : ℚ) / 2 ^ 53 := by positivity
  have b' : 1 - ((k + j : Nat) : ℚ) / 2 ^ 53 ≤ (1 - 1 / 2 ^ 53 : ℚ) ^ k * (1 - 1 / 2 ^ 53) ^ j := by
    refine le_trans (le_of_eq ?_) b; ring
  have h3 := mul_le_mul_of_nonneg_left b' hF
  have h4 : (1 + 1 / 2 ^ 53 : ℚ) ^ k * (1 - 1 / 2 ^ 53) ^ k ≤
      ((1 + 4 / 3 * ((k + j : Nat) : ℚ) / 2 ^ 53) * (1 - 1 / 2 ^ 53) ^ j) * (1 - 1 / 2 ^ 53) ^ k := by
    calc _ ≤ 1 := hkk
      _ ≤ _ := hx
      _ ≤ _ := h3
      _ = _ := by ring
  exact le_of_mul_le_mul_right h4 hk

theorem factor_down (k j : Nat) : 1 - ((k + j : Nat) : ℚ) / 2 ^ 53 ≤ (1 - 1 / 2 ^ 53 : ℚ) ^ k / (1 + 1 / 2 ^ 53) ^ j := by
  have b := one_add_mul_le_pow (R := ℚ) (a := -(1 / 2 ^ 53)) (by norm_num) (k + j)
  have e1 : (1 + -(1 / 2 ^ 53) : ℚ) = 1 - 1 / 2 ^ 53 := by ring
  rw [e1, pow_add] at b
  have hj := highPow_pos j
  have hk := lowPow_pos k
  have hjj : (1 - 1 / 2 ^ 53 : ℚ) ^ j * (1 + 1 / 2 ^ 53) ^ j ≤ 1 := by
    rw [← mul_pow]; exact pow_le_one₀ (by norm_num) (by norm_num)
  have b' : 1 - ((k + j : Nat) : ℚ) / 2 ^ 53 ≤ (1 - 1 / 2 ^ 53 : ℚ) ^ k * (1 - 1 / 2 ^ 53) ^ j := by
    refine le_trans (le_of_eq ?_) b; ring
  refine b'.trans ?_
  rw [le_div_iff₀ hj, mul_assoc]
  calc _ ≤ (1 - 1 / 2 ^ 53 : ℚ) ^ k * 1 := mul_le_mul_of_nonneg_left hjj hk.le
    _ = _ := mul_one _

theorem sum64_rounds (l : List ℚ) (h : ∀ a ∈ l, 0 ≤ a) : Rounds l.length l.sum (sum64 l) := C88_volume l h

/-- The rounded volume vanishes exactly when the volume does. -/
theorem sum64_eq_zero (l : List ℚ) (h : ∀ a ∈ l, 0 ≤ a) : sum64 l = 0 ↔ l.sum = 0 := by
  have hr := sum64_rounds l h
  constructor
  · intro h0
    rw [Rounds, h0] at hr
    refine le_antisymm ?_ (List.sum_nonneg h)
    by_contra hc
    exact absurd hr.1 (not_le.mpr (mul_pos (not_le.mp hc) (lowPow_pos _)))
  · intro h0
    rw [Rounds, h0] at hr
    linarith [hr.1, hr.2]

theorem sum64_pos (l : List ℚ) (h : ∀ a ∈ l, 0 ≤ a) (hs : l.sum ≠ 0) : 0 < sum64 l :=
  lt_of_le_of_ne ((sum64_rounds l h).nonneg (List.sum_nonneg h)) (fun e => hs ((sum64_eq_zero l h).mp e.symm))

theorem sum64_append (l : List ℚ) (a : ℚ) : sum64 (l ++ [a]) = f64 (sum64 l + a) := by simp [sum64]

theorem sum64_isF64 (l : List ℚ) : f64 (sum64 l) = sum64 l := by
  induction l using List.reverseRecOn with
  | nil => simp [sum64, f64_zero]
  | append_singleton l a _ => rw [sum64_append, f64_idem]

/-- Dropping nonnegative summands does not increase a rounded sum. -/
theorem sum64_filter_le (p : ℚ → Bool) (l : List ℚ) (h : ∀ a ∈ l, 0 ≤ a) : sum64 (l.filter p) ≤ sum64 l := by
  induction l using List.reverseRecOn with
  | nil => simp
  | append_singleton l a ih =>
    have ih := ih (fun x hx => h x (by simp [hx]))
    have ha : 0 ≤ a := h a (by simp)
    rw [List.filter_append, sum64_append]
    by_cases hp : p a = true
    · rw [List.filter_cons_of_pos hp, List.filter_nil, sum64_append]
      exact f64_mono (by linarith)
    · rw [List.filter_cons_of_neg hp, List.filter_nil, List.append_nil]
      have := f64_mono (show sum64 l ≤ sum64 l + a by linarith)
      rw [sum64_isF64] at this
      exact ih.trans this

/-- Dropping zeros does not change a rounded sum. -/
theorem sum64_filter_eq (p : ℚ → Bool) (l : List ℚ) (h : ∀ a ∈ l, p a = false → a = 0) : sum64 (l.filter p) = sum64 l := by
  induction l using List.reverseRecOn with
  | nil => simp
  | append_singleton l a ih =>
    have ih := ih (fun x hx => h x (by simp [hx]))
    rw [List.filter_append, sum64_append]
    by_cases hp : p a = true
    · rw [List.filter_cons_of_pos hp, List.filter_nil, sum64_append, ih]
    · rw [List.filter_cons_of_neg hp, List.filter_nil, List.append_nil, ih, h a (by simp) (by simpa using hp), add_zero, sum64_isF64]

theorem le_sum64 (l : List ℚ) (h : ∀ a ∈ l, 0 ≤ a) (x : ℚ) (hx : x ∈ l) : f64 x ≤ sum64 l := by
  induction l using List.reverseRecOn with
  | nil => simp at hx
  | append_singleton l a ih =>
    have ha : 0 ≤ a := h a (by simp)
    have hl : ∀ b ∈ l, 0 ≤ b := fun b hb => h b (by simp [hb])
    rw [sum64_append]
    rcases List.mem_append.mp hx with hx | hx
    · have := f64_mono (show sum64 l ≤ sum64 l + a by linarith)
      rw [sum64_isF64] at this
      exact (ih hl hx).trans this
    · rw [List.mem_singleton.mp hx]
      have := (sum64_rounds l hl).nonneg (List.sum_nonneg hl)
      exact f64_mono (by linarith)

theorem blockVolume64_eq (t : ℚ) (l : List ℚ) : blockVolume64 (some t) l = sum64 (l.filter (fun a => decide (t < a))) := by
  unfold blockVolume64 sum64
  rw [List.foldl_filter]
  simp only [gt_iff_lt, decide_eq_true_eq]

/-! ### Concentration -/

/-- **C131.** The rounded concentration of a bar of nonnegative trade sizes stays in `[0, 1]`, for any number of trades and any sizes:
every rounding of the total volume, the shares, their squares and the sum is covered.  The same holds for the stored float32 number. -/
theorem C131_gini_range (l : List ℚ) (h : ∀ a ∈ l, f64 a = a ∧ 0 ≤ a) (hs : l.sum ≠ 0) :
    0 ≤ gini64 l ∧ gini64 l ≤ 1 ∧ 0 ≤ f32 (gini64 l) ∧ f32 (gini64 l) ≤ 1 := by
  have hT := sum64_pos l (fun a ha => (h a ha).2) hs
  obtain ⟨h1, h2, _⟩ := shareFold (sum64 l) hT l h
  rw [div_self hT.ne', f64_one, mul_one, f64_one] at h1
  have g0 : 0 ≤ gini64 l := f64_nonneg (by linarith)
  have g1 : gini64 l ≤ 1 := f64_le_one (by linarith)
  have : f32 1 = 1 := by have := f32_intExact 1 (by norm_num); simpa using this
  refine ⟨g0, g1, f32_nonneg g0, ?_⟩
  rw [← this]
  exact f32_mono g1

example : gini64 [3, 1, 4, 1, 5] ≠ 0 ∧ gini64 [3, 1, 4, 1, 5] < 1 := ⟨by decide +kernel, by decide +kernel⟩

/-- The bound uses that sizes are float64 numbers summed in the same order as the squares. -/
example : 1 < sum64 ([1, 1 / 2 ^ 26].map (shareSq64 (1 - 1 / 2 ^ 53))) := by decide +kernel

/-- **C131.** A trade whose size equals the rounded volume has concentration exactly 0. -/
theorem C131_gini_single (l : List ℚ) (h : ∀ a ∈ l, f64 a = a ∧ 0 ≤ a) (hs : l.sum ≠ 0) (a : ℚ) (ha : a ∈ l) (he : a = sum64 l) :
    gini64 l = 0 := by
  have hT := sum64_pos l (fun a ha => (h a ha).2) hs
  obtain ⟨h1, h2, _⟩ := shareFold (sum64 l) hT l h
  rw [div_self hT.ne', f64_one, mul_one, f64_one] at h1
  have := le_sum64 (l.map (shareSq64 (sum64 l))) (by
    intro x hx
    obtain ⟨b, _, rfl⟩ := List.mem_map.mp hx
    exact f64_nonneg (mul_self_nonneg _)) (shareSq64 (sum64 l) a) (List.mem_map_of_mem ha)
  have e : shareSq64 (sum64 l) a = 1 := by
    unfold shareSq64
    rw [he, div_self hT.ne', f64_one, mul_one, f64_one]
  rw [e, f64_one] at this
  have e2 : sum64 (l.map (shareSq64 (sum64 l))) = 1 := le_antisymm h1 this
  unfold gini64
  rw [e2, sub_self, f64_zero]

example : (∀ a ∈ ([0, 3, 0] : List ℚ), f64 a = a ∧ 0 ≤ a) ∧ ([0, 3, 0] : List ℚ).sum ≠ 0 ∧ sum64 [0, 3, 0] = 3 ∧ gini64 [0, 3, 0] = 0 := by decide +kernel

/-- **C131, violation.** Concentration 0 no longer means that one trade has all the volume: a second trade can be lost in the sum. -/
theorem C131_gini_zero_two_trades : gini64 [1, 1 / 2 ^ 60] = 0 ∧ (0 : ℚ) < 1 - ([1, 1 / 2 ^ 60].map (fun a => (a / (1 + 1 / 2 ^ 60)) ^ 2)).sum :=
  ⟨by decide +kernel, by decide +kernel⟩

/-- **C131.** The rounded concentration of `n` trades differs from the exact one by at most `(4 n + 5) 2^-53`, the stored float32 number
by `2^-24` more. -/
theorem C131_gini_error (l : List ℚ) (h : ∀ a ∈ l, f64 a = a ∧ 0 ≤ a) (hs : l.sum ≠ 0) (hl : l.length ≤ 2 ^ 40) :
    |gini64 l - (1 - (l.map (fun a => (a / l.sum) ^ 2)).sum)| ≤ (4 * (l.length : ℚ) + 5) / 2 ^ 53 ∧
    |f32 (gini64 l) - (1 - (l.map (fun a => (a / l.sum) ^ 2)).sum)| ≤ (4 * (l.length : ℚ) + 5) / 2 ^ 53 + 1 / 2 ^ 24 := by
  have hnn : ∀ a ∈ l, 0 ≤ a := fun a ha => (h a ha).2
  have hT := sum64_pos l hnn hs
  have hpos : 0 < l.sum := lt_of_le_of_ne (List.sum_nonneg hnn) (Ne.symm hs)
  obtain ⟨h1, h2, _⟩ := shareFold (sum64 l) hT l h
  rw [div_self hT.ne', f64_one, mul_one, f64_one] at h1
  obtain ⟨L, hL⟩ : ∃ L : ℚ, L = (1 - 1 / 2 ^ 53) ^ 3 / ((1 + 1 / 2 ^ 53) ^ l.length) ^ 2 := ⟨_, rfl⟩
  obtain ⟨U, hU⟩ : ∃ U : ℚ, U = (1 + 1 / 2 ^ 53) ^ 3 / ((1 - 1 / 2 ^ 53) ^ l.length) ^ 2 := ⟨_, rfl⟩
  have hL0 : 0 ≤ L := by rw [hL]; exact div_nonneg (lowPow_nonneg 3) (sq_nonneg _)
  have hU0 : 0 ≤ U := by rw [hU]; exact div_nonneg (highPow_pos 3).le (sq_nonneg _)
  have hterm : ∀ a ∈ l, 0 ≤ (a / l.sum) ^ 2 ∧ (a / l.sum) ^ 2 * L ≤ shareSq64 (sum64 l) a ∧ shareSq64 (sum64 l) a ≤ (a / l.sum) ^ 2 * U := by
    intro a ha
    have hx0 : 0 ≤ a / l.sum := div_nonneg (hnn a ha) hpos.le
    obtain ⟨q1, q2⟩ := rounds_quotient (hnn a ha) hpos (Rounds.refl a) (sum64_rounds l hnn)
    rw [zero_add, pow_one] at q1 q2
    have hr0 : 0 ≤ f64 (a / sum64 l) := f64_nonneg (div_nonneg (hnn a ha) hT.le)
    have lo0 : 0 ≤ a / l.sum * ((1 - 1 / 2 ^ 53) / (1 + 1 / 2 ^ 53) ^ l.length) :=
      mul_nonneg hx0 (div_nonneg (by norm_num) (highPow_pos _).le)
    refine ⟨sq_nonneg _, ?_, ?_⟩
    · unfold shareSq64
      refine le_trans ?_ (f64_down (mul_self_nonneg _))
      have := mul_le_mul_of_nonneg_right (mul_self_le_mul_self lo0 q1) (show (0 : ℚ) ≤ 1 - 1 / 2 ^ 53 by norm_num)
      refine le_trans (le_of_eq ?_) this
      rw [hL]; field_simp
    · unfold shareSq64
      refine le_trans (f64_up (mul_self_nonneg _)) ?_
      have := mul_le_mul_of_nonneg_right (mul_self_le_mul_self hr0 q2) (show (0 : ℚ) ≤ 1 + 1 / 2 ^ 53 by norm_num)
      refine le_trans this (le_of_eq ?_)
      have := (lowPow_pos l.length).ne'
      rw [hU]; field_simp
  have hfold := fold64_bounds (shareSq64 (sum64 l)) (fun a => (a / l.sum) ^ 2) (1 / 2 ^ 53) L U rfl hL0 hU0 l 0 0 0 hterm le_rfl (by simp) (by simp)
  have hS : l.foldl (fun s t => f64 (s + shareSq64 (sum64 l) t)) 0 = sum64 (l.map (shareSq64 (sum64 l))) := by
    unfold sum64; rw [List.foldl_map]
  rw [hS, zero_add, zero_add] at hfold
  have hid : 0 ≤ (l.map (fun a => (a / l.sum) ^ 2)).sum ∧ (l.map (fun a => (a / l.sum) ^ 2)).sum ≤ 1 := by
    obtain ⟨g, _, hg, hg0, hg1, _⟩ := C59_gini (fun x : ℚ => x) 1 1 one_ne_zero l hnn hs
    have : (0 : ℚ) ≤ 1 / (l.length : ℚ) := by positivity
    constructor <;> linarith
  generalize (l.map (fun a => (a / l.sum) ^ 2)).sum = S at *
  generalize hV : sum64 (l.map (shareSq64 (sum64 l))) = V at *
  have hup : U * (1 + 1 / 2 ^ 53) ^ l.length ≤ 1 + (4 * (l.length : ℚ) + 4) / 2 ^ 53 := by
    have := factor_up (3 + l.length) (2 * l.length) (by omega)
    refine le_trans (le_of_eq ?_) (this.trans (le_of_eq ?_))
    · rw [hU, pow_add, pow_mul', div_mul_eq_mul_div]
    · push_cast; ring
  have hdn : 1 - (4 * (l.length : ℚ) + 4) / 2 ^ 53 ≤ L * (1 - 1 / 2 ^ 53) ^ l.length := by
    have := factor_down (3 + l.length) (2 * l.length)
    have e : (1 - 1 / 2 ^ 53 : ℚ) ^ (3 + l.length) / (1 + 1 / 2 ^ 53) ^ (2 * l.length) = L * (1 - 1 / 2 ^ 53) ^ l.length := by
      rw [hL, pow_add, pow_mul', div_mul_eq_mul_div]
    rw [e] at this
    refine le_trans ?_ this
    push_cast
    have : (0 : ℚ) ≤ l.length := Nat.cast_nonneg _
    have : (3 + (l.length : ℚ) + 2 * l.length) / 2 ^ 53 ≤ (4 * (l.length : ℚ) + 4) / 2 ^ 53 :=
      div_le_div_of_nonneg_right (by linarith) (by norm_num)
    linarith
  have hlen : (0 : ℚ) ≤ l.length := Nat.cast_nonneg _
  have d1 : |V - S| ≤ (4 * (l.length : ℚ) + 4) / 2 ^ 53 := by
    have k1 := mul_le_mul_of_nonneg_left hup hid.1
    have k2 := mul_le_mul_of_nonneg_left hdn hid.1
    have k0 : (0 : ℚ) ≤ (4 * (l.length : ℚ) + 4) / 2 ^ 53 := by positivity
    have k3 : S * ((4 * (l.length : ℚ) + 4) / 2 ^ 53) ≤ (4 * (l.length : ℚ) + 4) / 2 ^ 53 := by
      have := mul_le_mul_of_nonneg_right hid.2 k0
      linarith
    rw [abs_le]
    constructor <;> linarith [hfold.1, hfold.2]
  have d2 : |f64 (1 - V) - (1 - V)| ≤ 1 / 2 ^ 53 := by
    have := f64_relErr (1 - V)
    rw [abs_of_nonneg (show (0 : ℚ) ≤ 1 - V by linarith)] at this
    refine this.trans ?_
    gcongr; linarith
  have eG : gini64 l = f64 (1 - V) := by unfold gini64; rw [hV]
  have d3 : |gini64 l - (1 - S)| ≤ (4 * (l.length : ℚ) + 5) / 2 ^ 53 := by
    rw [eG]
    have : (4 * (l.length : ℚ) + 5) / 2 ^ 53 = (4 * (l.length : ℚ) + 4) / 2 ^ 53 + 1 / 2 ^ 53 := by ring
    rw [this]
    rw [abs_le] at d1 d2 ⊢
    constructor <;> linarith
  refine ⟨d3, ?_⟩
  obtain ⟨g0, g1, _⟩ := C131_gini_range l h hs
  have d4 : |f32 (gini64 l) - gini64 l| ≤ 1 / 2 ^ 24 := by
    have := rndBits_relErr 24 (gini64 l)
    rw [abs_of_nonneg g0] at this
    refine this.trans ?_
    gcongr
  rw [abs_le] at d3 d4 ⊢
  constructor <;> linarith

example : |gini64 [3, 1, 4, 1, 5] - (1 - ([3, 1, 4, 1, 5].map (fun a : ℚ => (a / 14) ^ 2)).sum)| ≤ 25 / 2 ^ 53 ∧
    gini64 [3, 1, 4, 1, 5] ≠ 1 - ([3, 1, 4, 1, 5].map (fun a : ℚ => (a / 14) ^ 2)).sum := ⟨by decide +kernel, by decide +kernel⟩

/-! ### Block share -/

/-- **C131.** The stored block share of nonnegative trade sizes is never outside `[0, 1]`; it is 0 exactly when no trade of positive size is
larger than the rounded threshold, and 1 whenever all trades of positive size are. -/
theorem C131_block_range (thr : ℚ) (l : List ℚ) (hnn : ∀ a ∈ l, 0 ≤ a) (hs : l.sum ≠ 0) :
    let p := f32 (f64 (blockVolume64 (some thr) l / sum64 l))
    0 ≤ p ∧ p ≤ 1 ∧ (p = 0 ↔ ∀ a ∈ l, 0 < a → a ≤ thr) ∧ ((∀ a ∈ l, 0 < a → thr < a) → p = 1) := by
  intro p
  have hT := sum64_pos l hnn hs
  have hf : ∀ a ∈ l.filter (fun a => decide (thr < a)), 0 ≤ a := fun a ha => hnn a (List.mem_filter.mp ha).1
  have hB0 : 0 ≤ blockVolume64 (some thr) l := by
    rw [blockVolume64_eq]
    exact (sum64_rounds _ hf).nonneg (List.sum_nonneg hf)
  have hB1 : blockVolume64 (some thr) l ≤ sum64 l := by rw [blockVolume64_eq]; exact sum64_filter_le _ l hnn
  have f32one : f32 1 = 1 := by have := f32_intExact 1 (by norm_num); simpa using this
  have q0 : 0 ≤ blockVolume64 (some thr) l / sum64 l := div_nonneg hB0 hT.le
  have nz : ∀ x : ℚ, 0 ≤ x → (f32 (f64 x) = 0 ↔ x = 0) := by
    intro x hx
    constructor
    · intro h0
      have h1 := (f32_factor (f64_nonneg hx)).1
      rw [h0] at h1
      have h2 := (f64_factor hx).1
      have h3 : f64 x ≤ 0 := by
        by_contra hc
        have := mul_pos (not_le.mp hc) (show (0 : ℚ) < 1 - 1 / 2 ^ 24 by norm_num)
        linarith
      refine le_antisymm ?_ hx
      by_contra hc
      have := mul_pos (not_le.mp hc) (show (0 : ℚ) < 1 - 1 / 2 ^ 53 by norm_num)
      linarith
    · intro h0; rw [h0, f64_zero, f32_zero]
  refine ⟨f32_nonneg (f64_nonneg q0), ?_, ?_, ?_⟩
  · rw [← f32one]
    exact f32_mono (f64_le_one (by rw [div_le_one hT]; exact hB1))
  · rw [show (p = 0) = (f32 (f64 (blockVolume64 (some thr) l / sum64 l)) = 0) from rfl, nz _ q0, div_eq_zero_iff, or_iff_left hT.ne',
      blockVolume64_eq, sum64_eq_zero _ hf, sum_nonneg_eq_zero_iff _ hf]
    constructor
    · intro h a ha hap
      by_contra hc
      exact absurd (h a (List.mem_filter.mpr ⟨ha, by simpa using lt_of_not_ge hc⟩)) (ne_of_gt hap)
    · intro h a ha
      obtain ⟨ha1, ha2⟩ := List.mem_filter.mp ha
      by_contra hc
      exact absurd (of_decide_eq_true ha2) (not_lt.mpr (h a ha1 (lt_of_le_of_ne (hnn a ha1) (Ne.symm hc))))
  · intro h
    have : blockVolume64 (some thr) l = sum64 l := by
      rw [blockVolume64_eq]
      refine sum64_filter_eq _ l (fun a ha hp => ?_)
      by_contra hc
      simp [h a ha (lt_of_le_of_ne (hnn a ha) (Ne.symm hc))] at hp
    show f32 (f64 (blockVolume64 (some thr) l / sum64 l)) = 1
    rw [this, div_self hT.ne', f64_one, f32one]

example : f32 (f64 (blockVolume64 (some 2) [3, 1, 4] / sum64 [3, 1, 4])) = 7 / 8 := by decide +kernel

/-- **C131, violation.** A share of 1 does not mean that all volume is in blocks: here a trade of a ten-millionth of the volume is not. -/
theorem C131_block_share_one :
    f32 (f64 (blockVolume64 (some 1) [10 ^ 8, 1] / sum64 [10 ^ 8, 1])) = 1 ∧ ¬ ∀ a ∈ [(10 : ℚ) ^ 8, 1], 0 < a → 1 < a :=
  ⟨by decide +kernel, by decide +kernel⟩

/-- **C131.** The float64 block share of `n` trades differs from the exact share by at most `(3 n + 2) 2^-53`, the stored one by `2^-24`
more. -/
theorem C131_block_error (thr : ℚ) (l : List ℚ) (hnn : ∀ a ∈ l, 0 ≤ a) (hs : l.sum ≠ 0) (hl : l.length ≤ 2 ^ 40) :
    let share := (l.filter (fun a => decide (thr < a))).sum / l.sum
    let p := f64 (blockVolume64 (some thr) l / sum64 l)
    |p - share| ≤ (3 * (l.length : ℚ) + 2) / 2 ^ 53 ∧ |f32 p - share| ≤ (3 * (l.length : ℚ) + 2) / 2 ^ 53 + 1 / 2 ^ 24 := by
  intro share p
  have hT := sum64_pos l hnn hs
  have hpos : 0 < l.sum := lt_of_le_of_ne (List.sum_nonneg hnn) (Ne.symm hs)
  have hf : ∀ a ∈ l.filter (fun a => decide (thr < a)), 0 ≤ a := fun a ha => hnn a (List.mem_filter.mp ha).1
  have hF0 : 0 ≤ (l.filter (fun a => decide (thr < a))).sum := List.sum_nonneg hf
  have hadd := sum_filter_add (fun a => decide (thr < a)) l
  have hrest : 0 ≤ (l.filter (fun a => !decide (thr < a))).sum :=
    List.sum_nonneg (fun a ha => hnn a (List.mem_filter.mp ha).1)
  have hs0 : 0 ≤ share := div_nonneg hF0 hpos.le
  have hs1 : share ≤ 1 := by show _ / _ ≤ (1 : ℚ); rw [div_le_one hpos]; linarith
  have hR := (sum64_rounds _ hf).mono hF0 (List.length_filter_le (fun a => decide (thr < a)) l)
  obtain ⟨q1, q2⟩ := rounds_quotient hF0 hpos hR (sum64_rounds l hnn)
  rw [← blockVolume64_eq] at q1 q2
  have hup := factor_up (l.length + 1) l.length (by omega)
  have hdn := factor_down (l.length + 1) l.length
  have k1 := q2.trans (mul_le_mul_of_nonneg_left hup hs0)
  have k2 := (mul_le_mul_of_nonneg_left hdn hs0).trans q1
  have hlen : (0 : ℚ) ≤ l.length := Nat.cast_nonneg _
  have b1 : (4 / 3 * ((l.length + 1 + l.length : Nat) : ℚ)) / 2 ^ 53 ≤ (3 * (l.length : ℚ) + 2) / 2 ^ 53 := by
    push_cast
    exact div_le_div_of_nonneg_right (by linarith) (by norm_num)
  have b2 : ((l.length + 1 + l.length : Nat) : ℚ) / 2 ^ 53 ≤ (3 * (l.length : ℚ) + 2) / 2 ^ 53 := by
    push_cast
    exact div_le_div_of_nonneg_right (by linarith) (by norm_num)
  have c0 : (0 : ℚ) ≤ (3 * (l.length : ℚ) + 2) / 2 ^ 53 := by positivity
  have c1 : share * ((3 * (l.length : ℚ) + 2) / 2 ^ 53) ≤ (3 * (l.length : ℚ) + 2) / 2 ^ 53 := by
    have := mul_le_mul_of_nonneg_right hs1 c0
    linarith
  have c2 := mul_le_mul_of_nonneg_left b1 hs0
  have c3 := mul_le_mul_of_nonneg_left b2 hs0
  have d : |p - share| ≤ (3 * (l.length : ℚ) + 2) / 2 ^ 53 := by
    rw [abs_le]
    constructor
    · have : share - share * (((l.length + 1 + l.length : Nat) : ℚ) / 2 ^ 53) ≤ p := by
        refine le_trans (le_of_eq ?_) k2; ring
      linarith
    · have : p ≤ share + share * ((4 / 3 * ((l.length + 1 + l.length : Nat) : ℚ)) / 2 ^ 53) := by
        refine le_trans k1 (le_of_eq ?_); ring
      linarith
  refine ⟨d, ?_⟩
  have p0 : 0 ≤ p := f64_nonneg (div_nonneg (by rw [blockVolume64_eq]; exact (sum64_rounds _ hf).nonneg hF0) hT.le)
  have p1 : p ≤ 1 := f64_le_one (by rw [div_le_one hT, blockVolume64_eq]; exact sum64_filter_le _ l hnn)
  have d4 : |f32 p - p| ≤ 1 / 2 ^ 24 := by
    have := rndBits_relErr 24 p
    rw [abs_of_nonneg p0] at this
    refine this.trans ?_
    gcongr
  rw [abs_le] at d d4 ⊢
  constructor <;> linarith

example : (∀ a ∈ ([1, 3, 2] : List ℚ), 0 ≤ a) ∧ ([1, 3, 2] : List ℚ).sum ≠ 0 ∧ f64 (blockVolume64 (some 2) [1, 3, 2] / sum64 [1, 3, 2]) = 1 / 2 := by
  decide +kernel

/-! ### The row -/

/-- **C131.** The row of a bar with a typical size: the same fields are missing as without rounding, block share and concentration are the
stored numbers of the theorems above for the rounded threshold, and the mean size enters the logarithm as the rounded quotient of the rounded
mean by the rounded threshold. -/
theorem C131_row (log1p : ℚ → ℚ) (pct95 : List ℚ → ℚ) (m th : ℚ) (hth : 0 < th) (hm : 0 < m) (l : List ℚ) (hl : l ≠ [])
    (hnn : ∀ a ∈ l, f64 a = a ∧ 0 ≤ a) :
    let row := sizeBar64 log1p pct95 m (some th) l
    (∃ y, row.meanRel = some (f32 (log1p y)) ∧
      l.sum / l.length / (th * m) * ((1 - 1 / 2 ^ 53) ^ (l.length + 2) / (1 + 1 / 2 ^ 53)) ≤ y ∧
      y ≤ l.sum / l.length / (th * m) * ((1 + 1 / 2 ^ 53) ^ (l.length + 2) / (1 - 1 / 2 ^ 53))) ∧
    row.size95Rel = some (f32 (log1p (f64 (pct95 l / f64 (th * m))))) ∧
    (row.pctBlock = none ↔ l.sum = 0) ∧ (row.gini = none ↔ l.sum = 0) ∧
    (l.sum ≠ 0 → row.pctBlock = some (f32 (f64 (blockVolume64 (some (f64 (th * m))) l / sum64 l))) ∧ row.gini = some (f32 (gini64 l))) := by
  intro row
  have hnn' : ∀ a ∈ l, 0 ≤ a := fun a ha => (hnn a ha).2
  have htm : 0 < th * m := mul_pos hth hm
  have ht := f64_factor htm.le
  have htp : 0 < f64 (th * m) := lt_of_lt_of_le (mul_pos htm (by norm_num)) ht.1
  have e : row = sizeRow64 log1p pct95 (some (f64 (th * m))) l := by
    show sizeBar64 log1p pct95 m (some th) l = _
    unfold sizeBar64
    rw [if_neg (by rintro (h | h); exacts [hl h, hth.ne' (Option.some.inj h)])]
    rfl
  have hmean : row.meanRel = relSize64 log1p (some (f64 (th * m))) (f64 (sum64 l / (l.length : ℚ))) := by
    rw [e]; unfold sizeRow64; simp only; split <;> rfl
  have h95 : row.size95Rel = relSize64 log1p (some (f64 (th * m))) (pct95 l) := by
    rw [e]; unfold sizeRow64; simp only; split <;> rfl
  have hn : (0 : ℚ) < l.length := by exact_mod_cast List.length_pos_of_ne_nil hl
  have hS0 : 0 ≤ l.sum := List.sum_nonneg hnn'
  refine ⟨⟨f64 (f64 (sum64 l / (l.length : ℚ)) / f64 (th * m)), ?_, ?_⟩, ?_, ?_, ?_, ?_⟩
  · rw [hmean]; unfold relSize64; simp only; rw [if_neg htp.ne']
  · have r1 : Rounds (l.length + 1) (l.sum / l.length) (f64 (sum64 l / (l.length : ℚ))) :=
      ((sum64_rounds l hnn').div hn.le).f64 (div_nonneg hS0 hn.le)
    have r2 : Rounds 1 (th * m) (f64 (th * m)) := by simpa [Rounds] using ht
    have := rounds_quotient (div_nonneg hS0 hn.le) htm r1 r2
    rwa [pow_one, pow_one] at this
  · rw [h95]; unfold relSize64; simp only; rw [if_neg htp.ne']
  · rw [e, ← sum64_eq_zero l hnn']; unfold sizeRow64; simp only; split <;> simp [*]
  · rw [e, ← sum64_eq_zero l hnn']; unfold sizeRow64; simp only
    split
    · simp [*]
    · simp only [*, iff_false]; split <;> simp
  · intro hs
    have hz : sum64 l ≠ 0 := (sum64_pos l hnn' hs).ne'
    rw [e]; unfold sizeRow64; simp only; rw [if_neg hz]
    refine ⟨rfl, ?_⟩
    simp only
    split
    · rename_i h1
      obtain ⟨a, rfl⟩ := List.length_eq_one_iff.mp h1
      rw [C131_gini_single [a] hnn hs a (by simp) (by simp [sum64, (hnn a (by simp)).1]), f32_zero]
    · rfl

example : (sizeBar64 (fun x => x) (fun _ => 0) 2 (some 1) [3, 1, 4]).pctBlock = some (7 / 8) ∧
    (sizeBar64 (fun x => x) (fun _ => 0) 2 (some 1) [0, 0]).pctBlock = none ∧
    (sizeBar64 (fun x => x) (fun _ => 0) 2 none [3, 1, 4]).meanRel = none := ⟨by decide +kernel, by decide +kernel, by decide +kernel⟩

/-- **C131.** Rows without trades or with typical size zero are missing; with a NaN typical size the relative sizes are NaN and the block share
is 0, as without rounding. -/
theorem C131_missing (log1p : ℚ → ℚ) (pct95 : List ℚ → ℚ) (m : ℚ) (l : List ℚ) :
    sizeBar64 log1p pct95 m (some 0) l = ⟨none, none, none, none⟩ ∧
    (∀ t, sizeBar64 log1p pct95 m t [] = ⟨none, none, none, none⟩) ∧
    (sum64 l ≠ 0 → (sizeBar64 log1p pct95 m none l).meanRel = none ∧ (sizeBar64 log1p pct95 m none l).size95Rel = none ∧
      (sizeBar64 log1p pct95 m none l).pctBlock = some 0) := by
  refine ⟨by simp [sizeBar64], fun t => by simp [sizeBar64], fun h => ?_⟩
  have hl : l ≠ [] := by rintro rfl; simp [sum64] at h
  simp [sizeBar64, sizeRow64, hl, h, relSize64, blockVolume64, f64_zero, f32_zero]

end FinML
