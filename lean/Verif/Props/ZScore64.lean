/-
C122: the float64 z-score and realised volatility against the real ones.
-/
import Verif.Props.Dispersion64
import Verif.Props.TradeSize64
import Mathlib.Analysis.SpecialFunctions.Sqrt

set_option linter.unusedSectionVars false

namespace FinML

/-- A number whose square is near `V` is near the square root of `V`. -/
theorem sqrt_near {V r E : ℝ} (hV : 0 ≤ V) (hr : 0 ≤ r) (h1 : V * (1 - E) ≤ r ^ 2) (h2 : r ^ 2 ≤ V * (1 + E)) :
    |r - Real.sqrt V| ≤ Real.sqrt V * E := by
  have hS0 := Real.sqrt_nonneg V
  have hSS := Real.sq_sqrt hV
  generalize Real.sqrt V = S at *
  rcases hS0.lt_or_eq with hp | hz
  · have e : |r - S| * (r + S) ≤ S ^ 2 * E := by
      rw [← hSS] at h1 h2
      rw [← abs_of_nonneg (add_nonneg hr hS0), ← abs_mul, abs_le]
      constructor <;> nlinarith
    have : |r - S| * S ≤ |r - S| * (r + S) := mul_le_mul_of_nonneg_left (by linarith) (abs_nonneg _)
    have h3 : |r - S| * S ≤ (S * E) * S := by nlinarith
    exact le_of_mul_le_mul_right h3 hp
  · have hV0 : V = 0 := by rw [← hSS, ← hz]; norm_num
    rw [hV0] at h2
    have : r = 0 := by
      have : r ^ 2 ≤ 0 := by linarith
      exact pow_eq_zero_iff two_ne_zero |>.mp (le_antisymm this (sq_nonneg r))
    rw [this, ← hz]; norm_num

/-- **C122.** Realised volatility: with a correctly rounded square root the float64 value over `n` present returns is within the
relative error `4/3 (n+4) 2^-53` of the real square root of the exact mean square, and it is missing exactly when that is. -/
theorem C122_realized_root (s : ℚ → ℚ) (hs : SqrtRounded s) (r : List (Option ℚ)) (w : Nat) (isSample : Bool) (i : Nat)
    (hi : i < r.length) (hn : (validOf (window r w i)).length ≤ 2 ^ 40) :
    ((realizedVars64 r w isSample)[i]? = some none ∧ (realizedVol (fun x => x) r w isSample)[i]? = some none) ∨
    ∃ v V, (realizedVars64 r w isSample)[i]? = some (some v) ∧ (realizedVol (fun x => x) r w isSample)[i]? = some (some V) ∧ 0 ≤ V ∧
      |(s v : ℝ) - Real.sqrt V| ≤ Real.sqrt V * (4 / 3 * (((validOf (window r w i)).length : ℝ) + 4) / 2 ^ 53) := by
  rcases C122_realized r w isSample i hi with h | ⟨v, V, h1, h2, h3, h4, h5⟩
  · exact Or.inl h
  · refine Or.inr ⟨v, V, h1, h2, h3, ?_⟩
    generalize (validOf (window r w i)).length = n at *
    have hv : 0 ≤ v := le_trans (mul_nonneg h3 (pow_nonneg (by norm_num) _)) h4
    obtain ⟨s0, s1, s2⟩ := hs v hv
    have u := factor_up (n + 4) 0 (by omega)
    have d := factor_down (n + 4) 0
    rw [pow_zero, div_one, Nat.add_zero] at u d
    have lo : V * (1 - 4 / 3 * ((n + 4 : Nat) : ℚ) / 2 ^ 53) ≤ s v ^ 2 := by
      have hle : 1 - 4 / 3 * ((n + 4 : Nat) : ℚ) / 2 ^ 53 ≤ (1 - 1 / 2 ^ 53) ^ (n + 4) := by
        refine le_trans ?_ d
        have : (0 : ℚ) ≤ ((n + 4 : Nat) : ℚ) / 2 ^ 53 := by positivity
        linarith
      calc V * (1 - 4 / 3 * ((n + 4 : Nat) : ℚ) / 2 ^ 53) ≤ V * (1 - 1 / 2 ^ 53) ^ (n + 4) := mul_le_mul_of_nonneg_left hle h3
        _ = V * (1 - 1 / 2 ^ 53) ^ (n + 2) * (1 - 1 / 2 ^ 53) ^ 2 := by rw [mul_assoc, ← pow_add]
        _ ≤ v * (1 - 1 / 2 ^ 53) ^ 2 := mul_le_mul_of_nonneg_right h4 (by norm_num)
        _ ≤ s v ^ 2 := s1
    have hi' : s v ^ 2 ≤ V * (1 + 4 / 3 * ((n + 4 : Nat) : ℚ) / 2 ^ 53) := by
      calc s v ^ 2 ≤ v * (1 + 1 / 2 ^ 53) ^ 2 := s2
        _ ≤ V * (1 + 1 / 2 ^ 53) ^ (n + 2) * (1 + 1 / 2 ^ 53) ^ 2 := mul_le_mul_of_nonneg_right h5 (by norm_num)
        _ = V * (1 + 1 / 2 ^ 53) ^ (n + 4) := by rw [mul_assoc, ← pow_add]
        _ ≤ _ := mul_le_mul_of_nonneg_left u h3
    apply sqrt_near (by exact_mod_cast h3) (by exact_mod_cast s0)
    · have h := (Rat.cast_le (K := ℝ)).mpr lo
      push_cast at h ⊢
      exact h
    · have h := (Rat.cast_le (K := ℝ)).mpr hi'
      push_cast at h ⊢
      exact h

example : (∃ s, SqrtRounded s) ∧ (realizedVars64 [some 1, none, some 2, some 2] 3 true)[3]? = some (some 8) ∧
    (validOf (window [some (1 : ℚ), none, some 2, some 2] 3 3)).length ≤ 2 ^ 40 := ⟨sqrtRounded_exists, by decide +kernel⟩

theorem zscore_real {S r D d y z δ u κ E : ℝ} (hS : 0 < S) (hr : 0 < r) (hδ : |d - D| ≤ δ) (hu : 0 ≤ u) (hu1 : u ≤ 1 / 2 ^ 53)
    (hκ : 0 ≤ κ) (hE : 0 ≤ E) (hE1 : E ≤ 1 / 4) (h1 : S ^ 2 ≤ r ^ 2 * (1 + E)) (h2 : r ^ 2 ≤ S ^ 2 * ((1 + κ) * (1 + E)))
    (hy : |y - d| ≤ u * |d|) (hz : |z - y / r| ≤ u * |y / r|) :
    |z - D / S| ≤ |D / S| * (κ + E + 4 * u) + 2 * (δ / S) := by
  have hδ0 : 0 ≤ δ := le_trans (abs_nonneg _) hδ
  obtain ⟨a, ha⟩ : ∃ a, a = S / r := ⟨_, rfl⟩
  have ha0 : 0 < a := by rw [ha]; positivity
  have hSr : S = a * r := by rw [ha]; field_simp
  have hr2 : 0 < r ^ 2 := by positivity
  have a1 : a ^ 2 ≤ 1 + E := by
    rw [hSr, mul_pow] at h1
    nlinarith
  have a2 : 1 - κ - E ≤ a ^ 2 := by
    rw [hSr, mul_pow] at h2
    have h3 : 1 ≤ a ^ 2 * ((1 + κ) * (1 + E)) := by
      have : r ^ 2 * 1 ≤ r ^ 2 * (a ^ 2 * ((1 + κ) * (1 + E))) := by nlinarith
      exact le_of_mul_le_mul_left this hr2
    by_contra hc
    have hlt := not_le.mp hc
    have hpos : 0 < (1 + κ) * (1 + E) := by positivity
    have h4 : a ^ 2 * ((1 + κ) * (1 + E)) < (1 - κ - E) * ((1 + κ) * (1 + E)) := mul_lt_mul_of_pos_right hlt hpos
    have h5 : (1 - κ - E) * ((1 + κ) * (1 + E)) ≤ 1 := by
      have e : (1 - κ - E) * ((1 + κ) * (1 + E)) = 1 - (κ ^ 2 + E ^ 2 + κ * E + κ ^ 2 * E + κ * E ^ 2) := by ring
      rw [e]
      have : 0 ≤ κ ^ 2 + E ^ 2 + κ * E + κ ^ 2 * E + κ * E ^ 2 := by positivity
      linarith
    linarith
  have ha3 : a ≤ 9 / 8 := by nlinarith
  have ha1 : |a - 1| ≤ κ + E := by
    have h3 : |a - 1| * (a + 1) ≤ κ + E := by
      rw [← abs_of_pos (by linarith : 0 < a + 1), ← abs_mul, abs_le]
      constructor <;> nlinarith
    have : |a - 1| * 1 ≤ |a - 1| * (a + 1) := mul_le_mul_of_nonneg_left (by linarith) (abs_nonneg _)
    linarith
  -- the scaled quantities
  have hq : d / r - D / S = D / S * (a - 1) + (d - D) / S * a := by
    rw [ha]; field_simp; ring
  have hw : |(d - D) / S| ≤ δ / S := by
    rw [abs_div, abs_of_pos hS]; exact div_le_div_of_nonneg_right hδ hS.le
  have hT0 : 0 ≤ |D / S| := abs_nonneg _
  have hW0 : 0 ≤ δ / S := div_nonneg hδ0 hS.le
  have e1 : |d / r - D / S| ≤ |D / S| * (κ + E) + δ / S * (9 / 8) := by
    rw [hq]
    refine (abs_add_le _ _).trans ?_
    rw [abs_mul, abs_mul, abs_of_pos ha0]
    exact add_le_add (mul_le_mul_of_nonneg_left ha1 hT0) (mul_le_mul hw ha3 ha0.le hW0)
  have e2 : |d / r| ≤ (|D / S| + δ / S) * (9 / 8) := by
    have : d / r = (D / S + (d - D) / S) * a := by rw [ha]; field_simp; ring
    rw [this, abs_mul, abs_of_pos ha0]
    exact mul_le_mul ((abs_add_le _ _).trans (by linarith)) ha3 ha0.le (by linarith)
  have e3 : |y / r - d / r| ≤ u * |d / r| := by
    rw [← sub_div, abs_div, abs_div, abs_of_pos hr, ← mul_div_assoc]
    exact div_le_div_of_nonneg_right hy hr.le
  have e4 : |y / r| ≤ (1 + u) * |d / r| := by
    have := abs_sub_abs_le_abs_sub (y / r) (d / r)
    linarith
  have hd0 : 0 ≤ |d / r| := abs_nonneg _
  have e5 : |z - d / r| ≤ 3 * u * |d / r| := by
    have t : |z - d / r| ≤ |z - y / r| + |y / r - d / r| := by
      have : z - d / r = (z - y / r) + (y / r - d / r) := by ring
      rw [this]; exact abs_add_le _ _
    have : u * |y / r| ≤ u * ((1 + u) * |d / r|) := mul_le_mul_of_nonneg_left e4 hu
    have h7 : u * ((1 + u) * |d / r|) ≤ 2 * u * |d / r| := by
      have : u * |d / r| * u ≤ u * |d / r| * 1 := mul_le_mul_of_nonneg_left (by linarith [show (1 : ℝ) / 2 ^ 53 ≤ 1 by norm_num]) (mul_nonneg hu hd0)
      nlinarith
    linarith
  have e6 : |z - D / S| ≤ |z - d / r| + |d / r - D / S| := by
    have : z - D / S = (z - d / r) + (d / r - D / S) := by ring
    rw [this]; exact abs_add_le _ _
  have e7 : 3 * u * |d / r| ≤ 3 * u * ((|D / S| + δ / S) * (9 / 8)) := mul_le_mul_of_nonneg_left e2 (by positivity)
  have hus : u ≤ 1 / 8 := hu1.trans (by norm_num)
  have e8 : u * (δ / S) ≤ 1 / 8 * (δ / S) := mul_le_mul_of_nonneg_right hus hW0
  have e9 : 0 ≤ u * |D / S| := mul_nonneg hu hT0
  nlinarith

/-- **C122.** Accuracy of the z-score.  For a window of `n` numbers of size at most `M` with positive exact variance `V`, the float64
z-score exists, and differs from the real one `z = (x - mean)/√V` by at most `|z| (κ + 4/3 (n+9) 2^-53) + 2δ/√V`, where
`δ = (n+2) M 2^-53` bounds the error of the mean and `κ = n/(n-ddof) δ²/V`. -/
theorem C122_zscore_accuracy (s : ℚ → ℚ) (hs : SqrtRounded s) (l : List ℚ) (ddof : Nat) (hd : ddof < l.length) (hl : l.length ≤ 2 ^ 40)
    (M : ℚ) (hM : ∀ x ∈ l, |x| ≤ M) (V : ℚ) (hVd : V = (l.map (fun x => (x - l.sum / l.length) ^ 2)).sum / ((l.length : ℚ) - ddof))
    (hV : 0 < V) (δ κ : ℚ) (hδ : δ = ((l.length : ℚ) + 2) * M / 2 ^ 53) (hκ : κ = l.length / ((l.length : ℚ) - ddof) * δ ^ 2 / V) :
    let z : ℝ := ((l.getLastD 0 - l.sum / l.length : ℚ) : ℝ) / Real.sqrt V
    ∃ z64, zscoreWin64 s ddof l = some z64 ∧
      |(z64 : ℝ) - z| ≤ |z| * (κ + 4 / 3 * ((l.length : ℝ) + 9) / 2 ^ 53) + 2 * (δ / Real.sqrt V) := by
  intro z
  have hz : z = ((l.getLastD 0 - l.sum / l.length : ℚ) : ℝ) / Real.sqrt V := rfl
  clear_value z
  have hl0 : 0 < l.length := by omega
  have hM0 : 0 ≤ M := (abs_nonneg _).trans (hM _ (List.getElem_mem hl0))
  have hdd : (0 : ℚ) < l.length - ddof := by
    have : (ddof : ℚ) < l.length := by exact_mod_cast hd
    linarith
  have hκ0 : 0 ≤ κ := by rw [hκ]; positivity
  obtain ⟨-, hmean, -⟩ := moments64_near l M hM0 hl0 hl hM
  obtain ⟨v1, v2⟩ := C122_zscore_variance l ddof hd hl M hM
  rw [← hVd] at v1 v2
  rw [← hδ] at v2 hmean
  have hVκ : V + l.length / ((l.length : ℚ) - ddof) * δ ^ 2 = V * (1 + κ) := by
    rw [hκ]; field_simp
  rw [hVκ] at v2
  have hz0 : 0 < zVar64 l ddof := lt_of_lt_of_le (mul_pos hV (pow_pos (by norm_num) _)) v1
  obtain ⟨r0, r1, r2⟩ := hs _ hz0.le
  have hn6 : l.length + 6 ≤ 2 ^ 50 := by omega
  have hr0 : s (zVar64 l ddof) ≠ 0 := by
    intro h
    rw [h] at r1
    have : 0 < zVar64 l ddof * (1 - 1 / 2 ^ 53) ^ 2 := by positivity
    norm_num at r1
    norm_num at this
    linarith
  have hw : zscoreWin64 s ddof l = some (f64 (f64 (l.getLastD 0 - f64 (sum64 l / l.length)) / s (zVar64 l ddof))) := by
    unfold zscoreWin64
    simp only
    rw [if_pos hr0]
  refine ⟨_, hw, ?_⟩
  have hrp : 0 < s (zVar64 l ddof) := lt_of_le_of_ne r0 (Ne.symm hr0)
  generalize s (zVar64 l ddof) = r at *
  generalize zVar64 l ddof = v at *
  generalize f64 (sum64 l / l.length) = m at *
  generalize l.sum / l.length = μ at *
  generalize l.getLastD 0 = x at *
  have hy := f64_relErr (x - m)
  have hzz := f64_relErr (f64 (x - m) / r)
  generalize f64 (x - m) = y at *
  generalize f64 (y / r) = w at *
  -- the squared denominator
  have u := factor_up (l.length + 6) 0 (by omega)
  have d := factor_down (l.length + 6) 0
  rw [pow_zero, div_one, Nat.add_zero] at u d
  obtain ⟨k, hk⟩ : ∃ k : ℚ, k = ((l.length + 6 : Nat) : ℚ) / 2 ^ 53 := ⟨_, rfl⟩
  have hk0 : 0 ≤ k := by rw [hk]; positivity
  have hk1 : k ≤ 1 / 8 := by
    have : ((l.length + 6 : Nat) : ℚ) ≤ 2 ^ 50 := by exact_mod_cast hn6
    rw [hk, div_le_iff₀ (by norm_num)]
    norm_num at this ⊢
    linarith
  rw [mul_div_assoc, ← hk] at u
  rw [← hk] at d
  have g1 : V ≤ r ^ 2 * (1 + 4 / 3 * k) := by
    have h1 : V * (1 - k) ≤ r ^ 2 := by
      calc V * (1 - k) ≤ V * (1 - 1 / 2 ^ 53) ^ (l.length + 6) := mul_le_mul_of_nonneg_left d hV.le
        _ = V * (1 - 1 / 2 ^ 53) ^ (l.length + 4) * (1 - 1 / 2 ^ 53) ^ 2 := by rw [mul_assoc, ← pow_add]
        _ ≤ v * (1 - 1 / 2 ^ 53) ^ 2 := mul_le_mul_of_nonneg_right v1 (by norm_num)
        _ ≤ r ^ 2 := r1
    have h2 : V * (1 - k) * (1 + 4 / 3 * k) ≤ r ^ 2 * (1 + 4 / 3 * k) := mul_le_mul_of_nonneg_right h1 (by linarith)
    have h3 : 1 ≤ (1 - k) * (1 + 4 / 3 * k) := by nlinarith
    have h4 : V * 1 ≤ V * ((1 - k) * (1 + 4 / 3 * k)) := mul_le_mul_of_nonneg_left h3 hV.le
    linarith
  have g2 : r ^ 2 ≤ V * ((1 + κ) * (1 + 4 / 3 * k)) := by
    have hVk : 0 ≤ V * (1 + κ) := mul_nonneg hV.le (by linarith)
    calc r ^ 2 ≤ v * (1 + 1 / 2 ^ 53) ^ 2 := r2
      _ ≤ V * (1 + κ) * (1 + 1 / 2 ^ 53) ^ (l.length + 4) * (1 + 1 / 2 ^ 53) ^ 2 := mul_le_mul_of_nonneg_right v2 (by norm_num)
      _ = V * (1 + κ) * (1 + 1 / 2 ^ 53) ^ (l.length + 6) := by rw [mul_assoc, ← pow_add]
      _ ≤ V * (1 + κ) * (1 + 4 / 3 * k) := mul_le_mul_of_nonneg_left u hVk
      _ = V * ((1 + κ) * (1 + 4 / 3 * k)) := by ring
  have hVr : (0 : ℝ) < V := by exact_mod_cast hV
  have hSS := Real.sq_sqrt hVr.le
  have hS := Real.sqrt_pos.mpr hVr
  have main := zscore_real (S := Real.sqrt V) (r := r) (D := ((x - μ : ℚ) : ℝ)) (d := ((x - m : ℚ) : ℝ)) (y := y) (z := w) (δ := δ)
    (u := 1 / 2 ^ 53) (κ := κ) (E := ((4 / 3 * k : ℚ) : ℝ)) hS (by exact_mod_cast hrp)
    (by
      have : |x - m - (x - μ)| ≤ δ := by
        rw [show x - m - (x - μ) = -(m - μ) by ring, abs_neg]; exact hmean
      have h := (Rat.cast_le (K := ℝ)).mpr this
      push_cast at h ⊢
      exact h)
    (by norm_num) le_rfl (by exact_mod_cast hκ0) (by exact_mod_cast (by linarith : (0 : ℚ) ≤ 4 / 3 * k))
    (by
      have h := (Rat.cast_le (K := ℝ)).mpr (show 4 / 3 * k ≤ 1 / 4 by linarith)
      push_cast at h ⊢
      exact h)
    (by
      rw [hSS]
      have h := (Rat.cast_le (K := ℝ)).mpr g1
      push_cast at h ⊢
      exact h)
    (by
      rw [hSS]
      have h := (Rat.cast_le (K := ℝ)).mpr g2
      push_cast at h ⊢
      exact h)
    (by
      have h := (Rat.cast_le (K := ℝ)).mpr hy
      push_cast at h ⊢
      rw [div_mul_eq_mul_div, one_mul]
      exact h)
    (by
      have h := (Rat.cast_le (K := ℝ)).mpr hzz
      push_cast at h ⊢
      rw [div_mul_eq_mul_div, one_mul]
      exact h)
  have hkr : ((4 / 3 * k : ℚ) : ℝ) + 4 * (1 / 2 ^ 53) = 4 / 3 * ((l.length : ℝ) + 9) / 2 ^ 53 := by
    rw [hk]; push_cast; ring
  rw [add_assoc, hkr] at main
  rw [hz]
  exact main

/-- Non-vacuity: a window with a positive variance. -/
example : let l : List ℚ := [1, 3, 2, 7]
    (∃ s, SqrtRounded s) ∧ (∀ x ∈ l, |x| ≤ 7) ∧ 0 < (l.map (fun x => (x - l.sum / l.length) ^ 2)).sum / ((l.length : ℚ) - 1) :=
  ⟨sqrtRounded_exists, by decide +kernel, by decide +kernel⟩

end FinML
