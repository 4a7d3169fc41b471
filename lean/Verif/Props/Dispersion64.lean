/-
C122: second moments of a window in float64: realised volatility, rolling variance, variance ratio and z-score.
-/
import Verif.Model.Float64Dispersion
import Verif.Props.Ohlcv64
import Verif.Props.Ewm64
import Verif.Lemmas.Indicators
import Mathlib.Tactic.Positivity
import Mathlib.Tactic.Linarith
import Mathlib.Tactic.FieldSimp
import Mathlib.Tactic.NormNum
import Mathlib.Algebra.Order.Archimedean.Basic
import Mathlib.Algebra.Order.Group.MinMax

set_option linter.unusedSectionVars false

namespace FinML

/-! ### Sums -/

/-- A sum of `n` numbers of size at most `M` is off by at most `n² M / 2^53`. -/
theorem sum64_near (M : ℚ) (hM0 : 0 ≤ M) : ∀ (l : List ℚ) (_ : l.length ≤ 2 ^ 53) (_ : ∀ x ∈ l, |x| ≤ M),
    |sum64 l - l.sum| ≤ (l.length : ℚ) ^ 2 * M / 2 ^ 53 ∧ |l.sum| ≤ l.length * M := by
  intro l
  induction l using List.reverseRecOn with
  | nil => intro _ _; simp [sum64]
  | append_singleton l a ih =>
    intro hl hx
    rw [List.length_append, List.length_singleton] at hl
    obtain ⟨i1, i2⟩ := ih (by omega) (fun x h => hx x (by simp [h]))
    have ha : |a| ≤ M := hx a (by simp)
    have e : sum64 (l ++ [a]) = f64 (sum64 l + a) := by simp [sum64, List.foldl_append]
    have hs : |l.sum + a| ≤ (l.length + 1) * M := (abs_add_le _ _).trans (by linarith)
    have hq : (l.length : ℚ) + 1 ≤ 2 ^ 53 := by exact_mod_cast hl
    have hn : (0 : ℚ) ≤ l.length := by positivity
    rw [e, List.sum_append, List.sum_singleton, List.length_append, List.length_singleton]
    push_cast
    refine ⟨?_, hs⟩
    have h1 : |sum64 l + a - (l.sum + a)| ≤ (l.length : ℚ) ^ 2 * M / 2 ^ 53 := by
      rw [show sum64 l + a - (l.sum + a) = sum64 l - l.sum by ring]; exact i1
    refine (f64_step h1 hs).trans ?_
    have h2 : (l.length : ℚ) ^ 2 * M / 2 ^ 53 ≤ l.length * M := by
      rw [div_le_iff₀ (by norm_num)]
      have : (l.length : ℚ) * l.length * M ≤ l.length * 2 ^ 53 * M := by gcongr; linarith
      linarith
    have h3 : ((l.length : ℚ) + 1) ^ 2 * M / 2 ^ 53 = (l.length : ℚ) ^ 2 * M / 2 ^ 53 + (((l.length : ℚ) + 1) * M + l.length * M) / 2 ^ 53 := by ring
    rw [h3]
    gcongr

/-! ### Realised volatility -/

/-- **C122.** The mean square of `realized_vol`, before the square root, is relatively accurate without any condition on the returns:
over `n` present returns it is within the factors `(1 ± 2^-53)^(n+2)` of the exact one.  It is missing exactly when the exact one is. -/
theorem C122_realized (r : List (Option ℚ)) (w : Nat) (isSample : Bool) (i : Nat) (hi : i < r.length) :
    ((realizedVars64 r w isSample)[i]? = some none ∧ (realizedVol (fun x => x) r w isSample)[i]? = some none) ∨
    ∃ v V, (realizedVars64 r w isSample)[i]? = some (some v) ∧ (realizedVol (fun x => x) r w isSample)[i]? = some (some V) ∧ 0 ≤ V ∧
      V * (1 - 1 / 2 ^ 53) ^ ((validOf (window r w i)).length + 2) ≤ v ∧
      v ≤ V * (1 + 1 / 2 ^ 53) ^ ((validOf (window r w i)).length + 2) := by
  unfold realizedVars64 realizedVol
  rw [rolling_get? _ _ _ _ hi, rolling_get? _ _ _ _ hi]
  by_cases hw : i + 1 < w
  · left; rw [if_pos hw, if_pos hw]; exact ⟨rfl, rfl⟩
  rw [if_neg hw, if_neg hw]
  unfold realizedVar64 realizedWin
  generalize validOf (window r w i) = l
  simp only
  by_cases hl : l.length > 1
  · right
    rw [if_pos hl, if_pos hl]
    refine ⟨_, _, rfl, rfl, ?_⟩
    have hd : 0 < (if isSample then (l.length : ℚ) - 1 else (l.length : ℚ)) := by
      have : (1 : ℚ) < l.length := by exact_mod_cast hl
      split <;> linarith
    generalize (if isSample then (l.length : ℚ) - 1 else (l.length : ℚ)) = d at hd
    have hb := fold64_bounds (fun x : ℚ => f64 (x * x)) (fun x => x ^ 2) (1 / 2 ^ 53) (1 - 1 / 2 ^ 53) (1 + 1 / 2 ^ 53) rfl
      (by norm_num) (by norm_num) l 0 0 0
      (fun t _ => ⟨sq_nonneg t, by rw [pow_two]; exact f64_factor (mul_self_nonneg t)⟩) le_rfl (by norm_num) (by norm_num)
    rw [zero_add, zero_add] at hb
    have hs : sum64 (l.map (fun x => f64 (x * x))) = l.foldl (fun s t => f64 (s + f64 (t * t))) 0 := by
      unfold sum64; rw [List.foldl_map]
    rw [hs]
    have h0 : 0 ≤ (l.map (fun x => x ^ 2)).sum := List.sum_nonneg (by
      intro x hx; obtain ⟨t, _, rfl⟩ := List.mem_map.mp hx; exact sq_nonneg t)
    generalize (l.map (fun x => x ^ 2)).sum = S at h0 hb
    generalize l.foldl (fun s t => f64 (s + f64 (t * t))) 0 = s at hb
    have hs0 : 0 ≤ s := le_trans (mul_nonneg h0 (mul_nonneg (by norm_num) (pow_nonneg (by norm_num) _))) hb.1
    have hf := f64_factor (div_nonneg hs0 hd.le)
    refine ⟨div_nonneg h0 hd.le, ?_, ?_⟩
    · refine le_trans ?_ hf.1
      have : S / d * (1 - 1 / 2 ^ 53) ^ (l.length + 2) = S * ((1 - 1 / 2 ^ 53) * (1 - 1 / 2 ^ 53) ^ l.length) / d * (1 - 1 / 2 ^ 53) := by
        ring
      rw [this]
      gcongr
      · exact hb.1
    · refine le_trans hf.2 ?_
      have : S / d * (1 + 1 / 2 ^ 53) ^ (l.length + 2) = S * ((1 + 1 / 2 ^ 53) * (1 + 1 / 2 ^ 53) ^ l.length) / d * (1 + 1 / 2 ^ 53) := by
        ring
      rw [this]
      gcongr
      exact hb.2
  · left; rw [if_neg hl, if_neg hl]; exact ⟨rfl, rfl⟩

example : realizedVars64 [some 1, none, some 3, some 1] 2 false = [none, none, none, some 5] := by decide +kernel

/-! ### Rolling variance -/

/-- Mean and mean square of `n` numbers of size at most `M`. -/
theorem moments64_near (l : List ℚ) (M : ℚ) (hM0 : 0 ≤ M) (hl0 : 0 < l.length) (hl : l.length ≤ 2 ^ 40) (hx : ∀ x ∈ l, |x| ≤ M) :
    |l.sum / l.length| ≤ M ∧ |f64 (sum64 l / l.length) - l.sum / l.length| ≤ ((l.length : ℚ) + 2) * M / 2 ^ 53 ∧
    0 ≤ (l.map (fun x => x * x)).sum / l.length ∧ (l.map (fun x => x * x)).sum / l.length ≤ M ^ 2 ∧
    |f64 (sum64 (l.map (fun x => f64 (x * x))) / l.length) - (l.map (fun x => x * x)).sum / l.length| ≤ ((l.length : ℚ) + 4) * M ^ 2 / 2 ^ 53 := by
  have hq : (l.length : ℚ) ≤ 2 ^ 40 := by exact_mod_cast hl
  have hn : (0 : ℚ) < l.length := by exact_mod_cast hl0
  obtain ⟨s1, s2⟩ := sum64_near M hM0 l (by omega) hx
  have hmu : |l.sum / l.length| ≤ M := by
    rw [abs_div, abs_of_pos hn, div_le_iff₀ hn]; linarith
  have hm : |sum64 l / l.length - l.sum / l.length| ≤ (l.length : ℚ) * M / 2 ^ 53 := by
    rw [← sub_div, abs_div, abs_of_pos hn, div_le_iff₀ hn]
    refine s1.trans (le_of_eq ?_); ring
  refine ⟨hmu, ?_, ?_⟩
  · refine (f64_step hm hmu).trans ?_
    have : (l.length : ℚ) * M / 2 ^ 53 ≤ M := by
      rw [div_le_iff₀ (by norm_num)]
      nlinarith
    have e : ((l.length : ℚ) + 2) * M / 2 ^ 53 = l.length * M / 2 ^ 53 + (M + M) / 2 ^ 53 := by ring
    rw [e]; gcongr
  · have hx2 : ∀ x ∈ l, x * x ≤ M ^ 2 := fun x h => by
      have := hx x h
      rw [← abs_mul_abs_self x, pow_two]
      exact mul_self_le_mul_self (abs_nonneg x) this
    have hS0 : 0 ≤ (l.map (fun x => x * x)).sum := List.sum_nonneg (by
      intro x h; obtain ⟨t, _, rfl⟩ := List.mem_map.mp h; exact mul_self_nonneg t)
    have hS1 : (l.map (fun x => x * x)).sum ≤ l.length * M ^ 2 ∧
        |(l.map (fun x => f64 (x * x))).sum - (l.map (fun x => x * x)).sum| ≤ l.length * (M ^ 2 / 2 ^ 53) := by
      clear s1 s2 hmu hm hS0 hl0 hl hq hn hx
      induction l with
      | nil => simp
      | cons a l ih =>
        obtain ⟨i1, i2⟩ := ih (fun x h => hx2 x (by simp [h]))
        have ha := hx2 a (by simp)
        simp only [List.map_cons, List.sum_cons, List.length_cons]
        push_cast
        refine ⟨by linarith, ?_⟩
        have h1 := f64_relErr (a * a)
        rw [abs_of_nonneg (mul_self_nonneg a)] at h1
        have h2 : a * a / 2 ^ 53 ≤ M ^ 2 / 2 ^ 53 := by gcongr
        rw [show f64 (a * a) + (l.map (fun x => f64 (x * x))).sum - (a * a + (l.map (fun x => x * x)).sum) =
          (f64 (a * a) - a * a) + ((l.map (fun x => f64 (x * x))).sum - (l.map (fun x => x * x)).sum) by ring]
        refine (abs_add_le _ _).trans ?_
        linarith
    obtain ⟨t1, -⟩ := sum64_near (M ^ 2 * (1 + 1 / 2 ^ 53)) (by positivity) (l.map (fun x => f64 (x * x))) (by rw [List.length_map]; omega)
      (by
        intro y hy
        obtain ⟨x, h, rfl⟩ := List.mem_map.mp hy
        have h1 := f64_factor (mul_self_nonneg x)
        rw [abs_of_nonneg (f64_nonneg (mul_self_nonneg x))]
        refine h1.2.trans ?_
        gcongr; exact hx2 x h)
    rw [List.length_map] at t1
    have hQ1 : (l.map (fun x => x * x)).sum / l.length ≤ M ^ 2 := by
      rw [div_le_iff₀ hn]; linarith [hS1.1]
    refine ⟨div_nonneg hS0 hn.le, hQ1, ?_⟩
    have hd : |sum64 (l.map (fun x => f64 (x * x))) / l.length - (l.map (fun x => x * x)).sum / l.length| ≤ ((l.length : ℚ) + 2) * M ^ 2 / 2 ^ 53 := by
      rw [← sub_div, abs_div, abs_of_pos hn, div_le_iff₀ hn]
      have := abs_add_le (sum64 (l.map (fun x => f64 (x * x))) - (l.map (fun x => f64 (x * x))).sum)
        ((l.map (fun x => f64 (x * x))).sum - (l.map (fun x => x * x)).sum)
      rw [sub_add_sub_cancel] at this
      refine this.trans ((add_le_add t1 hS1.2).trans ?_)
      have k : (l.length : ℚ) * (1 / 2 ^ 53) ≤ 1 := by linarith
      have k2 : (l.length : ℚ) * (M ^ 2 / 2 ^ 53) * ((l.length : ℚ) * (1 / 2 ^ 53)) ≤ (l.length : ℚ) * (M ^ 2 / 2 ^ 53) * 1 := by gcongr
      have e : (l.length : ℚ) ^ 2 * (M ^ 2 * (1 + 1 / 2 ^ 53)) / 2 ^ 53 + l.length * (M ^ 2 / 2 ^ 53) =
        l.length * (l.length * (M ^ 2 / 2 ^ 53)) + (l.length : ℚ) * (M ^ 2 / 2 ^ 53) * ((l.length : ℚ) * (1 / 2 ^ 53)) + l.length * (M ^ 2 / 2 ^ 53) := by ring
      have e2 : ((l.length : ℚ) + 2) * M ^ 2 / 2 ^ 53 * l.length =
        l.length * (l.length * (M ^ 2 / 2 ^ 53)) + l.length * (M ^ 2 / 2 ^ 53) * 1 + l.length * (M ^ 2 / 2 ^ 53) := by ring
      rw [e, e2]; linarith
    refine (f64_step (B := M ^ 2) hd (by rw [abs_of_nonneg (div_nonneg hS0 hn.le)]; exact hQ1)).trans ?_
    have : ((l.length : ℚ) + 2) * M ^ 2 / 2 ^ 53 ≤ M ^ 2 := by
      rw [div_le_iff₀ (by norm_num)]
      have : 0 ≤ M ^ 2 := by positivity
      nlinarith
    have e : ((l.length : ℚ) + 4) * M ^ 2 / 2 ^ 53 = (l.length + 2) * M ^ 2 / 2 ^ 53 + (M ^ 2 + M ^ 2) / 2 ^ 53 := by ring
    rw [e]; gcongr

/-- The error of the variance from those of the moments. -/
theorem variance64_step (M n R r μ m Q q : ℚ) (hM0 : 0 ≤ M) (hn1 : 1 ≤ n) (hq : n ≤ 2 ^ 40) (hR : 0 < R) (hr : |r - R| ≤ R / 2 ^ 53)
    (hr0 : R * (1 - 1 / 2 ^ 53) ≤ r ∧ r ≤ R * (1 + 1 / 2 ^ 53)) (m1 : |μ| ≤ M) (m2 : |m - μ| ≤ (n + 2) * M / 2 ^ 53)
    (m3 : 0 ≤ Q) (m4 : Q ≤ M ^ 2) (m5 : |q - Q| ≤ (n + 4) * M ^ 2 / 2 ^ 53) :
    |max 0 (f64 (f64 (q - f64 (m * m)) * r)) - max 0 ((Q - μ * μ) * R)| ≤ (6 * n + 17) / 2 ^ 53 * M ^ 2 * R := by
  obtain ⟨u, hu⟩ : ∃ u : ℚ, u = 1 / 2 ^ 53 := ⟨_, rfl⟩
  have hu0 : 0 < u := by rw [hu]; norm_num
  have hnu : n * u ≤ 1 / 8192 := by rw [hu]; linarith
  have hu1 : u ≤ 1 / 8192 := by rw [hu]; norm_num
  have hP : 0 ≤ M ^ 2 := sq_nonneg M
  have step : ∀ {x X e B : ℚ}, |x - X| ≤ e → |X| ≤ B → |f64 x - X| ≤ e + u * (B + e) := by
    intro x X e B a b
    have := f64_step a b
    rw [hu]; linarith
  have m2' : |m - μ| ≤ u * (n + 2) * M := by rw [hu]; linarith
  have m5' : |q - Q| ≤ u * (n + 4) * M ^ 2 := by rw [hu]; linarith
  have hr' : |r - R| ≤ u * R := by rw [hu]; linarith
  -- squared mean
  have a1 : |m * m - μ * μ| ≤ u * (n + 2) * (9 / 4) * M ^ 2 := by
    have e1 : m * m - μ * μ = (m - μ) * (2 * μ + (m - μ)) := by ring
    rw [e1, abs_mul]
    have e2 : |2 * μ + (m - μ)| ≤ 9 / 4 * M := by
      refine (abs_add_le _ _).trans ?_
      rw [abs_mul, abs_of_pos (by norm_num : (0 : ℚ) < 2)]
      have : u * (n + 2) * M ≤ 1 / 4 * M := by
        gcongr; linarith
      linarith
    calc |m - μ| * |2 * μ + (m - μ)| ≤ (u * (n + 2) * M) * (9 / 4 * M) := by gcongr
      _ = _ := by ring
  have a2 : |μ * μ| ≤ M ^ 2 := by
    rw [abs_mul, pow_two]; gcongr
  have a3 : |f64 (m * m) - μ * μ| ≤ u * (5 / 2 * n + 7) * M ^ 2 := by
    refine (step a1 a2).trans ?_
    have : u * (n + 2) * (9 / 4) * M ^ 2 ≤ 1 / 4 * M ^ 2 := by
      gcongr; linarith
    have h : u * (n + 2) * (9 / 4) * M ^ 2 + u * (M ^ 2 + 1 / 4 * M ^ 2) ≤ u * (5 / 2 * n + 7) * M ^ 2 := by
      have : 0 ≤ u * M ^ 2 := by positivity
      have : 0 ≤ u * n * M ^ 2 := by positivity
      linarith
    have : u * (M ^ 2 + u * (n + 2) * (9 / 4) * M ^ 2) ≤ u * (M ^ 2 + 1 / 4 * M ^ 2) := by gcongr
    linarith
  -- difference
  have b1 : |(q - f64 (m * m)) - (Q - μ * μ)| ≤ u * (7 / 2 * n + 11) * M ^ 2 := by
    rw [show (q - f64 (m * m)) - (Q - μ * μ) = (q - Q) + -(f64 (m * m) - μ * μ) by ring]
    refine (abs_add_le _ _).trans ?_
    rw [abs_neg]
    linarith
  have b2 : |Q - μ * μ| ≤ M ^ 2 := by
    have := mul_self_nonneg μ
    rw [abs_of_nonneg this] at a2
    rw [abs_le]; constructor <;> linarith
  have b3 : |f64 (q - f64 (m * m)) - (Q - μ * μ)| ≤ u * (4 * n + 13) * M ^ 2 := by
    refine (step b1 b2).trans ?_
    have : u * (7 / 2 * n + 11) * M ^ 2 ≤ 1 / 4 * M ^ 2 := by
      gcongr; linarith
    have : u * (M ^ 2 + u * (7 / 2 * n + 11) * M ^ 2) ≤ u * (M ^ 2 + 1 / 4 * M ^ 2) := by gcongr
    have : 0 ≤ u * M ^ 2 := by positivity
    have : 0 ≤ u * n * M ^ 2 := by positivity
    linarith
  generalize f64 (q - f64 (m * m)) = d at b3
  generalize Q - μ * μ = D at b1 b2 b3
  -- adjustment
  have c1 : |d * r - D * R| ≤ u * (5 * n + 15) * (M ^ 2 * R) := by
    rw [show d * r - D * R = (d - D) * r + D * (r - R) by ring]
    refine (abs_add_le _ _).trans ?_
    rw [abs_mul, abs_mul]
    have hr1 : |r| ≤ R * (1 + u) := by
      rw [abs_of_nonneg (le_trans (mul_nonneg hR.le (by norm_num)) hr0.1), hu]; exact hr0.2
    have e1 : |d - D| * |r| ≤ (u * (4 * n + 13) * M ^ 2) * (R * (1 + u)) := by gcongr
    have e2 : |D| * |r - R| ≤ M ^ 2 * (u * R) := by gcongr
    have e3 : (u * (4 * n + 13) * M ^ 2) * (R * (1 + u)) = (u * (M ^ 2 * R)) * ((4 * n + 13) * (1 + u)) := by ring
    have e4 : M ^ 2 * (u * R) = u * (M ^ 2 * R) * 1 := by ring
    have e5 : u * (5 * n + 15) * (M ^ 2 * R) = u * (M ^ 2 * R) * (5 * n + 15) := by ring
    have e6 : u * (M ^ 2 * R) * ((4 * n + 13) * (1 + u) + 1) ≤ u * (M ^ 2 * R) * (5 * n + 15) :=
      mul_le_mul_of_nonneg_left (by linarith) (by positivity)
    rw [e3] at e1
    rw [e4] at e2
    rw [mul_add] at e6
    rw [e5]; linarith
  have c2 : |D * R| ≤ M ^ 2 * R := by
    rw [abs_mul, abs_of_pos hR]; gcongr
  have c3 : |f64 (d * r) - D * R| ≤ u * (6 * n + 17) * (M ^ 2 * R) := by
    refine (step c1 c2).trans ?_
    have hPR : 0 ≤ M ^ 2 * R := by positivity
    have : u * (5 * n + 15) * (M ^ 2 * R) ≤ 1 / 4 * (M ^ 2 * R) := by
      gcongr; linarith
    have : u * (M ^ 2 * R + u * (5 * n + 15) * (M ^ 2 * R)) ≤ u * (M ^ 2 * R + 1 / 4 * (M ^ 2 * R)) := by gcongr
    have : 0 ≤ u * (M ^ 2 * R) := by positivity
    have : 0 ≤ u * n * (M ^ 2 * R) := by positivity
    linarith
  have c4 : |max 0 (f64 (d * r)) - max 0 (D * R)| ≤ |f64 (d * r) - D * R| := by
    rw [max_comm 0, max_comm 0]
    exact abs_max_sub_max_le_abs _ _ _
  refine c4.trans (c3.trans (le_of_eq ?_))
  rw [hu]; ring

/-- **C122.** The rolling variance is computed from the mean square minus the squared mean, so its error is only bounded in terms of the
size of the data: for values of size at most `M` and `n` present values in the window it is at most
`(6n+17) · 2^-53 · M² · n/(n-ddof)`.  It is missing exactly when the exact one is. -/
theorem C122_variance (xs : List (Option ℚ)) (w ddof mp : Nat) (M : ℚ) (hM : ∀ x, some x ∈ xs → |x| ≤ M) (i : Nat) (hi : i < xs.length)
    (hw : w ≤ 2 ^ 40) :
    ((rollingVariance64 xs w ddof mp)[i]? = some none ∧ (rollingVariance xs w ddof mp)[i]? = some none) ∨
    ∃ v V n, (rollingVariance64 xs w ddof mp)[i]? = some (some v) ∧ (rollingVariance xs w ddof mp)[i]? = some (some V) ∧
      n = (validOf (window xs w i)).length ∧ ddof < n ∧ 0 ≤ v ∧
      |v - V| ≤ (6 * (n : ℚ) + 17) / 2 ^ 53 * M ^ 2 * (n / (n - ddof)) := by
  unfold rollingVariance64 rollingVariance
  rw [rolling_get? _ _ _ _ hi, rolling_get? _ _ _ _ hi]
  by_cases hwi : i + 1 < w
  · left; rw [if_pos hwi, if_pos hwi]; exact ⟨rfl, rfl⟩
  rw [if_neg hwi, if_neg hwi]
  have hlw : (validOf (window xs w i)).length ≤ w := by
    refine (List.length_filterMap_le _ _).trans ?_
    unfold window
    rw [List.length_take]; omega
  have hlx : ∀ x ∈ validOf (window xs w i), |x| ≤ M := by
    intro x hx
    unfold validOf at hx
    rw [List.mem_filterMap] at hx
    obtain ⟨o, ho, rfl⟩ := hx
    exact hM x (List.mem_of_mem_drop (List.mem_of_mem_take ho))
  unfold varWin64 varWin
  generalize validOf (window xs w i) = l at hlw hlx
  simp only
  by_cases h1 : l.length ≥ mp
  swap
  · left; rw [if_neg h1, if_neg h1]; exact ⟨rfl, rfl⟩
  by_cases h2 : l.length > ddof
  swap
  · left; rw [if_pos h1, if_pos h1, if_neg h2, if_neg h2]; exact ⟨rfl, rfl⟩
  right
  rw [if_pos h1, if_pos h1, if_pos h2, if_pos h2]
  refine ⟨_, _, l.length, rfl, rfl, rfl, h2, le_max_left _ _, ?_⟩
  have hM0 : 0 ≤ M := by
    obtain ⟨a, l', rfl⟩ : ∃ a l', l = a :: l' := by
      cases l with
      | nil => simp at h2
      | cons a l' => exact ⟨a, l', rfl⟩
    exact (abs_nonneg a).trans (hlx a (by simp))
  obtain ⟨m1, m2, m3, m4, m5⟩ := moments64_near l M hM0 (by omega) (by omega) hlx
  have hn1 : (1 : ℚ) ≤ l.length := by exact_mod_cast (by omega : 1 ≤ l.length)
  have hq : (l.length : ℚ) ≤ 2 ^ 40 := by exact_mod_cast (by omega : l.length ≤ 2 ^ 40)
  have hdd : (0 : ℚ) < l.length - ddof := by
    have : (ddof : ℚ) < l.length := by exact_mod_cast h2
    linarith
  have hR : 0 < (l.length : ℚ) / (l.length - ddof) := by positivity
  have hr := f64_relErr ((l.length : ℚ) / (l.length - ddof))
  have hr0 := f64_factor hR.le
  rw [abs_of_pos hR] at hr
  generalize (l.length : ℚ) / (l.length - ddof) = R at hR hr hr0
  generalize f64 R = r at hr hr0
  generalize l.sum / (l.length : ℚ) = μ at m1 m2
  generalize f64 (sum64 l / (l.length : ℚ)) = m at m2
  generalize (l.map (fun x => x * x)).sum / (l.length : ℚ) = Q at m3 m4 m5
  generalize f64 (sum64 (l.map (fun x => f64 (x * x))) / (l.length : ℚ)) = q at m5
  generalize (l.length : ℚ) = n at *
  exact variance64_step M n R r μ m Q q hM0 hn1 hq hR hr hr0 m1 m2 m3 m4 m5

example : (∀ x ∈ ([1, 3, 2] : List ℚ), |x| ≤ 3) ∧ rollingVariance64 [some 1, some 3, some 2] 2 1 2 = [none, some 2, some (1 / 2)] := by decide +kernel

/-- **C122, violation.** A constant series can have a positive rolling variance: three times 0.3.  The exact variance is zero. -/
theorem C122_constant_noise :
    ∃ v, rollingVariance64 (List.replicate 3 (some (f64 (3 / 10)))) 3 1 1 = [none, none, some v] ∧ 0 < v ∧
      rollingVariance (List.replicate 3 (some (f64 (3 / 10)))) 3 1 1 = [none, none, some 0] :=
  ⟨_, rfl, by decide +kernel, by decide +kernel⟩

/-- Prices growing by exactly 1 % per bar, and the same prices as float64 numbers. -/
def growthPrices (n : Nat) : List (Option ℚ) := (List.range n).map (fun k => some (100 * (101 / 100) ^ k))
/-- See `growthPrices`. -/
def growthPrices64 (n : Nat) : List (Option ℚ) := (List.range n).map (fun k => some (f64 (100 * (101 / 100) ^ k)))

/-- **C122, violation.** For prices growing by 1 % per bar the returns do not vary and the variance ratio has no value.  With float64
prices and arithmetic, the ratio of two rounding errors is returned: 0.25, the value the documentation gives for a random walk. -/
theorem C122_ratio_of_noise :
    (varianceRatio (fun x => x) false (growthPrices 9) 3 1).getD 8 none = none ∧
    (varianceRatio64 (growthPrices64 9) 3 1).getD 8 none = some (1 / 4) :=
  ⟨by decide +kernel, by decide +kernel⟩

/-- **C122.** The float64 one-bar return of the variance ratio: missing at the first bar, beside a missing price and after a price not
above zero; otherwise within a relative rounding of the quotient and of the difference of `a / b - 1`. -/
theorem C122_one_bar (price : List (Option ℚ)) (i : Nat) :
    (simpleReturn64 price i = none ↔
      i = 0 ∨ price.getD i none = none ∨ price.getD (i - 1) none = none ∨ ∃ b, price.getD (i - 1) none = some b ∧ b ≤ 0) ∧
    ∀ a b, 0 < i → price.getD i none = some a → price.getD (i - 1) none = some b → 0 < b →
      ∃ y, simpleReturn64 price i = some y ∧ |y - (a / b - 1)| ≤ |a / b| / 2 ^ 53 * (1 + 1 / 2 ^ 53) + |a / b - 1| / 2 ^ 53 := by
  constructor
  · unfold simpleReturn64
    by_cases h0 : i = 0
    · simp [h0]
    rw [if_neg h0]
    cases ha : price.getD i none with
    | none => simp
    | some a =>
      cases hb : price.getD (i - 1) none with
      | none => simp
      | some b =>
        by_cases hz : b ≤ 0
        · simp [hz]
        · simp [h0, hz]
  · intro a b h0 ha hb hz
    refine ⟨_, by simp only [simpleReturn64, ha, hb]; rw [if_neg (by omega), if_neg (not_le.mpr hz)], ?_⟩
    have e1 := f64_relErr (a / b)
    have e2 := f64_relErr (f64 (a / b) - 1)
    have e3 : |f64 (a / b) - 1| ≤ |a / b| / 2 ^ 53 + |a / b - 1| := by
      calc |f64 (a / b) - 1| = |(f64 (a / b) - a / b) + (a / b - 1)| := by ring_nf
        _ ≤ _ := (abs_add_le _ _).trans (by linarith)
    calc |f64 (f64 (a / b) - 1) - (a / b - 1)| = |(f64 (f64 (a / b) - 1) - (f64 (a / b) - 1)) + (f64 (a / b) - a / b)| := by ring_nf
      _ ≤ _ := abs_add_le _ _
      _ ≤ _ := by
        have : |f64 (a / b) - 1| / 2 ^ 53 ≤ (|a / b| / 2 ^ 53 + |a / b - 1|) / 2 ^ 53 := by gcongr
        linarith

example : simpleReturn64 [some 4, some 5, none, some 0, some 7] 1 = some (1 / 4) ∧
    (List.range 5).map (fun i => (simpleReturn64 [some 4, some 5, none, some 0, some 7] i).isSome) = [false, true, false, false, false] := by
  decide +kernel

/-- **C122.** The float64 four-bar return: missing at the first four bars and when one of the last four one-bar returns is missing;
otherwise it differs from their sum by at most `4 / 2 ^ 53` of the sum of their sizes. -/
theorem C122_four_bar (r : List (Option ℚ)) (i : Nat) :
    (fourBar64 r i = none ↔ i < 4 ∨ ∃ k, k < 4 ∧ r.getD (i - k) none = none) ∧
    ∀ a b c d, 4 ≤ i → r.getD i none = some a → r.getD (i - 1) none = some b → r.getD (i - 2) none = some c → r.getD (i - 3) none = some d →
      ∃ y, fourBar64 r i = some y ∧ |y - (a + b + c + d)| ≤ 4 / 2 ^ 53 * (|a| + |b| + |c| + |d|) := by
  constructor
  · unfold fourBar64
    by_cases h0 : i < 4
    · simp [h0]
    rw [if_neg h0]
    have e : (∃ k, k < 4 ∧ r.getD (i - k) none = none) ↔
        (r.getD i none = none ∨ r.getD (i - 1) none = none ∨ r.getD (i - 2) none = none ∨ r.getD (i - 3) none = none) := by
      constructor
      · rintro ⟨k, hk, h⟩
        rcases (by omega : k = 0 ∨ k = 1 ∨ k = 2 ∨ k = 3) with rfl | rfl | rfl | rfl
        · exact Or.inl h
        · exact Or.inr (Or.inl h)
        · exact Or.inr (Or.inr (Or.inl h))
        · exact Or.inr (Or.inr (Or.inr h))
      · rintro (h | h | h | h)
        · exact ⟨0, by norm_num, h⟩
        · exact ⟨1, by norm_num, h⟩
        · exact ⟨2, by norm_num, h⟩
        · exact ⟨3, by norm_num, h⟩
    rw [e]
    cases r.getD i none <;> cases r.getD (i - 1) none <;> cases r.getD (i - 2) none <;> cases r.getD (i - 3) none <;> simp [h0]
  · intro a b c d h4 ha hb hc hd
    refine ⟨_, by simp only [fourBar64, ha, hb, hc, hd]; rw [if_neg (by omega)], ?_⟩
    have e1 := f64_relErr (a + b)
    have e2 := f64_relErr (f64 (a + b) + c)
    have e3 := f64_relErr (f64 (f64 (a + b) + c) + d)
    generalize f64 (a + b) = p at *
    generalize f64 (p + c) = q at *
    generalize f64 (q + d) = y at *
    have p1 : |p| ≤ |a + b| + |a + b| / 2 ^ 53 := by
      calc |p| = |(p - (a + b)) + (a + b)| := by ring_nf
        _ ≤ _ := (abs_add_le _ _).trans (by linarith)
    have p2 : |p + c| ≤ |p| + |c| := abs_add_le _ _
    have q1 : |q| ≤ |p + c| + |p + c| / 2 ^ 53 := by
      calc |q| = |(q - (p + c)) + (p + c)| := by ring_nf
        _ ≤ _ := (abs_add_le _ _).trans (by linarith)
    have q2 : |q + d| ≤ |q| + |d| := abs_add_le _ _
    have ab : |a + b| ≤ |a| + |b| := abs_add_le _ _
    have tot : |y - (a + b + c + d)| ≤ |y - (q + d)| + |q - (p + c)| + |p - (a + b)| := by
      calc |y - (a + b + c + d)| = |(y - (q + d)) + (q - (p + c)) + (p - (a + b))| := by ring_nf
        _ ≤ _ := (abs_add_le _ _).trans (by linarith [abs_add_le (y - (q + d)) (q - (p + c))])
    have n1 := abs_nonneg a
    have n2 := abs_nonneg b
    have n3 := abs_nonneg c
    have n4 := abs_nonneg d
    linarith

example : fourBar64 [none, some (1 / 4), some 2, some (-1), some 3, none, some 1] 4 = some (17 / 4) ∧
    (List.range 7).map (fun i => (fourBar64 [none, some (1 / 4), some 2, some (-1), some 3, none, some 1] i).isSome) =
      [false, false, false, false, true, false, false] := by
  decide +kernel

/-- **C122.** With fewer than `w + 4` prices there is no variance ratio at all, though the windows of the last bars may be filled. -/
theorem C122_ratio_short (price : List (Option ℚ)) (w ddof : Nat) (h : price.length < w + 4) (i : Nat) (hi : i < price.length) :
    (varianceRatio64 price w ddof)[i]? = some none := by
  unfold varianceRatio64
  rw [if_pos h, tabulate_get?, if_pos hi]

example : varianceRatio64 [some 4, some 5, some 4, some 5, some 4, some 5, some 4, some 8] 5 0 = List.replicate 8 none ∧
    ((varianceRatio64 [some 4, some 5, some 4, some 5, some 4, some 5, some 4, some 8] 4 0).getD 7 none).isSome = true := by
  decide +kernel

/-- **C122.** The variance ratio in float64.  Let `r1`, `r4` be the float64 one-bar and four-bar returns, with absolute values at most
`M1` and `M4`.  There is a value exactly when both exact rolling variances of these returns (one valid return is enough, `ddof` taken
into account) exist and the rounded four-bar variance is positive, and then it is the rounded quotient of numbers that close to the two
variances; it is not negative. -/
theorem C122_ratio (price : List (Option ℚ)) (w ddof : Nat) (hw : w ≤ 2 ^ 40) (hn : w + 4 ≤ price.length) (i : Nat) (hi : i < price.length)
    (r1 r4 : List (Option ℚ)) (h1 : r1 = tabulate price.length (simpleReturn64 price)) (h4 : r4 = tabulate price.length (fourBar64 r1))
    (M1 M4 : ℚ) (hM1 : ∀ x, some x ∈ r1 → |x| ≤ M1) (hM4 : ∀ x, some x ∈ r4 → |x| ≤ M4) :
    ((varianceRatio64 price w ddof)[i]? = some none ∧
      ((rollingVariance r1 w ddof 1)[i]? = some none ∨ (rollingVariance r4 w ddof 1)[i]? = some none ∨
        (rollingVariance64 r4 w ddof 1)[i]? = some (some 0))) ∨
    ∃ a b V1 V4 n1 n4 q, (varianceRatio64 price w ddof)[i]? = some (some q) ∧ q = f64 (a / f64 (b / 4)) ∧ 0 ≤ q ∧
      (rollingVariance r1 w ddof 1)[i]? = some (some V1) ∧ (rollingVariance r4 w ddof 1)[i]? = some (some V4) ∧
      n1 = (validOf (window r1 w i)).length ∧ n4 = (validOf (window r4 w i)).length ∧ 0 ≤ a ∧ 0 < b ∧
      |a - V1| ≤ (6 * (n1 : ℚ) + 17) / 2 ^ 53 * M1 ^ 2 * (n1 / (n1 - ddof)) ∧
      |b - V4| ≤ (6 * (n4 : ℚ) + 17) / 2 ^ 53 * M4 ^ 2 * (n4 / (n4 - ddof)) := by
  have l1 : i < r1.length := by rw [h1, length_tabulate]; exact hi
  have l4 : i < r4.length := by rw [h4, length_tabulate]; exact hi
  have e : (varianceRatio64 price w ddof)[i]? =
      some (vrVal64 ((rollingVariance64 r1 w ddof 1).getD i none) ((rollingVariance64 r4 w ddof 1).getD i none)) := by
    unfold varianceRatio64
    rw [if_neg (by omega)]
    simp only
    rw [tabulate_get?, if_pos hi, ← h1, ← h4]
  rw [e]
  have g : ∀ (l : List (Option ℚ)) (v : Option ℚ), l[i]? = some v → l.getD i none = v := by
    intro l v h; rw [List.getD_eq_getElem?_getD, h]; rfl
  rcases C122_variance r1 w ddof 1 M1 hM1 i l1 hw with ⟨a1, a2⟩ | ⟨a, V1, n1, a1, a2, a3, _, a5, a6⟩
  · left
    exact ⟨by rw [g _ _ a1]; rfl, Or.inl a2⟩
  rcases C122_variance r4 w ddof 1 M4 hM4 i l4 hw with ⟨b1, b2⟩ | ⟨b, V4, n4, b1, b2, b3, _, b5, b6⟩
  · left
    exact ⟨by rw [g _ _ a1, g _ _ b1]; rfl, Or.inr (Or.inl b2)⟩
  rw [g _ _ a1, g _ _ b1]
  by_cases hb : 0 < b
  · right
    refine ⟨a, b, V1, V4, n1, n4, _, by simp only [vrVal64]; rw [if_pos hb], rfl, ?_, a2, b2, a3, b3, a5, hb, a6, b6⟩
    exact f64_nonneg (div_nonneg a5 (f64_nonneg (by linarith)))
  · left
    have : b = 0 := le_antisymm (not_lt.mp hb) b5
    refine ⟨by simp only [vrVal64]; rw [if_neg hb], Or.inr (Or.inr ?_)⟩
    rw [b1, this]

example : ((varianceRatio64 [some 4, some 5, some 4, some 5, some 4, some 5, some 4, some 8] 2 0).getD 7 none).any (fun q => decide (0 < q)) = true ∧
    (varianceRatio64 [some 4, some 5, some 4, some 5, some 4, some 5, some 4, some 8] 2 0)[4]? = some none :=
  ⟨by decide +kernel, by decide +kernel⟩

/-! ### The z-score -/

/-- A square root with the accuracy of a correctly rounded one. -/
def SqrtRounded (s : ℚ → ℚ) : Prop :=
  ∀ x, 0 ≤ x → 0 ≤ s x ∧ x * (1 - 1 / 2 ^ 53) ^ 2 ≤ s x ^ 2 ∧ s x ^ 2 ≤ x * (1 + 1 / 2 ^ 53) ^ 2

/-- There is such a square root. -/
theorem sqrtRounded_exists : ∃ s, SqrtRounded s := by
  have h : ∀ x : ℚ, ∃ r : ℚ, 0 ≤ x → 0 ≤ r ∧ x * (1 - 1 / 2 ^ 53) ^ 2 ≤ r ^ 2 ∧ r ^ 2 ≤ x * (1 + 1 / 2 ^ 53) ^ 2 := by
    intro x
    by_cases hx : 0 < x
    · obtain ⟨q, hq0, hq1, hq2⟩ := exists_rat_pow_btwn (K := ℚ) (n := 2) (by norm_num)
        (show x * (1 - 1 / 2 ^ 53) ^ 2 < x * (1 + 1 / 2 ^ 53) ^ 2 by gcongr; norm_num) (by positivity)
      exact ⟨q, fun _ => ⟨hq0.le, by simpa using hq1.le, by simpa using hq2.le⟩⟩
    · exact ⟨0, fun h => by rw [le_antisymm (not_lt.mp hx) h]; norm_num⟩
  choose s hs using h
  exact ⟨s, fun x hx => hs x hx⟩

/-- **C122.** The squared z-score stays below `n - ddof` up to the factor `(1+u)² / (1-u)⁴`, `u = 2^-53`, whatever the data: the rounded
sum of squares contains the rounded square of the last deviation. -/
theorem C122_zscore_bound (s : ℚ → ℚ) (hs : SqrtRounded s) (l : List ℚ) (ddof : Nat) (hd : ddof < l.length) (z : ℚ)
    (h : zscoreWin64 s ddof l = some z) :
    z ^ 2 * (1 - 1 / 2 ^ 53) ^ 4 ≤ ((l.length : ℚ) - ddof) * (1 + 1 / 2 ^ 53) ^ 2 := by
  unfold zscoreWin64 at h
  simp only at h
  split at h
  swap
  · cases h
  rename_i hne
  injection h with h
  have hdd : (0 : ℚ) < l.length - ddof := by
    have : (ddof : ℚ) < l.length := by exact_mod_cast hd
    linarith
  unfold zVar64 at hne h
  simp only at hne h
  generalize f64 (sum64 l / (l.length : ℚ)) = m at hne h
  have hmem : l.getLastD 0 ∈ l := by
    have hl : l ≠ [] := by rintro rfl; simp at hd
    rw [List.getLastD_eq_getLast?, List.getLast?_eq_some_getLast hl]
    exact List.getLast_mem hl
  have hge := C88_volume_ge_trade (l.map (fun x => f64 (f64 (x - m) * f64 (x - m))))
    (by intro v hv; obtain ⟨t, _, rfl⟩ := List.mem_map.mp hv; exact ⟨f64_nonneg (mul_self_nonneg _), f64_idem _⟩)
    _ (List.mem_map_of_mem (f := fun x => f64 (f64 (x - m) * f64 (x - m))) hmem)
  generalize sum64 (l.map (fun x => f64 (f64 (x - m) * f64 (x - m)))) = S at hne h hge
  generalize f64 (l.getLastD 0 - m) = d at h hge
  generalize (l.length : ℚ) - ddof = N at hne h hdd
  have k1 := f64_factor (mul_self_nonneg d)
  have hS0 : 0 ≤ S := (f64_nonneg (mul_self_nonneg d)).trans hge
  have k2 := f64_factor (div_nonneg hS0 hdd.le)
  obtain ⟨q0, q1, q2⟩ := hs (f64 (S / N)) (f64_nonneg (div_nonneg hS0 hdd.le))
  generalize f64 (S / N) = v at *
  generalize s v = t at *
  have ht : 0 < t := lt_of_le_of_ne q0 (Ne.symm hne)
  have k3 := f64_relErr (d / t)
  rw [h] at k3
  obtain ⟨u, hu⟩ : ∃ u : ℚ, u = 1 / 2 ^ 53 := ⟨_, rfl⟩
  have hu0 : 0 ≤ u := by rw [hu]; norm_num
  have hu1 : u < 1 := by rw [hu]; norm_num
  rw [← hu] at k1 k2 q1 q2 ⊢
  have z1 : |z| ≤ |d / t| * (1 + u) := by
    have := abs_add_le (z - d / t) (d / t)
    rw [sub_add_cancel] at this
    have e : |d / t| / 2 ^ 53 = |d / t| * u := by rw [hu]; ring
    rw [e] at k3
    linarith
  have z2 : z ^ 2 ≤ (d / t) ^ 2 * (1 + u) ^ 2 := by
    rw [← sq_abs z, ← sq_abs (d / t), ← mul_pow]
    exact pow_le_pow_left₀ (abs_nonneg _) z1 2
  have t1 : d ^ 2 * (1 - u) ^ 4 ≤ N * t ^ 2 := by
    have a1 : d ^ 2 * (1 - u) ≤ S := by rw [pow_two]; exact k1.1.trans hge
    have a2 : S * (1 - u) ≤ N * v := by
      have : S / N * (1 - u) * N = S * (1 - u) := by field_simp
      rw [← this, mul_comm N v]
      exact mul_le_mul_of_nonneg_right k2.1 hdd.le
    calc d ^ 2 * (1 - u) ^ 4 = d ^ 2 * (1 - u) * (1 - u) * (1 - u) ^ 2 := by ring
      _ ≤ S * (1 - u) * (1 - u) ^ 2 := by
          have : 0 ≤ 1 - u := by linarith
          gcongr
      _ ≤ N * v * (1 - u) ^ 2 := by gcongr
      _ = N * (v * (1 - u) ^ 2) := by ring
      _ ≤ N * t ^ 2 := by gcongr
  calc z ^ 2 * (1 - u) ^ 4 ≤ (d / t) ^ 2 * (1 + u) ^ 2 * (1 - u) ^ 4 := by gcongr
    _ = (d ^ 2 * (1 - u) ^ 4) / t ^ 2 * (1 + u) ^ 2 := by field_simp
    _ ≤ (N * t ^ 2) / t ^ 2 * (1 + u) ^ 2 := by gcongr
    _ = N * (1 + u) ^ 2 := by field_simp

example : (∃ s, SqrtRounded s) ∧ 1 < ([0, 2, 4] : List ℚ).length ∧ zscoreWin64 (fun x => if x = 4 then 2 else 0) 1 [0, 2, 4] = some 1 :=
  ⟨sqrtRounded_exists, by decide, by decide +kernel⟩

/-- The sum of squares around any number, in terms of that around the mean. -/
theorem sum_sq_shift (l : List ℚ) (hl : 0 < l.length) (m : ℚ) :
    (l.map (fun x => (x - m) ^ 2)).sum = (l.map (fun x => (x - l.sum / l.length) ^ 2)).sum + l.length * (l.sum / l.length - m) ^ 2 := by
  have e : ∀ (t : List ℚ) (c : ℚ), (t.map (fun x => (x - c) ^ 2)).sum = (t.map (fun x => x ^ 2)).sum - 2 * c * t.sum + t.length * c ^ 2 := by
    intro t c
    induction t with
    | nil => simp
    | cons a t ih => simp only [List.map_cons, List.sum_cons, ih, List.length_cons]; push_cast; ring
  have hn : (l.length : ℚ) ≠ 0 := by positivity
  rw [e, e]
  field_simp
  ring

/-- **C122.** The variance of the z-score goes around the computed mean, so it is relatively accurate up to the square of the error of
that mean: for values of size at most `M`, within `(1 ± 2^-53)^(n+4)` of a number between the exact variance `V` and
`V + n/(n-ddof) · ((n+2) · 2^-53 · M)²`. -/
theorem C122_zscore_variance (l : List ℚ) (ddof : Nat) (hd : ddof < l.length) (hl : l.length ≤ 2 ^ 40) (M : ℚ) (hM : ∀ x ∈ l, |x| ≤ M) :
    let V := (l.map (fun x => (x - l.sum / l.length) ^ 2)).sum / ((l.length : ℚ) - ddof)
    V * (1 - 1 / 2 ^ 53) ^ (l.length + 4) ≤ zVar64 l ddof ∧
    zVar64 l ddof ≤ (V + l.length / ((l.length : ℚ) - ddof) * (((l.length : ℚ) + 2) * M / 2 ^ 53) ^ 2) * (1 + 1 / 2 ^ 53) ^ (l.length + 4) := by
  intro V
  have hl0 : 0 < l.length := by omega
  have hn : (0 : ℚ) < l.length := by exact_mod_cast hl0
  have hM0 : 0 ≤ M := (abs_nonneg _).trans (hM _ (List.getElem_mem hl0))
  have hdd : (0 : ℚ) < l.length - ddof := by
    have : (ddof : ℚ) < l.length := by exact_mod_cast hd
    linarith
  obtain ⟨-, m2, -⟩ := moments64_near l M hM0 hl0 hl hM
  have hshift := sum_sq_shift l hl0 (f64 (sum64 l / l.length))
  unfold zVar64
  simp only
  generalize f64 (sum64 l / (l.length : ℚ)) = m at m2 hshift
  obtain ⟨u, hu⟩ : ∃ u : ℚ, u = 1 / 2 ^ 53 := ⟨_, rfl⟩
  have hu0 : 0 ≤ u := by rw [hu]; norm_num
  have hu1 : 0 ≤ 1 - u := by rw [hu]; norm_num
  have hterm : ∀ t ∈ l, 0 ≤ (t - m) ^ 2 ∧ (t - m) ^ 2 * (1 - u) ^ 3 ≤ f64 (f64 (t - m) * f64 (t - m)) ∧
      f64 (f64 (t - m) * f64 (t - m)) ≤ (t - m) ^ 2 * (1 + u) ^ 3 := by
    intro t _
    have k1 := f64_factor (mul_self_nonneg (f64 (t - m)))
    have k2 : |t - m| * (1 - u) ≤ |f64 (t - m)| ∧ |f64 (t - m)| ≤ |t - m| * (1 + u) := by
      have r := f64_relErr (t - m)
      have e : |t - m| / 2 ^ 53 = |t - m| * u := by rw [hu]; ring
      rw [e] at r
      have r1 := abs_add_le (f64 (t - m) - (t - m)) (t - m)
      rw [sub_add_cancel] at r1
      have r2 := abs_sub_abs_le_abs_sub (t - m) (f64 (t - m))
      rw [abs_sub_comm (t - m) (f64 (t - m))] at r2
      constructor <;> linarith
    rw [← hu, ← abs_mul_abs_self (f64 (t - m))] at k1
    rw [← abs_mul_abs_self (f64 (t - m)), ← sq_abs (t - m)]
    have h0 := abs_nonneg (t - m)
    generalize |t - m| = a at *
    generalize |f64 (t - m)| = b at *
    have ha : 0 ≤ a * (1 - u) := mul_nonneg h0 hu1
    refine ⟨sq_nonneg a, ?_, ?_⟩
    · calc a ^ 2 * (1 - u) ^ 3 = (a * (1 - u)) * (a * (1 - u)) * (1 - u) := by ring
        _ ≤ b * b * (1 - u) := by gcongr <;> first | exact k2.1 | exact ha.trans k2.1
        _ ≤ _ := k1.1
    · calc f64 (b * b) ≤ b * b * (1 + u) := k1.2
        _ ≤ (a * (1 + u)) * (a * (1 + u)) * (1 + u) := by gcongr <;> first | exact k2.2 | exact ha.trans k2.1
        _ = _ := by ring
  have hb := fold64_bounds (fun x : ℚ => f64 (f64 (x - m) * f64 (x - m))) (fun x => (x - m) ^ 2) u ((1 - u) ^ 3) ((1 + u) ^ 3) hu
      (pow_nonneg hu1 _) (by positivity) l 0 0 0 hterm le_rfl (by norm_num) (by norm_num)
  rw [zero_add, zero_add, hshift] at hb
  have hs : sum64 (l.map (fun x => f64 (f64 (x - m) * f64 (x - m)))) = l.foldl (fun s x => f64 (s + f64 (f64 (x - m) * f64 (x - m)))) 0 := by
    unfold sum64; rw [List.foldl_map]
  rw [hs]
  have hS0 : 0 ≤ (l.map (fun x => (x - l.sum / l.length) ^ 2)).sum := List.sum_nonneg (by
    intro x h; obtain ⟨t, _, rfl⟩ := List.mem_map.mp h; exact sq_nonneg _)
  have hm2 : (l.sum / l.length - m) ^ 2 ≤ (((l.length : ℚ) + 2) * M / 2 ^ 53) ^ 2 := by
    rw [← sq_abs (l.sum / l.length - m), abs_sub_comm]
    exact pow_le_pow_left₀ (abs_nonneg _) m2 2
  have hm0 := sq_nonneg (l.sum / l.length - m)
  generalize l.foldl (fun s x => f64 (s + f64 (f64 (x - m) * f64 (x - m)))) 0 = s at hb
  have hVe : V = (l.map (fun x => (x - l.sum / l.length) ^ 2)).sum / ((l.length : ℚ) - ddof) := rfl
  generalize V = V' at *
  generalize (l.map (fun x => (x - l.sum / l.length) ^ 2)).sum = S at *
  generalize (l.sum / l.length - m) ^ 2 = E at *
  generalize ((l.length : ℚ) + 2) * M / 2 ^ 53 = B at *
  generalize (l.length : ℚ) - ddof = N at *
  have hs0 : 0 ≤ s := le_trans (mul_nonneg (by positivity) (mul_nonneg (pow_nonneg hu1 _) (pow_nonneg hu1 _))) hb.1
  have hf := f64_factor (div_nonneg hs0 hdd.le)
  rw [← hu] at hf ⊢
  rw [hVe]
  constructor
  · calc S / N * (1 - u) ^ (l.length + 4) = (S * ((1 - u) ^ 3 * (1 - u) ^ l.length)) / N * (1 - u) := by ring
      _ ≤ ((S + l.length * E) * ((1 - u) ^ 3 * (1 - u) ^ l.length)) / N * (1 - u) := by
          have := pow_nonneg hu1 3
          have := pow_nonneg hu1 l.length
          have : 0 ≤ (l.length : ℚ) * E := by positivity
          gcongr
          linarith
      _ ≤ s / N * (1 - u) := by gcongr; exact hb.1
      _ ≤ _ := hf.1
  · calc f64 (s / N) ≤ s / N * (1 + u) := hf.2
      _ ≤ ((S + l.length * E) * ((1 + u) ^ 3 * (1 + u) ^ l.length)) / N * (1 + u) := by gcongr; exact hb.2
      _ ≤ ((S + l.length * B ^ 2) * ((1 + u) ^ 3 * (1 + u) ^ l.length)) / N * (1 + u) := by gcongr
      _ = _ := by ring

/-! ### Non-vacuity -/

/-- The mean square of two returns with a missing one between them. -/
example : realizedVars64 [some (1 / 2), none, some 1] 3 false = [none, none, some (5 / 8)] ∧
    realizedVol (fun x => x) [some (1 / 2 : ℚ), none, some 1] 3 false = [none, none, some (5 / 8)] := by decide +kernel

/-- A variance that is computed exactly. -/
example : rollingVariance64 [some 1, none, some 3] 3 1 1 = [none, none, some 2] := by decide +kernel

/-- A z-score, with the square root of one number given. -/
example : zscoreWin64 (fun x => if x = 4 then 2 else 0) 1 [0, 2, 4] = some 1 := by decide +kernel

/-- **C122.** The z-score column: nothing before the window is full, then the score of the last `w` values, whose square exceeds `w - ddof` by roundings only. -/
theorem C122_zscore_column (s : ℚ → ℚ) (hs : SqrtRounded s) (xs : List ℚ) (w ddof : Nat) (hd : ddof < w) (i : Nat) (hi : i < xs.length) :
    (i + 1 < w → (zscore64 s xs w ddof)[i]? = some none) ∧
    (w ≤ i + 1 → (zscore64 s xs w ddof)[i]? = some (zscoreWin64 s ddof (window xs w i)) ∧
      ∀ z, (zscore64 s xs w ddof)[i]? = some (some z) → z ^ 2 * (1 - 1 / 2 ^ 53) ^ 4 ≤ ((w : ℚ) - ddof) * (1 + 1 / 2 ^ 53) ^ 2) := by
  have e : (zscore64 s xs w ddof)[i]? = some (if i + 1 < w then none else zscoreWin64 s ddof (window xs w i)) := rolling_get? _ _ _ _ hi
  rw [e]
  constructor
  · intro h; rw [if_pos h]
  · intro h
    rw [if_neg (by omega)]
    refine ⟨rfl, fun z hz => ?_⟩
    have hl := window_length xs w i hi h
    have := C122_zscore_bound s hs (window xs w i) ddof (by rw [hl]; exact hd) z (Option.some.inj hz)
    rwa [hl] at this

example : zscore64 (fun v => if v = 4 then 2 else v) [0, 2, 4, 4] 3 1 = [none, none, some 1, some (4503599627370495 / 9007199254740992)] := by decide +kernel

end FinML
