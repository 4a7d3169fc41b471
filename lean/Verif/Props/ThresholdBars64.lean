/-
C89: volume and dollar bars with float64 accumulators.
-/
import Verif.Props.Ohlcv64
import Verif.Props.ThresholdBars

set_option linter.unusedSectionVars false

namespace FinML

/-! ### Volume bars -/

/-- `NearCrossings T v s lo c`: like `FirstCrossings`, with the sum of a segment of `n` trades known up to factors
`(1 + u)^n` and `(1 - u)^n`, `u = 2^-53`. -/
def NearCrossings (T : ℚ) (v : List ℚ) : (s lo : Nat) → List Nat → Prop
  | s, lo, [] => ∀ j, lo ≤ j → j < v.length → rangeSum v s (j + 1) * (1 - 1 / 2 ^ 53) ^ (j + 1 - s) < T
  | s, lo, c :: cs =>
    lo ≤ c ∧ c < v.length ∧ T ≤ rangeSum v s (c + 1) * (1 + 1 / 2 ^ 53) ^ (c + 1 - s) ∧
    (∀ j, lo ≤ j → j < c → rangeSum v s (j + 1) * (1 - 1 / 2 ^ 53) ^ (j + 1 - s) < T) ∧
    NearCrossings T v (c + 1) (c + 1) cs

theorem volumeLoop64_near (T : ℚ) (v : List ℚ) (hv : ∀ x ∈ v, 0 ≤ x) (s i : Nat) (hsi : s ≤ i) (cum : ℚ)
    (hc1 : rangeSum v s i * (1 - 1 / 2 ^ 53) ^ (i - s) ≤ cum) (hc2 : cum ≤ rangeSum v s i * (1 + 1 / 2 ^ 53) ^ (i - s))
    (lo : Nat) (hlo : lo ≤ i) (hbelow : ∀ j, lo ≤ j → j < i → rangeSum v s (j + 1) * (1 - 1 / 2 ^ 53) ^ (j + 1 - s) < T) :
    NearCrossings T v s lo (volumeLoop64 T i cum (v.drop i)) := by
  induction hn : v.length - i generalizing s i cum lo with
  | zero =>
    rw [List.drop_eq_nil_of_le (by omega)]
    simp only [volumeLoop64, NearCrossings]
    intro j h1 h2
    exact hbelow j h1 (by omega)
  | succ n ih =>
    have hi : i < v.length := by omega
    rw [List.drop_eq_getElem_cons hi]
    simp only [volumeLoop64]
    have hs := rangeSum_succ v s i hsi hi
    have hS : 0 ≤ rangeSum v s i := rangeSum_nonneg v hv s i
    have hx : 0 ≤ v[i] := hv _ (List.getElem_mem hi)
    have hpow : i + 1 - s = (i - s) + 1 := by omega
    have hcum0 : 0 ≤ cum := le_trans (mul_nonneg hS (pow_nonneg (by norm_num) _)) hc1
    have hf := f64_factor (add_nonneg hcum0 hx)
    have b1 : rangeSum v s (i + 1) * (1 - 1 / 2 ^ 53) ^ (i + 1 - s) ≤ f64 (cum + v[i]) := by
      refine le_trans ?_ hf.1
      rw [hs, hpow, pow_succ (1 - 1 / 2 ^ 53 : ℚ), ← mul_assoc]
      apply mul_le_mul_of_nonneg_right _ (by norm_num)
      have : v[i] * (1 - 1 / 2 ^ 53) ^ (i - s) ≤ v[i] :=
        mul_le_of_le_one_right hx (pow_le_one₀ (by norm_num) (by norm_num))
      linarith [add_mul (rangeSum v s i) v[i] ((1 - 1 / 2 ^ 53 : ℚ) ^ (i - s))]
    have b2 : f64 (cum + v[i]) ≤ rangeSum v s (i + 1) * (1 + 1 / 2 ^ 53) ^ (i + 1 - s) := by
      refine le_trans hf.2 ?_
      rw [hs, hpow, pow_succ (1 + 1 / 2 ^ 53 : ℚ), ← mul_assoc]
      apply mul_le_mul_of_nonneg_right _ (by norm_num)
      have : v[i] ≤ v[i] * (1 + 1 / 2 ^ 53) ^ (i - s) :=
        le_mul_of_one_le_right hx (one_le_pow₀ (by norm_num))
      linarith [add_mul (rangeSum v s i) v[i] ((1 + 1 / 2 ^ 53 : ℚ) ^ (i - s))]
    split
    · rename_i h
      refine ⟨hlo, hi, le_trans h b2, hbelow, ?_⟩
      exact ih (i+1) (i+1) (le_refl _) 0 (by rw [rangeSum_self]; simp) (by rw [rangeSum_self]; simp) (i+1) (le_refl _)
        (by intro j h1 h2; omega) (by omega)
    · rename_i h
      refine ih s (i+1) (by omega) _ b1 b2 lo (by omega) ?_ (by omega)
      intro j h1 h2
      rcases Nat.lt_or_ge j i with h3 | h3
      · exact hbelow j h1 h3
      · have : j = i := by omega
        subst this
        exact lt_of_le_of_lt b1 (not_le.mp h)

/-- **C89.** Float64 volume bars: every close has a bar volume that reaches the threshold, and no earlier trade of the bar does, up
to one rounding per trade of that bar. -/
theorem C89_volume_bars (v : List ℚ) (hne : v ≠ []) (hv : ∀ x ∈ v, 0 ≤ x) (T : ℚ) :
    ∃ cs, volumeBarIndexer64 v T = 0 :: cs ∧ NearCrossings T v 0 1 cs := by
  refine ⟨_, rfl, ?_⟩
  rw [← List.drop_one]
  have hpos := List.length_pos_iff.mpr hne
  have h0 : v.headD 0 = rangeSum v 0 1 := by
    rw [rangeSum_succ v 0 0 (le_refl _) hpos, rangeSum_self, zero_add]
    cases v with
    | nil => exact absurd rfl hne
    | cons a l => rfl
  have hS : 0 ≤ rangeSum v 0 1 := rangeSum_nonneg v hv 0 1
  refine volumeLoop64_near T v hv 0 1 (by omega) _ ?_ ?_ 1 (le_refl _) (by intro j h1 h2; omega)
  · rw [h0]
    exact mul_le_of_le_one_right hS (pow_le_one₀ (by norm_num) (by norm_num))
  · rw [h0]
    exact le_mul_of_one_le_right hS (one_le_pow₀ (by norm_num))

example : (∀ x ∈ ([1, 2, 3, 4, 1] : List ℚ), 0 ≤ x) ∧ volumeBarIndexer64 [1, 2, 3, 4, 1] 5 = [0, 2, 4] := by decide +kernel

/-- **C89.** Volumes that are multiples of a power of two with a total of at most `2^53` of them give the exact bars. -/
theorem C89_volume_exact (zs : List Int) (k : Int) (hz : ∀ z ∈ zs, 0 ≤ z) (hs : zs.sum ≤ 2 ^ 53) (T : ℚ) :
    volumeBarIndexer64 (zs.map (fun z : Int => (z : ℚ) * 2 ^ k)) T = volumeBarIndexer (zs.map (fun z : Int => (z : ℚ) * 2 ^ k)) T := by
  have key : ∀ (l : List Int) (i : Nat) (s : Int), (∀ z ∈ l, 0 ≤ z) → 0 ≤ s → s + l.sum ≤ 2 ^ 53 →
      volumeLoop64 T i ((s : ℚ) * 2 ^ k) (l.map (fun z : Int => (z : ℚ) * 2 ^ k))
        = volumeLoop T i ((s : ℚ) * 2 ^ k) (l.map (fun z : Int => (z : ℚ) * 2 ^ k)) := by
    intro l
    induction l with
    | nil => intro i s _ _ _; rfl
    | cons a l ih =>
      intro i s hl h0 hb
      rw [List.sum_cons] at hb
      have ha := hl a (by simp)
      have hln : 0 ≤ l.sum := List.sum_nonneg (fun z hz => hl z (by simp [hz]))
      have e : (s : ℚ) * 2 ^ k + (a : ℚ) * 2 ^ k = ((s + a : Int) : ℚ) * 2 ^ k := by push_cast; ring
      have hx : f64 (((s + a : Int) : ℚ) * 2 ^ k) = ((s + a : Int) : ℚ) * 2 ^ k :=
        rndBits_exact 53 (by norm_num) (s + a) k (by rw [abs_of_nonneg (by omega)]; omega)
      have i1 := ih (i + 1) (s + a) (fun z hz => hl z (by simp [hz])) (by omega) (by omega)
      have i2 := ih (i + 1) 0 (fun z hz => hl z (by simp [hz])) (by omega) (by omega)
      rw [Int.cast_zero, zero_mul] at i2
      simp only [List.map_cons, volumeLoop64, volumeLoop]
      rw [e, hx, i1, i2]
  unfold volumeBarIndexer64 volumeBarIndexer
  congr 1
  cases zs with
  | nil => rfl
  | cons a l =>
    simp only [List.map_cons, List.headD_cons, List.tail_cons]
    rw [List.sum_cons] at hs
    exact key l 1 a (fun z hz' => hz z (by simp [hz'])) (hz a (by simp)) hs

example : (∀ z ∈ ([1, 2, 3] : List Int), 0 ≤ z) ∧ ([1, 2, 3] : List Int).sum ≤ 2 ^ 53 ∧ volumeBarIndexer64 [1 / 2, 1, 3 / 2] (5 / 2) = [0, 2] := by
  decide +kernel

/-- Violation of the exact rule: ten trades of 0.1 with threshold 1.  The float64 numbers sum to more than 1, the accumulator
stays below, and no bar is closed at trade 9. -/
theorem C89_tenths_late :
    (1 : ℚ) ≤ (List.replicate 10 (f64 (1 / 10))).sum ∧
    volumeBarIndexer64 (List.replicate 11 (f64 (1 / 10))) 1 = [0, 10] ∧
    volumeBarIndexer (List.replicate 11 (f64 (1 / 10))) (1 : ℚ) = [0, 9] := by
  refine ⟨by decide +kernel, by decide +kernel, by decide +kernel⟩

/-! ### Dollar bars -/

theorem abs_err (x : ℚ) (B : ℚ) (h0 : 0 ≤ x) (h : x ≤ B) : |f64 x - x| ≤ B / 2 ^ 53 := by
  refine (f64_relErr x).trans ?_
  rw [abs_of_nonneg h0]
  exact div_le_div_of_nonneg_right h (by positivity)

theorem f64_two_mul {T : ℚ} (h : f64 T = T) : f64 (2 * T) = 2 * T := by
  have hpos : ∀ T : ℚ, 0 < T → f64 T = T → f64 (2 * T) = 2 * T := by
    intro T hT h
    obtain ⟨a, b⟩ := log2_bounds T hT
    have ha2 : (2 : ℚ) ^ (Int.log 2 T + 1) ≤ 2 * T := by rw [zpow_add₀ (by norm_num), zpow_one]; linarith
    have hb2 : 2 * T < (2 : ℚ) ^ (Int.log 2 T + 1 + 1) := by rw [zpow_add₀ (by norm_num) _ 1, zpow_one]; linarith
    unfold f64 at h ⊢
    rw [rndBits_binade 53 T _ a b] at h
    rw [rndBits_binade 53 (2 * T) _ ha2 hb2]
    unfold rndAt at h ⊢
    have e : Int.log 2 T + 1 - (((53 : Nat) : Int) - 1) = (Int.log 2 T - (((53 : Nat) : Int) - 1)) + 1 := by ring
    rw [e, zpow_add₀ (by norm_num), zpow_one]
    generalize (2 : ℚ) ^ (Int.log 2 T - (((53 : Nat) : Int) - 1)) = P at *
    have e2 : 2 * T / (P * 2) = T / P := by
      by_cases hP : P = 0
      · simp [hP]
      · field_simp
    rw [e2, ← mul_assoc, h]
    ring
  rcases lt_trichotomy T 0 with hT | hT | hT
  · have := hpos (-T) (by linarith) (by rw [f64_neg, h])
    have e : 2 * -T = -(2 * T) := by ring
    rw [e, f64_neg] at this
    linarith
  · subst hT; simp [f64_zero]
  · exact hpos T hT h

/-- The accumulator stays in `[0, T]`, and the values closed and carried add up to the dollars traded up to `4 n u T`. -/
theorem dollarLoop64_conserves (T : ℚ) (hT : 0 < T) (hTf : f64 T = T) :
    ∀ (l : List (ℚ × ℚ)) (i : Nat) (cum : ℚ), (∀ t ∈ l, 0 ≤ t.1 * t.2 ∧ t.1 * t.2 ≤ T) → 0 ≤ cum → cum ≤ T →
      0 ≤ (dollarLoop64 T i cum l).2 ∧ (dollarLoop64 T i cum l).2 ≤ T ∧
      |(dollarLoop64 T i cum l).2 + ((dollarLoop64 T i cum l).1.length : ℚ) * T - (cum + (l.map (fun t => t.1 * t.2)).sum)|
        ≤ (l.length : ℚ) * (4 * T / 2 ^ 53)
  | [], i, cum, _, h0, h1 => by
    simp [dollarLoop64, h0, h1]
  | (p, v) :: l, i, cum, hl, h0, h1 => by
    obtain ⟨x0, x1⟩ := hl (p, v) (by simp)
    dsimp only at x0 x1
    have hl' : ∀ t ∈ l, 0 ≤ t.1 * t.2 ∧ t.1 * t.2 ≤ T := fun t ht => hl t (by simp [ht])
    have y0 : 0 ≤ f64 (p * v) := f64_nonneg x0
    have y1 : f64 (p * v) ≤ T := by
      have := f64_mono x1
      rwa [hTf] at this
    have ey := abs_err _ T x0 x1
    have z0 : 0 ≤ f64 (cum + f64 (p * v)) := f64_nonneg (by linarith)
    have z1 : f64 (cum + f64 (p * v)) ≤ 2 * T := by
      have := f64_mono (show cum + f64 (p * v) ≤ 2 * T by linarith)
      rwa [f64_two_mul hTf] at this
    have ez := abs_err (cum + f64 (p * v)) (2 * T) (by linarith) (by linarith)
    simp only [dollarLoop64, List.map_cons, List.sum_cons, List.length_cons]
    generalize f64 (cum + f64 (p * v)) = c at *
    generalize f64 (p * v) = y at *
    split
    · rename_i hge
      have w0 : 0 ≤ f64 (c - T) := f64_nonneg (by linarith)
      have w1 : f64 (c - T) ≤ T := by
        have := f64_mono (show c - T ≤ T by linarith)
        rwa [hTf] at this
      have ew := abs_err (c - T) T (by linarith) (by linarith)
      obtain ⟨i0, i1, i2⟩ := dollarLoop64_conserves T hT hTf l (i + 1) (f64 (c - T)) hl' w0 w1
      refine ⟨i0, i1, ?_⟩
      generalize f64 (c - T) = d at *
      generalize dollarLoop64 T (i + 1) d l = r at *
      rw [List.length_cons]
      push_cast
      rw [abs_le] at ey ez ew i2 ⊢
      have e4 : ((l.length : ℚ) + 1) * (4 * T / 2 ^ 53) = (l.length : ℚ) * (4 * T / 2 ^ 53) + T / 2 ^ 53 + 2 * T / 2 ^ 53 + T / 2 ^ 53 := by ring
      have e5 : ((r.1.length : ℚ) + 1) * T = (r.1.length : ℚ) * T + T := by ring
      rw [e4]
      constructor
      · linarith [ey.1, ez.1, ew.1, i2.1, ey.2, ez.2, ew.2, i2.2]
      · linarith [ey.1, ez.1, ew.1, i2.1, ey.2, ez.2, ew.2, i2.2]
    · rename_i hlt
      obtain ⟨i0, i1, i2⟩ := dollarLoop64_conserves T hT hTf l (i + 1) c hl' z0 (by linarith [not_le.mp hlt])
      refine ⟨i0, i1, ?_⟩
      generalize dollarLoop64 T (i + 1) c l = r at *
      push_cast
      rw [abs_le] at ey ez i2 ⊢
      have hTu : 0 ≤ T / 2 ^ 53 := by positivity
      have e4 : ((l.length : ℚ) + 1) * (4 * T / 2 ^ 53) = (l.length : ℚ) * (4 * T / 2 ^ 53) + T / 2 ^ 53 + 2 * T / 2 ^ 53 + T / 2 ^ 53 := by ring
      rw [e4]
      constructor
      · linarith [ey.1, ez.1, i2.1, ey.2, ez.2, i2.2]
      · linarith [ey.1, ez.1, i2.1, ey.2, ez.2, i2.2]

/-- **C89.** Float64 dollar bars of `n` trades, none above the threshold: the number `k` of bars closed satisfies
`D - T - 4nuT ≤ kT ≤ D + 4nuT`, where `D` is the exact value traded and `u = 2^-53`. -/
theorem C89_dollar_bars (trades : List (ℚ × ℚ)) (T : ℚ) (hT : 0 < T) (hTf : f64 T = T) (hne : trades ≠ [])
    (h : ∀ t ∈ trades, 0 ≤ t.1 * t.2 ∧ t.1 * t.2 ≤ T) :
    (((dollarBarIndexer64 trades T).length - 1 : Nat) : ℚ) * T
        ≤ (trades.map (fun t => t.1 * t.2)).sum + (trades.length : ℚ) * (4 * T / 2 ^ 53) ∧
    (trades.map (fun t => t.1 * t.2)).sum - T - (trades.length : ℚ) * (4 * T / 2 ^ 53)
        ≤ (((dollarBarIndexer64 trades T).length - 1 : Nat) : ℚ) * T := by
  match trades, hne with
  | t :: l, _ =>
    obtain ⟨x0, x1⟩ := h t (by simp)
    have y0 : 0 ≤ f64 (t.1 * t.2) := f64_nonneg x0
    have y1 : f64 (t.1 * t.2) ≤ T := by
      have := f64_mono x1
      rwa [hTf] at this
    have ey := abs_err _ T x0 x1
    obtain ⟨i0, i1, i2⟩ := dollarLoop64_conserves T hT hTf l 1 (f64 (t.1 * t.2)) (fun s hs => h s (by simp [hs])) y0 y1
    have hlen : (dollarBarIndexer64 (t :: l) T).length - 1 = (dollarLoop64 T 1 (f64 (t.1 * t.2)) l).1.length := by
      simp [dollarBarIndexer64]
    rw [hlen, List.map_cons, List.sum_cons, List.length_cons]
    generalize dollarLoop64 T 1 (f64 (t.1 * t.2)) l = r at *
    generalize f64 (t.1 * t.2) = y at *
    have hTu : 0 ≤ T / 2 ^ 53 := by positivity
    push_cast
    have e4 : ((l.length : ℚ) + 1) * (4 * T / 2 ^ 53) = (l.length : ℚ) * (4 * T / 2 ^ 53) + 4 * (T / 2 ^ 53) := by ring
    rw [e4]
    rw [abs_le] at ey i2
    constructor
    · linarith [ey.1, i2.1, ey.2, i2.2]
    · linarith [ey.1, i2.1, ey.2, i2.2]

/-! ### Example -/

/-- Non-vacuity: trades of 0.1 at price 10, threshold 3. -/
example : (∀ t ∈ List.replicate 10 ((10 : ℚ), f64 (1 / 10)), 0 ≤ t.1 * t.2 ∧ t.1 * t.2 ≤ 3) ∧ f64 3 = 3 ∧
    dollarBarIndexer64 (List.replicate 10 ((10 : ℚ), f64 (1 / 10))) 3 = [0, 2, 5, 8] := by
  refine ⟨by decide +kernel, by decide +kernel, by decide +kernel⟩

end FinML
