/-
C105: the real logarithm, exponential and square root.  The model takes `np.log`, `np.exp` and `np.sqrt` as parameters; here they are
the functions of real numbers, and thresholds on log returns become price levels.
(`finmlkit/sampling/filters.py`, `finmlkit/bar/logic.py`, `finmlkit/label/tbm.py`, `finmlkit/feature/core/*.py`)
-/
import Verif.Props.CusumBars
import Verif.Props.TripleBarrier
import Verif.Props.Correlation
import Verif.Props.Volatility
import Verif.Props.LaggedReturns
import Verif.Props.Rolling
import Verif.Props.Regression
import Verif.Props.UnitsBars
import Mathlib.Analysis.SpecialFunctions.Log.Basic
import Mathlib.Analysis.Real.Sqrt
import Mathlib.Analysis.Complex.ExponentialBounds

set_option linter.unusedSectionVars false

namespace FinML

/-! ## Specification -/

/-- `j` is the position of the lowest of `p a, …, p i`. -/
def LowestSince (p : Nat → ℝ) (a i j : Nat) : Prop := a ≤ j ∧ j ≤ i ∧ ∀ k, a ≤ k → k ≤ i → p j ≤ p k

/-- `j` is the position of the highest of `p a, …, p i`. -/
def HighestSince (p : Nat → ℝ) (a i j : Nat) : Prop := a ≤ j ∧ j ≤ i ∧ ∀ k, a ≤ k → k ≤ i → p k ≤ p j

/-- The price is at or beyond one of two levels around `p₀`. -/
def Outside (p₀ up down p : ℝ) : Prop := p₀ * Real.exp up ≤ p ∨ p ≤ p₀ * Real.exp (-down)

/-- `np.exp(-dt / half_life)` with `dt` the gap in seconds (`volatility.py:110-114,178-182`). -/
noncomputable def expDecay (halfLife : ℝ) (dt : Int) : ℝ := Real.exp (-((dt : ℝ) / 1000000000) / halfLife)

/-! ## The assumptions of the other theorems hold -/

/-- **C105 (assumptions).** The real functions have every property that the theorems about the model ask of `log` and `sqrt`. -/
theorem C105_assumptions :
    SqrtHom Real.sqrt ∧ (∀ x, 0 ≤ x → 0 ≤ Real.sqrt x ∧ Real.sqrt x * Real.sqrt x = x) ∧
    (∀ a v : ℝ, 0 < a → Real.sqrt (a ^ 2 * v) = a * Real.sqrt v) ∧
    (∀ a b : ℝ, 0 < a → 0 < b → Real.log (a * b) = Real.log a + Real.log b) ∧
    (∀ a b : ℝ, 0 < a → 0 < b → Real.log (a / b) = Real.log a - Real.log b) ∧
    (∀ x : ℝ, 0 < x → x ≠ 1 → Real.log x ≠ x - 1) ∧
    Real.log 1 = 0 ∧ Real.log 2 ≠ 0 ∧ Real.log 4 = 2 * Real.log 2 ∧ Real.log 8 = 3 * Real.log 2 := by
  refine ⟨?_, ?_, ?_, ?_, ?_, ?_, Real.log_one, ?_, ?_, ?_⟩
  · intro a x ha hx
    rw [Real.sqrt_mul (mul_self_nonneg a), Real.sqrt_mul_self ha]
  · intro x hx
    exact ⟨Real.sqrt_nonneg x, Real.mul_self_sqrt hx⟩
  · intro a v ha
    rw [Real.sqrt_mul (sq_nonneg a), Real.sqrt_sq ha.le]
  · intro a b ha hb; exact Real.log_mul ha.ne' hb.ne'
  · intro a b ha hb; exact Real.log_div ha.ne' hb.ne'
  · intro x hx h1
    exact (Real.log_lt_sub_one_of_pos hx h1).ne
  · exact (Real.log_pos (by norm_num)).ne'
  · rw [show (4 : ℝ) = 2 ^ 2 by norm_num, Real.log_pow]; norm_num
  · rw [show (8 : ℝ) = 2 ^ 3 by norm_num, Real.log_pow]; norm_num

/-! ## CUSUM thresholds are price levels -/

theorem maxSuffix_log (p : Nat → ℝ) (a i : Nat) (hai : a ≤ i) (hp : ∀ k, a ≤ k → k ≤ i → 0 < p k) :
    ∃ j, LowestSince p a i j ∧
      maxSuffix (retsBetween (fun k => Real.log (p k / p (k - 1))) a i) = Real.log (p i / p j) := by
  induction i, hai using Nat.le_induction with
  | base =>
    refine ⟨a, ⟨le_refl _, le_refl _, fun k h1 h2 => by rw [le_antisymm h2 h1]⟩, ?_⟩
    rw [retsBetween_self, maxSuffix_nil, div_self (hp a (le_refl _) (le_refl _)).ne', Real.log_one]
  | succ i hai ih =>
    obtain ⟨j, ⟨h1, h2, h3⟩, h4⟩ := ih (fun k hk hk' => hp k hk (by omega))
    have hpi := hp i hai (by omega)
    have hpi1 := hp (i + 1) (by omega) (le_refl _)
    have hpj := hp j h1 (by omega)
    rw [retsBetween_succ _ _ _ hai, maxSuffix_concat, h4]
    simp only [Nat.add_sub_cancel]
    rw [← Real.log_mul (div_pos hpi hpj).ne' (div_pos hpi1 hpi).ne',
      show p i / p j * (p (i + 1) / p i) = p (i + 1) / p j by field_simp]
    rcases le_total (p (i + 1)) (p j) with hle | hle
    · refine ⟨i + 1, ⟨by omega, le_refl _, ?_⟩, ?_⟩
      · intro k hk hk'
        rcases Nat.lt_or_ge k (i + 1) with h | h
        · exact hle.trans (h3 k hk (by omega))
        · rw [show k = i + 1 by omega]
      · rw [div_self hpi1.ne', Real.log_one, max_eq_left]
        exact Real.log_nonpos (div_pos hpi1 hpj).le ((div_le_one hpj).mpr hle)
    · refine ⟨j, ⟨h1, by omega, ?_⟩, ?_⟩
      · intro k hk hk'
        rcases Nat.lt_or_ge k (i + 1) with h | h
        · exact h3 k hk (by omega)
        · rw [show k = i + 1 by omega]; exact hle
      · rw [max_eq_right]
        exact Real.log_nonneg ((one_le_div hpj).mpr hle)

theorem minSuffix_log (p : Nat → ℝ) (a i : Nat) (hai : a ≤ i) (hp : ∀ k, a ≤ k → k ≤ i → 0 < p k) :
    ∃ j, HighestSince p a i j ∧
      minSuffix (retsBetween (fun k => Real.log (p k / p (k - 1))) a i) = Real.log (p i / p j) := by
  induction i, hai using Nat.le_induction with
  | base =>
    refine ⟨a, ⟨le_refl _, le_refl _, fun k h1 h2 => by rw [le_antisymm h2 h1]⟩, ?_⟩
    rw [retsBetween_self, minSuffix_nil, div_self (hp a (le_refl _) (le_refl _)).ne', Real.log_one]
  | succ i hai ih =>
    obtain ⟨j, ⟨h1, h2, h3⟩, h4⟩ := ih (fun k hk hk' => hp k hk (by omega))
    have hpi := hp i hai (by omega)
    have hpi1 := hp (i + 1) (by omega) (le_refl _)
    have hpj := hp j h1 (by omega)
    rw [retsBetween_succ _ _ _ hai, minSuffix_concat, h4]
    simp only [Nat.add_sub_cancel]
    rw [← Real.log_mul (div_pos hpi hpj).ne' (div_pos hpi1 hpi).ne',
      show p i / p j * (p (i + 1) / p i) = p (i + 1) / p j by field_simp]
    rcases le_total (p j) (p (i + 1)) with hle | hle
    · refine ⟨i + 1, ⟨by omega, le_refl _, ?_⟩, ?_⟩
      · intro k hk hk'
        rcases Nat.lt_or_ge k (i + 1) with h | h
        · exact (h3 k hk (by omega)).trans hle
        · rw [show k = i + 1 by omega]
      · rw [div_self hpi1.ne', Real.log_one, min_eq_left]
        exact Real.log_nonneg ((one_le_div hpj).mpr hle)
    · refine ⟨j, ⟨h1, by omega, ?_⟩, ?_⟩
      · intro k hk hk'
        rcases Nat.lt_or_ge k (i + 1) with h | h
        · exact h3 k hk (by omega)
        · rw [show k = i + 1 by omega]; exact hle
      · rw [min_eq_right]
        exact Real.log_nonpos (div_pos hpi1 hpj).le ((div_le_one hpj).mpr hle)

/-- The upward sum exceeds `t` iff the price exceeds `e^t` times an earlier price of the segment. -/
theorem lt_maxSuffix_log (p : Nat → ℝ) (a i : Nat) (hai : a ≤ i) (hp : ∀ k, a ≤ k → k ≤ i → 0 < p k) (t : ℝ) :
    (t < maxSuffix (retsBetween (fun k => Real.log (p k / p (k - 1))) a i) ↔
      ∃ j, a ≤ j ∧ j ≤ i ∧ p j * Real.exp t < p i) ∧
    (t ≤ maxSuffix (retsBetween (fun k => Real.log (p k / p (k - 1))) a i) ↔
      ∃ j, a ≤ j ∧ j ≤ i ∧ p j * Real.exp t ≤ p i) := by
  obtain ⟨m, ⟨h1, h2, h3⟩, h4⟩ := maxSuffix_log p a i hai hp
  have hpi := hp i hai (le_refl _)
  have hpm := hp m h1 h2
  rw [h4, Real.lt_log_iff_exp_lt (div_pos hpi hpm), Real.le_log_iff_exp_le (div_pos hpi hpm), lt_div_iff₀ hpm, le_div_iff₀ hpm,
    mul_comm]
  refine ⟨⟨fun h => ⟨m, h1, h2, h⟩, ?_⟩, ⟨fun h => ⟨m, h1, h2, h⟩, ?_⟩⟩
  · rintro ⟨j, hj1, hj2, hj⟩
    exact lt_of_le_of_lt (mul_le_mul_of_nonneg_right (h3 j hj1 hj2) (Real.exp_pos t).le) hj
  · rintro ⟨j, hj1, hj2, hj⟩
    exact le_trans (mul_le_mul_of_nonneg_right (h3 j hj1 hj2) (Real.exp_pos t).le) hj

/-- The downward sum is below `-t` iff the price is below `e^-t` times an earlier price of the segment. -/
theorem minSuffix_log_lt (p : Nat → ℝ) (a i : Nat) (hai : a ≤ i) (hp : ∀ k, a ≤ k → k ≤ i → 0 < p k) (t : ℝ) :
    (minSuffix (retsBetween (fun k => Real.log (p k / p (k - 1))) a i) < -t ↔
      ∃ j, a ≤ j ∧ j ≤ i ∧ p i < p j * Real.exp (-t)) ∧
    (minSuffix (retsBetween (fun k => Real.log (p k / p (k - 1))) a i) ≤ -t ↔
      ∃ j, a ≤ j ∧ j ≤ i ∧ p i ≤ p j * Real.exp (-t)) := by
  obtain ⟨m, ⟨h1, h2, h3⟩, h4⟩ := minSuffix_log p a i hai hp
  have hpi := hp i hai (le_refl _)
  have hpm := hp m h1 h2
  rw [h4, Real.log_lt_iff_lt_exp (div_pos hpi hpm), Real.log_le_iff_le_exp (div_pos hpi hpm), div_lt_iff₀ hpm, div_le_iff₀ hpm,
    mul_comm]
  refine ⟨⟨fun h => ⟨m, h1, h2, h⟩, ?_⟩, ⟨fun h => ⟨m, h1, h2, h⟩, ?_⟩⟩
  · rintro ⟨j, hj1, hj2, hj⟩
    exact lt_of_lt_of_le hj (mul_le_mul_of_nonneg_right (h3 j hj1 hj2) (Real.exp_pos _).le)
  · rintro ⟨j, hj1, hj2, hj⟩
    exact le_trans hj (mul_le_mul_of_nonneg_right (h3 j hj1 hj2) (Real.exp_pos _).le)

/-- **C105 (CUSUM filter).** For positive prices a bar is a downward event iff its price has fallen below `e^-threshold` times some
price since the last downward event, and an upward event iff it is no downward event and its price has risen above
`e^threshold` times some price since the last upward event. -/
theorem C105_cusum_filter (series threshold : List ℝ) (hpos : ∀ x ∈ series, 0 < x) (h2 : 2 ≤ series.length)
    (ht : threshold.length = 1 ∨ threshold.length = series.length) :
    let p := fun i => series.getD i 0
    let thr := fun i => if threshold.length = 1 then threshold.getD 0 0 else threshold.getD i 0
    ∃ c : List (Nat × Bool), cusumFilter Real.log series threshold = .ok (c.map Prod.fst) ∧
      (c.map Prod.fst).Pairwise (· < ·) ∧ (∀ x ∈ c, 1 ≤ x.1 ∧ x.1 < series.length) ∧
      ∀ j, 1 ≤ j → j < series.length →
        (((j, false) ∈ c ↔ ∃ k, lastMark c false 0 j ≤ k ∧ k ≤ j ∧ p j < p k * Real.exp (-(thr j))) ∧
         ((j, true) ∈ c ↔ (j, false) ∉ c ∧ ∃ k, lastMark c true 0 j ≤ k ∧ k ≤ j ∧ p k * Real.exp (thr j) < p j)) := by
  intro p thr
  obtain ⟨c, h1, h3, h4, h5⟩ := C31_cusumFilter Real.log series threshold h2 ht
  refine ⟨c, h1, h3, h4, ?_⟩
  intro j hj1 hj2
  obtain ⟨hd, hu⟩ := h5 j hj1 hj2
  have hp : ∀ k, k < series.length → 0 < p k := by
    intro k hk
    show 0 < series.getD k 0
    rw [List.getD_eq_getElem _ _ hk]
    exact hpos _ (List.getElem_mem _)
  have hl : ∀ s, lastMark c s 0 j ≤ j := fun s => (lastMark_le (by omega)).le
  have e1 := (minSuffix_log_lt p _ j (hl false) (fun k _ hk => hp k (by omega)) (thr j)).1
  have e2 := (lt_maxSuffix_log p _ j (hl true) (fun k _ hk => hp k (by omega)) (thr j)).1
  refine ⟨hd.trans e1, ?_⟩
  rw [hu, hd, not_lt]
  exact and_congr Iff.rfl e2

example : cusumFilter Real.log [1, 3] [1] = .ok [1] := by
  have h : (1 : ℝ) < Real.log 3 := by
    rw [Real.lt_log_iff_exp_lt (by norm_num)]
    have := Real.exp_one_lt_d9
    linarith
  have h0 : (0 : ℝ) ≤ Real.log 3 := by linarith
  simp [cusumFilter, cusumFilterLoop, h, max_eq_right h0, min_eq_left h0]

/-- **C105 (CUSUM bars).** The same for CUSUM bars: a trade that ends its timestamp block closes a bar upward iff its price has reached
`e^λ` times some price since the last upward close, downward iff not upward and its price has reached `e^-λ` times some price since
the last downward close. -/
theorem C105_cusum_bars (ts : List Int) (prices : List ℝ) (sigma : List (Option ℝ)) (floor mult : ℝ) (hpos : ∀ x ∈ prices, 0 < x)
    (hs : sigma.length = prices.length) (ht : ts.length = prices.length) (hnn : ∃ s ∈ sigma, s ≠ none) :
    let p := fun i => prices.getD i 0
    let f := sigma.findIdx (fun s => s.isSome)
    let lam := cusumLambda sigma floor mult
    ∃ c : List (Nat × Bool), cusumBarIndexer Real.log ts prices sigma floor mult = .ok (f :: c.map Prod.fst) ∧
      (c.map Prod.fst).Pairwise (· < ·) ∧ (∀ x ∈ c, f < x.1 ∧ x.1 < prices.length) ∧
      ∀ j, f < j → j < prices.length → BlockEnd ts j →
        (((j, true) ∈ c ↔ ∃ k, lastMark c true f j ≤ k ∧ k ≤ j ∧ p k * Real.exp (lam j) ≤ p j) ∧
         ((j, false) ∈ c ↔ (j, true) ∉ c ∧ ∃ k, lastMark c false f j ≤ k ∧ k ≤ j ∧ p j ≤ p k * Real.exp (-(lam j)))) := by
  intro p f lam
  obtain ⟨c, h1, h3, h4, h5⟩ := C06_cusumBars Real.log ts prices sigma floor mult hs ht hnn
  refine ⟨c, h1, h3, h4, ?_⟩
  intro j hj1 hj2 hb
  obtain ⟨hu, hd⟩ := h5 j hj1 hj2
  have hp : ∀ k, k < prices.length → 0 < p k := by
    intro k hk
    show 0 < prices.getD k 0
    rw [List.getD_eq_getElem _ _ hk]
    exact hpos _ (List.getElem_mem _)
  have hl : ∀ s, lastMark c s f j ≤ j := fun s => (lastMark_le hj1).le
  have e1 := (minSuffix_log_lt p _ j (hl false) (fun k _ hk => hp k (by omega)) (lam j)).2
  have e2 := (lt_maxSuffix_log p _ j (hl true) (fun k _ hk => hp k (by omega)) (lam j)).2
  rw [and_iff_right hb] at hu
  rw [and_iff_right hb] at hd
  refine ⟨hu.trans e2, ?_⟩
  rw [hd, hu, not_le]
  exact and_congr Iff.rfl e1

/-- One event: a price of 3 after 1 exceeds the level `e`. -/
example : cusumFilter Real.log [1, 3] [1] = .ok [1] := by
  have h : (1 : ℝ) < Real.log 3 := by
    rw [Real.lt_log_iff_exp_lt (by norm_num)]
    have := Real.exp_one_lt_d9
    linarith
  have h0 : (0 : ℝ) ≤ Real.log 3 := by linarith
  simp [cusumFilter, cusumFilterLoop, h, max_eq_right h0, min_eq_left h0]

/-! ## Barriers are price levels -/

theorem pathReturn_log (close : List ℝ) (hpos : ∀ x ∈ close, 0 < x) (i0 j : Nat) (hi : i0 < close.length) (hj : j < close.length)
    (side : Int) :
    pathReturn (close.map Real.log) i0 side j = Real.log (close.getD j 0 / close.getD i0 0) * (side : ℝ) ∧
      0 < close.getD j 0 ∧ 0 < close.getD i0 0 := by
  have g : ∀ k, k < close.length → (close.map Real.log).getD k 0 = Real.log (close.getD k 0) ∧ 0 < close.getD k 0 := by
    intro k hk
    rw [List.getD_eq_getElem _ _ (by simpa using hk), List.getD_eq_getElem _ _ hk, List.getElem_map]
    exact ⟨rfl, hpos _ (List.getElem_mem _)⟩
  unfold pathReturn
  rw [(g j hj).1, (g i0 hi).1, Real.log_div (g j hj).2.ne' (g i0 hi).2.ne']
  exact ⟨rfl, (g j hj).2, (g i0 hi).2⟩

/-- **C105 (barriers).** For positive closes and finite multipliers, a long event is at or beyond a barrier at bar `j` iff the close is
at or above `p₀ e^(target·top)` or at or below `p₀ e^(-target·bottom)`; a short event iff the close is at or below
`p₀ e^(-target·top)` or at or above `p₀ e^(target·bottom)`. -/
theorem C105_barrier_levels (close : List ℝ) (hpos : ∀ x ∈ close, 0 < x) (i0 j : Nat) (hi : i0 < close.length)
    (hj : j < close.length) (t b tgt : ℝ) :
    ((UpperHit (.fin t) tgt (pathReturn (close.map Real.log) i0 1 j) ∨ LowerHit (.fin b) tgt (pathReturn (close.map Real.log) i0 1 j)) ↔
      Outside (close.getD i0 0) (tgt * t) (tgt * b) (close.getD j 0)) ∧
    ((UpperHit (.fin t) tgt (pathReturn (close.map Real.log) i0 (-1) j) ∨ LowerHit (.fin b) tgt (pathReturn (close.map Real.log) i0 (-1) j)) ↔
      Outside (close.getD i0 0) (tgt * b) (tgt * t) (close.getD j 0)) := by
  obtain ⟨e1, hpj, hpi⟩ := pathReturn_log close hpos i0 j hi hj 1
  obtain ⟨e2, -, -⟩ := pathReturn_log close hpos i0 j hi hj (-1)
  have hup : ∀ x, x ≤ Real.log (close.getD j 0 / close.getD i0 0) ↔ close.getD i0 0 * Real.exp x ≤ close.getD j 0 := by
    intro x
    rw [Real.le_log_iff_exp_le (div_pos hpj hpi), le_div_iff₀ hpi, mul_comm]
  have hdn : ∀ x, Real.log (close.getD j 0 / close.getD i0 0) ≤ x ↔ close.getD j 0 ≤ close.getD i0 0 * Real.exp x := by
    intro x
    rw [Real.log_le_iff_le_exp (div_pos hpj hpi), div_le_iff₀ hpi, mul_comm]
  rw [e1, e2]
  unfold UpperHit LowerHit Outside
  simp only [Int.cast_one, mul_one, Int.cast_neg, mul_neg]
  constructor
  · rw [hup, hdn]
  · rw [le_neg, neg_le_neg_iff, hup, hdn]
    exact or_comm

example : (∀ x ∈ ([1, 3] : List ℝ), 0 < x) ∧ Outside (([1, 3] : List ℝ).getD 0 0) 1 1 (([1, 3] : List ℝ).getD 1 0) := by
  have h1 := Real.exp_one_lt_d9
  refine ⟨by simp, Or.inl ?_⟩
  simp only [List.getD_cons_zero, List.getD_cons_succ]
  linarith

/-- **C105 (barriers as documented).** The documentation of `TBMLabel` puts the barriers at `p₀ (1 + target·top)` and `p₀ (1 - target·bottom)`.  A touch of the
upper barrier is strictly beyond the documented level, a close at the documented lower level is a touch; each documented level is off by at most
`p₀ (target·multiplier)²` if the product is at most 1. -/
theorem C105_documented_touches (close : List ℝ) (hpos : ∀ x ∈ close, 0 < x) (i0 j : Nat) (hi : i0 < close.length) (hj : j < close.length) (t b tgt : ℝ)
    (ht : 0 < tgt * t) (hb : 0 < tgt * b) :
    (UpperHit (.fin t) tgt (pathReturn (close.map Real.log) i0 1 j) → close.getD i0 0 * (1 + tgt * t) < close.getD j 0) ∧
    (close.getD j 0 ≤ close.getD i0 0 * (1 - tgt * b) → LowerHit (.fin b) tgt (pathReturn (close.map Real.log) i0 1 j)) ∧
    (tgt * t ≤ 1 → close.getD i0 0 * (1 + tgt * t + (tgt * t) ^ 2) ≤ close.getD j 0 → UpperHit (.fin t) tgt (pathReturn (close.map Real.log) i0 1 j)) ∧
    (tgt * b ≤ 1 → LowerHit (.fin b) tgt (pathReturn (close.map Real.log) i0 1 j) →
      close.getD j 0 ≤ close.getD i0 0 * (1 - tgt * b + (tgt * b) ^ 2)) := by
  obtain ⟨e1, hpj, hpi⟩ := pathReturn_log close hpos i0 j hi hj 1
  have hdiv : 0 < close.getD j 0 / close.getD i0 0 := div_pos hpj hpi
  have hup : UpperHit (.fin t) tgt (pathReturn (close.map Real.log) i0 1 j) ↔ close.getD i0 0 * Real.exp (tgt * t) ≤ close.getD j 0 := by
    unfold UpperHit
    simp only
    rw [e1, Int.cast_one, mul_one, Real.le_log_iff_exp_le hdiv, le_div_iff₀ hpi, mul_comm]
  have hlo : LowerHit (.fin b) tgt (pathReturn (close.map Real.log) i0 1 j) ↔ close.getD j 0 ≤ close.getD i0 0 * Real.exp (-(tgt * b)) := by
    unfold LowerHit
    simp only
    rw [e1, Int.cast_one, mul_one, Real.log_le_iff_le_exp hdiv, div_le_iff₀ hpi, mul_comm]
  have x1 := Real.add_one_lt_exp ht.ne'
  have y1 := Real.add_one_lt_exp (neg_ne_zero.mpr hb.ne')
  refine ⟨fun h => ?_, fun h => ?_, fun h1 h => ?_, fun h1 h => ?_⟩
  · have := mul_lt_mul_of_pos_left x1 hpi
    have := hup.mp h
    linarith
  · rw [hlo]
    have := mul_lt_mul_of_pos_left y1 hpi
    linarith
  · rw [hup]
    have := Real.abs_exp_sub_one_sub_id_le (x := tgt * t) (by rw [abs_of_pos ht]; exact h1)
    have := (abs_le.mp this).2
    have := mul_le_mul_of_nonneg_left (show Real.exp (tgt * t) ≤ 1 + tgt * t + (tgt * t) ^ 2 by linarith) hpi.le
    linarith
  · have := Real.abs_exp_sub_one_sub_id_le (x := -(tgt * b)) (by rw [abs_neg, abs_of_pos hb]; exact h1)
    have := (abs_le.mp this).2
    have := mul_le_mul_of_nonneg_left (show Real.exp (-(tgt * b)) ≤ 1 - tgt * b + (tgt * b) ^ 2 by nlinarith) hpi.le
    have := hlo.mp h
    linarith

/-- **C105 (violation).** A close at exactly the documented upper barrier of 100 with a target of 1 % - 101 - is not a touch. -/
theorem C105_documented_upper_missed : ¬ UpperHit (.fin 1) (1 / 100) (pathReturn ([100, 101].map Real.log) 0 1 1) := by
  intro h
  have := (C105_documented_touches [100, 101] (by norm_num) 0 1 (by decide) (by decide) 1 1 (1 / 100) (by norm_num) (by norm_num)).1 h
  norm_num at this

-- the hypotheses of `C105_documented_touches`, and a close at the documented lower barrier
example : LowerHit (.fin 1) (1 / 100) (pathReturn ([100, 99].map Real.log) 0 1 1) :=
  (C105_documented_touches [100, 99] (by norm_num) 0 1 (by decide) (by decide) 1 1 (1 / 100) (by norm_num) (by norm_num)).2.1 (by norm_num)

/-- **C105 (labels).** A long event with finite multipliers, for positive closes at ascending times: the touch bar is the first closable
bar outside the two price levels, or the vertical bar if none is; the return is the log return up to it and the label is 1 iff the
close is not below the entry price. -/
theorem C105_triple_barrier (p : TbmParams ℝ) (t b : ℝ) (htop : p.top = .fin t) (hbot : p.bottom = .fin b) {ts : List Int}
    (hs : ts.Pairwise (· ≤ ·)) (close : List ℝ) (hlen : ts.length = close.length) (hpos : ∀ x ∈ close, 0 < x) {i0 : Nat}
    (hi : i0 < ts.length) (tgt : ℝ) (hv : ∀ x, p.vertical = some x → 0 < x) :
    ∃ t1, IsVerticalBar ts i0 p.vertical t1 ∧
      (t1 = i0 → tbmEvent p ts (close.map Real.log) false i0 tgt 1 = ⟨0, none, none, none⟩) ∧
      (i0 < t1 → ∃ touch r ratio, tbmEvent p ts (close.map Real.log) false i0 tgt 1 = ⟨if 0 ≤ r then 1 else -1, some touch, some r, ratio⟩ ∧
        ((Closable ts i0 t1 p.minClose touch ∧ Outside (close.getD i0 0) (tgt * t) (tgt * b) (close.getD touch 0) ∧
            ∀ j, Closable ts i0 t1 p.minClose j → j < touch → ¬ Outside (close.getD i0 0) (tgt * t) (tgt * b) (close.getD j 0)) ∨
          (touch = t1 ∧ ∀ j, Closable ts i0 t1 p.minClose j → ¬ Outside (close.getD i0 0) (tgt * t) (tgt * b) (close.getD j 0))) ∧
        (Closable ts i0 t1 p.minClose touch → r = Real.log (close.getD touch 0 / close.getD i0 0) ∧
          (0 ≤ r ↔ close.getD i0 0 ≤ close.getD touch 0))) := by
  obtain ⟨t1, hvb, h1, h2⟩ := C24_first_touch_partial p hs (close.map Real.log) false hi tgt 1 hv
  have hlt : ∀ {j}, Closable ts i0 t1 p.minClose j → j < close.length := by
    intro j hc
    have := hvb.2.1
    have := hc.2.1
    omega
  have hiff : ∀ j, Closable ts i0 t1 p.minClose j →
      ((UpperHit p.top tgt (pathReturn (close.map Real.log) i0 1 j) ∨ LowerHit p.bottom tgt (pathReturn (close.map Real.log) i0 1 j)) ↔
        Outside (close.getD i0 0) (tgt * t) (tgt * b) (close.getD j 0)) := by
    intro j hc
    rw [htop, hbot]
    exact (C105_barrier_levels close hpos i0 j (by omega) (hlt hc) t b tgt).1
  have hret : ∀ j, Closable ts i0 t1 p.minClose j →
      pathReturn (close.map Real.log) i0 1 j = Real.log (close.getD j 0 / close.getD i0 0) ∧
        (0 ≤ Real.log (close.getD j 0 / close.getD i0 0) ↔ close.getD i0 0 ≤ close.getD j 0) := by
    intro j hc
    obtain ⟨e, hpj, hpi⟩ := pathReturn_log close hpos i0 j (by omega) (hlt hc) 1
    refine ⟨by rw [e]; simp, ?_⟩
    rw [Real.log_nonneg_iff (div_pos hpj hpi), one_le_div hpi]
  refine ⟨t1, hvb, h1, fun h01 => ?_⟩
  obtain ⟨touch, r, ratio, he, hcase⟩ := h2 h01
  refine ⟨touch, r, ratio, by simpa using he, ?_, ?_⟩
  · rcases hcase with ⟨hc, hr, hh, hf⟩ | ⟨hn, ht, -⟩
    · left
      refine ⟨hc, ?_, fun j hj hlt' => ?_⟩
      · rw [hr] at hh; exact (hiff touch hc).mp hh
      · rw [← hiff j hj]; exact hf j hj hlt'
    · right
      exact ⟨ht, fun j hj => by rw [← hiff j hj]; exact hn j hj⟩
  · intro hc
    obtain ⟨e1, e2⟩ := hret touch hc
    have hr : r = pathReturn (close.map Real.log) i0 1 touch := by
      rcases hcase with ⟨-, hr, -, -⟩ | ⟨-, ht, hr⟩
      · exact hr
      · rw [hr, if_pos (ht ▸ hc), ht]
    rw [hr, e1]
    exact ⟨rfl, e2⟩

/-- A close of 3 is beyond the upper level `e` of an entry at 1, a close of 2 is inside. -/
example : Outside 1 1 1 3 ∧ ¬ Outside 1 1 1 2 := by
  have h1 := Real.exp_one_lt_d9
  have h2 := Real.exp_one_gt_d9
  have h3 : Real.exp (-1) < 1 := by rw [Real.exp_lt_one_iff]; norm_num
  unfold Outside
  constructor
  · left; linarith
  · rintro (h | h) <;> linarith

/-! ## Exponential decay in time -/

theorem expDecay_add (h : ℝ) (a b : Int) : expDecay h (a + b) = expDecay h a * expDecay h b := by
  unfold expDecay
  rw [← Real.exp_add]
  congr 1
  push_cast
  ring

/-- The time decay of the code between positions `j` and `i`. -/
theorem prod_decay (h : ℝ) (ts : List Int) (j n : Nat) :
    ((List.range' (j + 1) n).map (fun k => expDecay h (ts.getD k 0 - ts.getD (k - 1) 0))).prod =
      expDecay h (ts.getD (j + n) 0 - ts.getD j 0) := by
  induction n with
  | zero => simp [expDecay]
  | succ n ih =>
    rw [List.range'_concat, List.map_append, List.prod_append, ih]
    simp only [List.map_cons, List.map_nil, List.prod_cons, List.prod_nil, mul_one, one_mul]
    rw [← expDecay_add, show j + 1 + n - 1 = j + n by omega, show j + 1 + n = j + (n + 1) by omega]
    congr 1
    ring

/-- **C105 (weights in time).** The weight of observation `j` seen from `i` is the mass of the exponential kernel between the ages of the
samples `j` and `j - 1`; it depends on elapsed time only. -/
theorem C105_time_weights (h : ℝ) (ts : List Int) (i j : Nat) (hji : j ≤ i) :
    tdWeight (fun k => expDecay h (ts.getD k 0 - ts.getD (k - 1) 0)) i j =
      expDecay h (ts.getD i 0 - ts.getD j 0) - expDecay h (ts.getD i 0 - ts.getD (j - 1) 0) := by
  unfold tdWeight
  rw [prod_decay, show j + (i - j) = i by omega, sub_mul, one_mul, ← expDecay_add]
  congr 2
  ring

example (h : ℝ) : tdWeight (fun k => expDecay h (([0, 5, 7] : List Int).getD k 0 - ([0, 5, 7] : List Int).getD (k - 1) 0)) 2 1 =
    expDecay h (7 - 5) - expDecay h (7 - 0) := C105_time_weights h [0, 5, 7] 2 1 (by decide)

/-- **C105 (total weight).** All weights add up to `1 - e^(-(t_i - t_0)/half_life)`. -/
theorem C105_total_weight (h : ℝ) (ts : List Int) (i : Nat) :
    tdSum (fun k => expDecay h (ts.getD k 0 - ts.getD (k - 1) 0)) i (fun _ => 1) = 1 - expDecay h (ts.getD i 0 - ts.getD 0 0) := by
  induction i with
  | zero => simp [tdSum_zero, expDecay]
  | succ i ih =>
    rw [tdSum_succ, ih, Nat.add_sub_cancel]
    have : expDecay h (ts.getD (i + 1) 0 - ts.getD 0 0) =
        expDecay h (ts.getD (i + 1) 0 - ts.getD i 0) * expDecay h (ts.getD i 0 - ts.getD 0 0) := by
      rw [← expDecay_add]; congr 1; ring
    rw [this]; ring

/-- **C105 (not a half-life).** After one `half_life` the decay factor is `1/e`, not one half: the parameter is a mean lifetime, the
actual half-life is `half_life · log 2`. -/
theorem C105_half_life (h : Nat) (hh : 0 < h) :
    expDecay (h : ℝ) ((h : Int) * 1000000000) = Real.exp (-1) ∧ Real.exp (-1) < 1 / 2 ∧
      ∀ dt : Int, expDecay (h : ℝ) dt = 1 / 2 ↔ (dt : ℝ) / 1000000000 = h * Real.log 2 := by
  have hp : (0 : ℝ) < h := by exact_mod_cast hh
  refine ⟨?_, ?_, ?_⟩
  · unfold expDecay
    congr 1
    push_cast
    field_simp
  · rw [Real.exp_neg, inv_eq_one_div]
    exact one_div_lt_one_div_of_lt (by norm_num) (by have := Real.exp_one_gt_d9; linarith)
  · intro dt
    unfold expDecay
    rw [show (1 / 2 : ℝ) = Real.exp (-Real.log 2) by rw [Real.exp_neg, Real.exp_log (by norm_num)]; norm_num,
      Real.exp_eq_exp, neg_div, neg_inj, div_eq_iff hp.ne', mul_comm]

example : expDecay ((10 : Nat) : ℝ) 10000000000 = Real.exp (-1) := (C105_half_life 10 (by norm_num)).1

/-- **C105 (repeated samples).** Inserting, before sample `m`, another sample with the same value at a time between its neighbours (with
the exponential decay, any time) changes neither sum of `ewmst_mean0` from sample `m` on. -/
theorem C105_mean0_resampling (h : ℝ) (ts ts' : List Int) (y y' : List (Option ℝ)) (m : Nat) (hm : 1 ≤ m)
    (h1 : ∀ k, k < m → ts'.getD k 0 = ts.getD k 0 ∧ y'.getD k none = y.getD k none)
    (h2 : ∀ k, m ≤ k → ts'.getD (k + 1) 0 = ts.getD k 0 ∧ y'.getD (k + 1) none = y.getD k none)
    (h3 : y'.getD m none = y.getD m none) (i : Nat) (hi : m ≤ i) :
    ewmst0State (expDecay h) ts' y' (i + 1) = ewmst0State (expDecay h) ts y i := by
  have hbefore : ∀ k, k < m → ewmst0State (expDecay h) ts' y' k = ewmst0State (expDecay h) ts y k := by
    intro k
    induction k with
    | zero => intro _; rfl
    | succ k ih =>
      intro hk
      have hq : decayAt (expDecay h) ts' (k + 1) = decayAt (expDecay h) ts (k + 1) := by
        unfold decayAt
        rw [(h1 (k + 1) hk).1, Nat.add_sub_cancel, (h1 k (by omega)).1]
      simp only [ewmst0State, ih (by omega), hq, (h1 (k + 1) hk).2]
  induction i, hi using Nat.le_induction with
  | base =>
    obtain ⟨m, rfl⟩ : ∃ k, m = k + 1 := ⟨m - 1, by omega⟩
    have hq : decayAt (expDecay h) ts (m + 1) = decayAt (expDecay h) ts' (m + 1) * decayAt (expDecay h) ts' (m + 1 + 1) := by
      unfold decayAt
      rw [← expDecay_add, (h2 (m + 1) (le_refl _)).1]
      simp only [Nat.add_sub_cancel]
      rw [(h1 m (by omega)).1]
      congr 1
      ring
    have hb := hbefore m (by omega)
    simp only [ewmst0State, hb, hq, (h2 (m + 1) (le_refl _)).2, h3]
    generalize ewmst0State (expDecay h) ts y m = s
    generalize decayAt (expDecay h) ts' (m + 1) = a
    generalize decayAt (expDecay h) ts' (m + 1 + 1) = b
    cases y.getD (m + 1) none with
    | none => simp only; rw [Prod.mk.injEq]; constructor <;> ring
    | some v => simp only; rw [Prod.mk.injEq]; constructor <;> ring
  | succ i hi ih =>
    have hq : decayAt (expDecay h) ts' (i + 1 + 1) = decayAt (expDecay h) ts (i + 1) := by
      unfold decayAt
      rw [(h2 (i + 1) (by omega)).1]
      simp only [Nat.add_sub_cancel]
      rw [(h2 i hi).1]
    rw [ewmst0State, ih, hq, (h2 (i + 1) (by omega)).2]
    rfl

/-- The hypotheses of `C105_mean0_resampling` hold for a sample repeated at time 5. -/
example (h : ℝ) : ewmst0State (expDecay h) [0, 5, 10] [none, some 2, some 2] 2 = ewmst0State (expDecay h) [0, 10] [none, some 2] 1 := by
  apply C105_mean0_resampling h [0, 10] [0, 5, 10] [none, some 2] [none, some 2, some 2] 1 (le_refl _) _ _ rfl 1 (le_refl _)
  · intro k hk
    obtain rfl : k = 0 := by omega
    exact ⟨rfl, rfl⟩
  · intro k hk
    match k, hk with
    | 1, _ => exact ⟨rfl, rfl⟩
    | k + 2, _ => exact ⟨rfl, rfl⟩

/-- **C105 (repeated samples matter for `ewmst`).** The bias correction of `ewmst` counts samples: repeating a value half way between two
samples changes the variance, although the decay is exponential. -/
theorem C105_ewmst_resampling :
    ewmst (fun x : ℚ => x) (fun dt => (1 / 2) ^ dt.toNat) 0 [0, 2, 4] [none, some 1, some 3] ≠
      (ewmst (fun x : ℚ => x) (fun dt => (1 / 2) ^ dt.toNat) 0 [0, 2, 3, 4] [none, some 1, some 3, some 3]).eraseIdx 2 := by
  decide +kernel

/-! ## Logarithmic and simple returns -/

/-- **C105 (returns).** For positive prices the log return is at most the simple return and has the same sign. -/
theorem C105_log_simple (a b : ℝ) (ha : 0 < a) (hb : 0 < b) :
    returnOf Real.log true a b = .fin (Real.log (b / a)) ∧ returnOf Real.log false a b = .fin (b / a - 1) ∧
      Real.log (b / a) ≤ b / a - 1 ∧ (0 < Real.log (b / a) ↔ 0 < b / a - 1) ∧ (Real.log (b / a) < 0 ↔ b / a - 1 < 0) := by
  have hq := div_pos hb ha
  refine ⟨?_, ?_, Real.log_le_sub_one_of_pos hq, ?_, ?_⟩
  · simp [returnOf, ha.ne']
  · simp [returnOf, ha.ne']
  · rw [Real.log_pos_iff hq.le, sub_pos]
  · rw [Real.log_neg_iff hq, sub_neg]

example : Real.log (110 / 100) ≤ 110 / 100 - 1 := (C105_log_simple 100 110 (by norm_num) (by norm_num)).2.2.1

/-- **C105 (Parkinson range).** The range estimate is non-negative, and 0 iff high and low agree. -/
theorem C105_parkinson (high low : List ℝ) (i : Nat) (hi : i < high.length) (hh : 0 < high.getD i 0) (hl : 0 < low.getD i 0) :
    ∃ x, (parkinson Real.log high low)[i]? = some x ∧ 0 ≤ x ∧ (x = 0 ↔ high.getD i 0 = low.getD i 0) := by
  have h2 : 0 < Real.log 2 := Real.log_pos (by norm_num)
  refine ⟨_, by unfold parkinson; rw [tabulate_get?, if_pos hi], by positivity, ?_⟩
  rw [div_eq_zero_iff, or_iff_left (by positivity), sq_eq_zero_iff, Real.log_eq_zero]
  constructor
  · rintro (h | h | h)
    · exact absurd h (div_pos hh hl).ne'
    · exact (div_eq_one_iff_eq hl.ne').mp h
    · have := div_pos hh hl; linarith
  · intro h
    right; left
    rw [h, div_self hl.ne']

example : ∃ x, (parkinson Real.log [2] [1])[0]? = some x ∧ 0 ≤ x ∧ x ≠ 0 := by
  obtain ⟨x, h1, h2, h3⟩ := C105_parkinson [2] [1] 0 (by simp) (by simp) (by simp)
  exact ⟨x, h1, h2, fun h => by have := h3.mp h; norm_num at this⟩

/-- **C105 (flow acceleration).** For non-negative volumes the flow acceleration is positive iff the last `r` bars traded more than the
`w - r` bars before. -/
theorem C105_flow_acceleration (eps : ℝ) (he : 0 < eps) (v : List ℝ) (hv : ∀ k, 0 ≤ v.getD k 0) (w r i : Nat) (hr : r < w)
    (hn : w ≤ v.length) (hi : i < v.length) (hwi : w ≤ i + 1) :
    ∃ x, (flowAcceleration Real.log eps v w r)[i]? = some (some x) ∧
      (0 < x ↔ winSum (fun j => v.getD j 0) (w - r) (i - r) < winSum (fun j => v.getD j 0) r i) := by
  have hnn : ∀ n k, 0 ≤ winSum (fun j => v.getD j 0) n k := by
    intro n k
    unfold winSum
    exact sum_map_nonneg _ _ (fun x _ => hv x)
  refine ⟨_, by rw [C33_flow_acceleration_window Real.log eps v w r i hr hn hi, if_neg (by omega)], ?_⟩
  have h1 := hnn r i
  have h2 := hnn (w - r) (i - r)
  rw [Real.log_pos_iff (by positivity), one_lt_div (by linarith)]
  constructor <;> intro h <;> linarith

/-- High 2 and low 1 have a positive range, and a burst of volume accelerates the flow. -/
example : (∃ x, (parkinson Real.log [2] [1])[0]? = some x ∧ 0 ≤ x ∧ x ≠ 0) ∧
    ∃ x, (flowAcceleration Real.log 1 [1, 5] 2 1)[1]? = some (some x) ∧ 0 < x := by
  constructor
  · obtain ⟨x, h1, h2, h3⟩ := C105_parkinson [2] [1] 0 (by simp) (by simp) (by simp)
    exact ⟨x, h1, h2, fun h => by have := h3.mp h; norm_num at this⟩
  · have hv : ∀ k, 0 ≤ ([1, 5] : List ℝ).getD k 0 := by
      intro k
      match k with
      | 0 => simp
      | 1 => simp
      | k + 2 => simp
    obtain ⟨x, h1, h2⟩ := C105_flow_acceleration 1 one_pos [1, 5] hv 2 1 1 (by omega) (by simp) (by simp) (by omega)
    refine ⟨x, h1, h2.mpr ?_⟩
    simp [winSum]

/-- C105: the barrier levels of the documentation (`label/kit.py:41-46`), `p·(1 + x)` and `p·(1 - x)`, both lie strictly below
the levels the code uses, `p·exp x` and `p·exp (-x)`: the documented take-profit is reached earlier, the documented stop-loss
later.  The gap is at most `p·x²` on either side for `0 < x ≤ 1`. -/
theorem C105_documented_levels (p x : ℝ) (hp : 0 < p) (hx : 0 < x) :
    p * (1 + x) < p * Real.exp x ∧ p * (1 - x) < p * Real.exp (-x) ∧
    (x ≤ 1 → p * Real.exp x - p * (1 + x) ≤ p * x ^ 2 ∧ p * Real.exp (-x) - p * (1 - x) ≤ p * x ^ 2) := by
  have h1 : x + 1 < Real.exp x := Real.add_one_lt_exp hx.ne'
  have h2 : -x + 1 < Real.exp (-x) := Real.add_one_lt_exp (by linarith)
  refine ⟨by nlinarith, by nlinarith, ?_⟩
  intro h
  have h3 := (abs_le.mp (Real.abs_exp_sub_one_sub_id_le (x := x) (by rw [abs_of_pos hx]; exact h))).2
  have h4 := (abs_le.mp (Real.abs_exp_sub_one_sub_id_le (x := -x) (by rw [abs_neg, abs_of_pos hx]; exact h))).2
  constructor
  · nlinarith
  · have : (-x) ^ 2 = x ^ 2 := by ring
    rw [this] at h4
    nlinarith

example : (100 : ℝ) * (1 + 1 / 10) < 100 * Real.exp (1 / 10) :=
  (C105_documented_levels 100 (1 / 10) (by norm_num) (by norm_num)).1

end FinML
