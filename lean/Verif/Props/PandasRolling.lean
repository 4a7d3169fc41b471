import Mathlib.Analysis.Real.Sqrt
import Verif.Model.PandasFeatures
import Verif.Lemmas.Indicators
import Mathlib.Tactic.Positivity
import Mathlib.Tactic.LinearCombination

/-!
# C70: rolling bi-power variation, kurtosis and mean-reversion score
-/

set_option linter.unusedSectionVars false

namespace FinML

variable {K : Type} [Field K] [LinearOrder K] [IsStrictOrderedRing K]

theorem allSome_eq_some {α : Type} (l : List (Option α)) (v : List α) : allSome l = some v ↔ l = v.map some := by
  induction l generalizing v with
  | nil => cases v <;> simp [allSome]
  | cons a l ih =>
    cases a with
    | none => cases v <;> simp [allSome]
    | some a =>
      cases v with
      | nil => simp [allSome]
      | cons b v =>
        simp only [allSome, Option.map_eq_some_iff, List.cons.injEq, List.map_cons, Option.some.injEq]
        constructor
        · rintro ⟨w, hw, h1, h2⟩
          rw [← h2]
          exact ⟨h1, (ih w).mp hw⟩
        · rintro ⟨h1, h2⟩
          exact ⟨v, (ih v).mpr h2, h1, rfl⟩

/-- A rolling statistic is present at bar `i` exactly when the last `w` values exist, none is missing and the
statistic itself is defined; it is then the statistic of these values. -/
theorem C70_rolling_iff {α β : Type} (xs : List (Option α)) (w i : Nat) (f : List α → Option β) (y : β) (hi : i < xs.length) :
    (pdRolling xs w f)[i]? = some (some y) ↔
      w ≤ i + 1 ∧ ∃ l : List α, (xs.drop (i + 1 - w)).take w = l.map some ∧ f l = some y := by
  unfold pdRolling
  rw [rolling_get? xs w _ i hi]
  by_cases hw : i + 1 < w
  · rw [if_pos hw]
    simp; omega
  · rw [if_neg hw]
    simp only [Option.some.injEq, Option.bind_eq_some_iff, allSome_eq_some]
    constructor
    · rintro ⟨l, h1, h2⟩
      exact ⟨by omega, l, h1, h2⟩
    · rintro ⟨_, l, h1, h2⟩
      exact ⟨l, h1, h2⟩

example : (([none, some 1, some 2] : List (Option ℚ)).drop (2 + 1 - 2)).take 2 = [1, 2].map some ∧
    pdRolling ([none, some 1, some 2] : List (Option ℚ)) 2 (fun l => some l.sum) = [none, none, some 3] := by decide +kernel

/-- No rolling statistic uses a later value. -/
theorem C70_rolling_causal {α β : Type} (xs : List (Option α)) (w k : Nat) (f : List α → Option β) :
    pdRolling (xs.take k) w f = (pdRolling xs w f).take k := rolling_causal _ _ _ _

/-! ## Bi-power variation -/

theorem neighbourProducts_cons (a b : K) (l : List K) : neighbourProducts (a :: b :: l) = b * a + neighbourProducts (b :: l) := by
  unfold neighbourProducts
  cases l with
  | nil => simp
  | cons c l => simp [List.dropLast]

theorem allSome_map_abs (l : List K) : allSome ((l.map some).map (Option.map abs)) = some (l.map abs) := by
  rw [allSome_eq_some]
  simp

theorem window_map {α β : Type} (xs : List α) (f : α → β) (w i : Nat) : window (xs.map f) w i = (window xs w i).map f := by
  unfold window
  rw [List.map_take, List.map_drop]

/-- The value at a bar with `w + 1` present returns is `c` times the sum of the `w` products of neighbouring absolute
returns. -/
theorem C70_bipower (c : K) (w i : Nat) (xs : List (Option K)) (hi : i < xs.length) (hw : w ≤ i) (r : Nat → K)
    (h : ∀ j, i - w ≤ j → j ≤ i → xs[j]? = some (some (r j))) :
    (biPower c w xs)[i]? = some (some (c * ((List.range' (i - w) w).map (fun j => |r (j + 1)| * |r j|)).sum)) := by
  unfold biPower
  rw [List.getElem?_map]
  have hwin : (xs.drop (i + 1 - (w + 1))).take (w + 1) = (List.range' (i - w) (w + 1)).map (fun j => some (r j)) := by
    apply List.ext_getElem?
    intro j
    rw [List.getElem?_take, List.getElem?_map]
    by_cases hj : j < w + 1
    · rw [if_pos hj, List.getElem?_drop, show i + 1 - (w + 1) + j = i - w + j by omega, h (i - w + j) (by omega) (by omega),
        List.getElem?_range' hj]
      simp
    · rw [if_neg hj, List.getElem?_eq_none (by simp; omega)]; rfl
  have hval : (pdRolling (xs.map (Option.map abs)) (w + 1) (fun l => some (neighbourProducts l)))[i]? =
      some (some (neighbourProducts ((List.range' (i - w) (w + 1)).map (fun j => |r j|)))) := by
    rw [C70_rolling_iff _ _ _ _ _ (by simpa using hi)]
    refine ⟨by omega, _, ?_, rfl⟩
    rw [← List.map_drop, ← List.map_take, hwin]
    simp [List.map_map, Function.comp_def]
  rw [hval]
  simp only [Option.map_some]
  congr 3
  generalize i - w = a
  clear hval hwin h hw hi
  induction w generalizing a with
  | zero => simp [neighbourProducts]
  | succ w ih =>
    have e := ih (a + 1)
    rw [List.range'_succ, List.map_cons] at e
    rw [List.range'_succ, List.map_cons, List.range'_succ, List.map_cons, neighbourProducts_cons, e]
    conv_rhs => rw [List.range'_succ, List.map_cons, List.sum_cons]

example : biPower 2 1 ([none, some (-1), some 3, some 2] : List (Option ℚ)) = [none, none, some 6, some 12] := by decide +kernel

/-- One missing return in the window makes the value missing. -/
theorem C70_bipower_missing (c : K) (w i : Nat) (xs : List (Option K)) (hi : i < xs.length)
    (h : i < w ∨ ∃ j, i - w ≤ j ∧ j ≤ i ∧ xs[j]? = some none) : (biPower c w xs)[i]? = some none := by
  cases hv : (biPower c w xs)[i]? with
  | none =>
    rw [List.getElem?_eq_none_iff] at hv
    unfold biPower pdRolling rolling at hv
    rw [List.length_map, length_tabulate, List.length_map] at hv
    omega
  | some o =>
    cases o with
    | none => rfl
    | some y =>
      exfalso
      unfold biPower at hv
      rw [List.getElem?_map, Option.map_eq_some_iff] at hv
      obtain ⟨o, ho, h2⟩ := hv
      cases o with
      | none => simp at h2
      | some z =>
        rw [C70_rolling_iff _ _ _ _ _ (by simpa using hi)] at ho
        obtain ⟨h3, l, h4, _⟩ := ho
        rcases h with h | ⟨j, h5, h6, h7⟩
        · omega
        · have := congrArg (fun t => t[j - (i - w)]?) h4
          simp only [List.getElem?_take, List.getElem?_drop, List.getElem?_map] at this
          rw [if_pos (by omega), show i + 1 - (w + 1) + (j - (i - w)) = j by omega, h7] at this
          simp only [Option.map_some, Option.map_none] at this
          cases hl : l[j - (i - w)]? with
          | none => rw [hl] at this; simp at this
          | some q => rw [hl] at this; simp at this

example : ([some 1, some 2, none, some 3, some 2] : List (Option ℚ))[2]? = some none ∧
    biPower 2 1 ([some 1, some 2, none, some 3, some 2] : List (Option ℚ)) = [none, some 4, none, none, some 12] := by decide +kernel

/-- It never exceeds `c` times the sum of the squared returns of its `w + 1` bars (for `c ≥ 0`), and is not negative. -/
theorem C70_bipower_le_squares (l : List K) :
    0 ≤ neighbourProducts (l.map abs) ∧ neighbourProducts (l.map abs) ≤ (l.map (fun x => x ^ 2)).sum := by
  suffices h : ∀ (l : List K) (a : K), 0 ≤ neighbourProducts ((a :: l).map abs) ∧
      2 * neighbourProducts ((a :: l).map abs) + a ^ 2 ≤ 2 * ((a :: l).map (fun x => x ^ 2)).sum by
    cases l with
    | nil => simp [neighbourProducts]
    | cons b l => exact ⟨(h l b).1, by nlinarith [(h l b).2, sq_nonneg b]⟩
  intro l
  induction l with
  | nil => intro a; simp [neighbourProducts]; nlinarith [sq_nonneg a]
  | cons b l ih =>
    intro a
    have := ih b
    simp only [List.map_cons, List.sum_cons, neighbourProducts_cons] at this ⊢
    refine ⟨add_nonneg (by positivity) this.1, ?_⟩
    nlinarith [this.2, sq_nonneg (|b| - |a|), sq_abs a, sq_abs b]

/-- Violation: the correction factor for the sum of products of two absolute returns is `1 / mu1 ^ 2 = pi / 2`.  The
code multiplies by its square root `c`, so for non-zero variation the value is too small (`c > 1`): it has to be
multiplied by `c` once more. -/
theorem C70_bipower_factor (c half_pi s : K) (hc : 0 ≤ c) (hc2 : c ^ 2 = half_pi) (hpi : 1 < half_pi) (hs : 0 < s) :
    c * s < half_pi * s ∧ c * (c * s) = half_pi * s := by
  have h1 : 1 < c := by nlinarith
  constructor
  · rw [← hc2]; nlinarith [mul_pos (lt_trans one_pos h1) hs]
  · rw [← hc2]; ring

example : (0 : ℚ) ≤ 5 / 4 ∧ (5 / 4 : ℚ) ^ 2 = 25 / 16 ∧ (1 : ℚ) < 25 / 16 := by norm_num

/-! ## Kurtosis -/

theorem sum_map_affine (l : List K) (a b : K) : (l.map (fun x => a * x + b)).sum = a * l.sum + l.length * b := by
  induction l with
  | nil => simp
  | cons x l ih => simp only [List.map_cons, List.sum_cons, ih, List.length_cons]; push_cast; ring

theorem length_ne_zero_cast (l : List K) (h : l ≠ []) : (l.length : K) ≠ 0 := by
  have := List.length_pos_iff.mpr h
  exact_mod_cast this.ne'

/-- Central moments do not depend on the location and scale with the `k`-th power. -/
theorem centralMoment_affine (k : Nat) (l : List K) (a b : K) :
    centralMoment k (l.map (fun x => a * x + b)) = a ^ k * centralMoment k l := by
  unfold centralMoment
  by_cases h : l = []
  · subst h; simp
  have hn := length_ne_zero_cast l h
  rw [sum_map_affine, List.length_map, List.map_map, ← mul_div_assoc, ← List.sum_map_mul_left]
  congr 2
  apply List.map_congr_left
  intro x _
  simp only [Function.comp]
  rw [← mul_pow]
  congr 1
  field_simp
  ring

/-- The kurtosis is unchanged by shifting and (non-zero) scaling the returns. -/
theorem C70_kurtosis_invariant (l : List K) (a b : K) (ha : a ≠ 0) : kurtWin (l.map (fun x => a * x + b)) = kurtWin l := by
  unfold kurtWin
  rw [centralMoment_affine, centralMoment_affine]
  by_cases h : centralMoment 2 l = 0
  · rw [if_pos h, if_pos (by rw [h, mul_zero])]
  · rw [if_neg h, if_neg (mul_ne_zero (pow_ne_zero _ ha) h)]
    congr 2
    field_simp

example : (-3 : ℚ) ≠ 0 ∧ kurtWin (([0, 0, 0, 4] : List ℚ).map (fun x => -3 * x + 7)) = some (-2 / 3) := by decide +kernel

/-- `(Σ x)² ≤ n Σ x²`. -/
theorem sq_sum_le_length_mul (l : List K) : l.sum ^ 2 ≤ (l.length : K) * (l.map (fun x => x ^ 2)).sum := by
  by_cases h : l = []
  · subst h; simp
  have hn := length_ne_zero_cast l h
  have hn0 : (0 : K) < l.length := by exact_mod_cast List.length_pos_iff.mpr h
  have h2 : (l.map (fun v => (v - l.sum / l.length) ^ 2)).sum = (l.map (fun v => v ^ 2)).sum - 2 * (l.sum / l.length) * l.sum + l.length * (l.sum / l.length) ^ 2 := by
    generalize l.sum / (l.length : K) = c
    clear h hn hn0
    induction l with
    | nil => simp
    | cons a l ih => simp only [List.map_cons, List.sum_cons, ih, List.length_cons]; push_cast; ring
  have h3 := sum_map_nonneg l (fun v => (v - l.sum / l.length) ^ 2) (fun a _ => sq_nonneg _)
  rw [h2] at h3
  have h4 := mul_nonneg hn0.le h3
  have h5 : (l.length : K) * ((l.map (fun v => v ^ 2)).sum - 2 * (l.sum / l.length) * l.sum + l.length * (l.sum / l.length) ^ 2)
      = l.length * (l.map (fun v => v ^ 2)).sum - l.sum ^ 2 := by field_simp; ring
  rw [h5] at h4
  linarith

/-- The excess kurtosis is at least -2. -/
theorem C70_kurtosis_lower_bound (l : List K) (y : K) (h : kurtWin l = some y) : -2 ≤ y := by
  unfold kurtWin at h
  split at h
  · cases h
  rename_i h0
  injection h with h
  subst h
  have hl : l ≠ [] := by
    rintro rfl
    simp [centralMoment] at h0
  have hn0 : (0 : K) < l.length := by exact_mod_cast List.length_pos_iff.mpr hl
  have key := sq_sum_le_length_mul (l.map (fun x => (x - l.sum / (l.length : K)) ^ 2))
  rw [List.map_map, List.length_map] at key
  have e : (l.map ((fun x => x ^ 2) ∘ fun x => (x - l.sum / (l.length : K)) ^ 2)) = l.map (fun x => (x - l.sum / (l.length : K)) ^ 4) := by
    apply List.map_congr_left
    intro x _
    simp only [Function.comp]
    ring
  rw [e] at key
  have h2 : centralMoment 2 l ^ 2 ≤ centralMoment 4 l := by
    unfold centralMoment
    rw [div_pow, div_le_div_iff₀ (by positivity) hn0]
    nlinarith
  have h3 : 0 < centralMoment 2 l ^ 2 := by positivity
  have : 1 ≤ centralMoment 4 l / centralMoment 2 l ^ 2 := by rw [le_div_iff₀ h3]; linarith
  linarith

/-- The bound is attained by two equally frequent values. -/
example : kurtWin ([1, 5, 1, 5] : List ℚ) = some (-2) := by decide +kernel

/-- The kurtosis is missing exactly when all returns of the window agree. -/
theorem C70_kurtosis_missing_iff (l : List K) (hl : l ≠ []) : kurtWin l = none ↔ ∃ c, ∀ x ∈ l, x = c := by
  have hn0 : (0 : K) < l.length := by exact_mod_cast List.length_pos_iff.mpr hl
  unfold kurtWin
  constructor
  · intro h
    split at h
    · rename_i h0
      unfold centralMoment at h0
      rw [div_eq_zero_iff, or_iff_left hn0.ne'] at h0
      refine ⟨l.sum / (l.length : K), fun x hx => ?_⟩
      have : (x - l.sum / (l.length : K)) ^ 2 ≤ 0 := by
        rw [← h0]
        exact List.single_le_sum (by simp only [List.mem_map]; rintro _ ⟨a, _, rfl⟩; exact sq_nonneg _) _ (List.mem_map_of_mem hx)
      have := pow_eq_zero_iff (two_ne_zero) |>.mp (le_antisymm this (sq_nonneg _))
      linarith
    · cases h
  · rintro ⟨c, hc⟩
    rw [if_pos]
    unfold centralMoment
    have hs : l.sum = l.length * c := by
      rw [List.sum_eq_card_nsmul l c hc, nsmul_eq_mul]
    rw [div_eq_zero_iff]
    left
    apply List.sum_eq_zero
    simp only [List.mem_map]
    rintro _ ⟨a, ha, rfl⟩
    rw [hs, mul_div_cancel_left₀ _ hn0.ne', hc a ha, sub_self]
    simp

example : kurtWin ([2, 2, 2] : List ℚ) = none ∧ kurtWin ([0, 0, 0, 4] : List ℚ) = some (-2/3) := by decide +kernel

/-! ## Mean-reversion score -/

/-- The score is the library z-score with `ddof = 1` whenever that has two values to use. -/
theorem C70_meanrev_eq_zscore (sqrt : K → K) (l : List K) (h : 2 ≤ l.length) : mrzWin sqrt l = zscoreWin sqrt 1 l := by
  unfold mrzWin zscoreWin
  rw [if_neg (by omega)]
  simp only [Nat.cast_one]
  split <;> simp_all

example : 2 ≤ ([0, 2, 4] : List ℚ).length ∧ zscoreWin (fun v => if v = 4 then 2 else v) 1 ([0, 2, 4] : List ℚ) = some 1 := by decide +kernel

/-- A one-bar window never has a score. -/
theorem C70_meanrev_window_one (sqrt : K → K) (a : K) : mrzWin sqrt [a] = none := rfl

/-- Shifting all prices does not change the score; scaling by a positive factor does not either, for a square root
with `sqrt (a² v) = a sqrt v`. -/
theorem C70_meanrev_invariant (sqrt : K → K) (hs : ∀ a v : K, 0 < a → sqrt (a ^ 2 * v) = a * sqrt v) (l : List K) (a b : K) (ha : 0 < a) :
    mrzWin sqrt (l.map (fun x => a * x + b)) = mrzWin sqrt l := by
  unfold mrzWin
  rw [List.length_map]
  by_cases hlen : l.length ≤ 1
  · rw [if_pos hlen, if_pos hlen]
  have hl : l ≠ [] := by rintro rfl; simp at hlen
  have hn := length_ne_zero_cast l hl
  rw [if_neg hlen, if_neg hlen]
  have hm : (l.map (fun x => a * x + b)).sum / (l.length : K) = a * (l.sum / l.length) + b := by
    rw [sum_map_affine]; field_simp
  have hv : ((l.map (fun x => a * x + b)).map (fun x => (x - (l.map (fun x => a * x + b)).sum / (l.length : K)) ^ 2)).sum / ((l.length : K) - 1)
      = a ^ 2 * ((l.map (fun x => (x - l.sum / (l.length : K)) ^ 2)).sum / ((l.length : K) - 1)) := by
    rw [hm, List.map_map, ← mul_div_assoc (a ^ 2), ← List.sum_map_mul_left]
    congr 2
    apply List.map_congr_left
    intro x _
    simp only [Function.comp]
    ring
  have hlast : (l.map (fun x => a * x + b)).getLastD 0 = a * l.getLastD 0 + b := by
    rw [List.getLastD_eq_getLast?, List.getLastD_eq_getLast?, List.getLast?_map, List.getLast?_eq_some_getLast hl]
    rfl
  dsimp only
  rw [hv, hs _ _ ha, hm, hlast]
  by_cases h0 : sqrt ((l.map (fun x => (x - l.sum / (l.length : K)) ^ 2)).sum / ((l.length : K) - 1)) = 0
  · rw [h0, mul_zero]; simp
  · rw [if_neg (mul_ne_zero ha.ne' h0), if_neg h0]
    congr 1
    field_simp
    ring

example : (∀ a v : ℝ, 0 < a → Real.sqrt (a ^ 2 * v) = a * Real.sqrt v) := by
  intro a v ha
  rw [Real.sqrt_mul (sq_nonneg a), Real.sqrt_sq ha.le]

/-- Scores are bounded: the square of a score over `n` bars is at most `(n-1)² / n` (for a square root with
`sqrt v ^ 2 = v`). -/
theorem C70_meanrev_bound (sqrt : K → K) (hs : ∀ v : K, 0 ≤ v → sqrt v ^ 2 = v) (l : List K) (y : K) (h : mrzWin sqrt l = some y) :
    y ^ 2 * (l.length : K) ≤ ((l.length : K) - 1) ^ 2 := by
  unfold mrzWin at h
  split at h
  · cases h
  rename_i hlen
  have hl : l ≠ [] := by rintro rfl; simp at hlen
  have hn := length_ne_zero_cast l hl
  have hn2 : (2 : K) ≤ l.length := by exact_mod_cast (by omega : 2 ≤ l.length)
  dsimp only at h
  split at h
  · cases h
  rename_i hstd
  injection h with h
  set m := l.sum / (l.length : K) with hm
  set S := (l.map (fun x => (x - m) ^ 2)).sum with hS
  have hS0 : 0 ≤ S := sum_map_nonneg _ _ (fun _ _ => sq_nonneg _)
  have hv := hs (S / ((l.length : K) - 1)) (div_nonneg hS0 (by linarith))
  have hpos : 0 < S / ((l.length : K) - 1) := by
    rw [← hv]; positivity
  have hSpos : 0 < S := by
    rcases lt_or_eq_of_le hS0 with h' | h'
    · exact h'
    · rw [← h', zero_div] at hpos; exact absurd hpos (lt_irrefl _)
  obtain ⟨init, z, rfl⟩ : ∃ init z, l = init ++ [z] := ⟨l.dropLast, l.getLast hl, (List.dropLast_append_getLast hl).symm⟩
  have hlast : (init ++ [z]).getLastD 0 = z := by simp [List.getLastD_eq_getLast?]
  have hsum0 : (init.map (fun x => x - m)).sum = -(z - m) := by
    have : ((init ++ [z]).map (fun x => x - m)).sum = 0 := by
      have e : ∀ t : List K, (t.map (fun x => x - m)).sum = t.sum - t.length * m := by
        intro t
        induction t with
        | nil => simp
        | cons a t ih => simp only [List.map_cons, List.sum_cons, ih, List.length_cons]; push_cast; ring
      rw [e, hm]
      field_simp
      ring
    rw [List.map_append, List.sum_append] at this
    simp at this
    simp
    linarith
  have hcs := sq_sum_le_length_mul (init.map (fun x => x - m))
  rw [hsum0, List.map_map, List.length_map] at hcs
  have hSe : S = (init.map ((fun x => x ^ 2) ∘ fun x => x - m)).sum + (z - m) ^ 2 := by
    rw [hS, List.map_append, List.sum_append]; simp [Function.comp_def]
  have hlenc : (((init ++ [z]).length : Nat) : K) = (init.length : K) + 1 := by simp
  rw [← h, hlast, div_pow, hv, hlenc]
  rw [hlenc] at hpos
  have hk : (0 : K) < init.length := by rw [hlenc] at hn2; linarith
  have e2 : (z - m) ^ 2 / (S / ((init.length : K) + 1 - 1)) * ((init.length : K) + 1) = ((z - m) ^ 2 * init.length * (init.length + 1)) / S := by
    have : (init.length : K) + 1 - 1 = init.length := by ring
    rw [this]
    field_simp
  rw [e2, div_le_iff₀ hSpos]
  have : ((init.length : K) + 1 - 1) ^ 2 * S = init.length * (init.length * S) := by ring
  rw [this]
  have : (z - m) ^ 2 * (init.length + 1) ≤ (init.length : K) * S := by rw [hSe]; nlinarith
  nlinarith

example : ∃ l : List ℚ, ∃ y, mrzWin (fun v => if v = 4 then 2 else v) l = some y ∧ y ≠ 0 := ⟨[0, 2, 4], 1, by decide +kernel⟩

/-! ## The columns -/

/-- Row `i` of the kurtosis column is present exactly when the last `w` returns exist and do not all agree; it is then their excess kurtosis and at least -2. -/
theorem C70_kurtosis_column (w : Nat) (hw : 0 < w) (xs : List (Option K)) (i : Nat) (hi : i < xs.length) :
    ((kurtosis w xs)[i]? = some none ↔
      ¬ (w ≤ i + 1 ∧ ∃ l : List K, (xs.drop (i + 1 - w)).take w = l.map some ∧ ¬ ∃ c, ∀ x ∈ l, x = c)) ∧
    ∀ y, (kurtosis w xs)[i]? = some (some y) → -2 ≤ y ∧ ∃ l : List K, (xs.drop (i + 1 - w)).take w = l.map some ∧ kurtWin l = some y := by
  have key := fun y => C70_rolling_iff xs w i kurtWin y hi
  constructor
  · have hl : ∃ o, (pdRolling xs w kurtWin)[i]? = some o := ⟨_, rolling_get? xs w _ i hi⟩
    obtain ⟨o, ho⟩ := hl
    have ho' : (kurtosis w xs)[i]? = some o := ho
    rw [ho']
    have hne : ∀ l : List K, w ≤ i + 1 → (xs.drop (i + 1 - w)).take w = l.map some → l ≠ [] := by
      rintro l h1 h2 rfl
      have := congrArg List.length h2
      simp only [List.length_take, List.length_drop, List.map_nil, List.length_nil] at this
      omega
    cases o with
    | none =>
      simp only [true_iff]
      rintro ⟨h1, l, h2, h3⟩
      rw [← C70_kurtosis_missing_iff l (hne l h1 h2)] at h3
      obtain ⟨y, hy⟩ := Option.ne_none_iff_exists'.mp h3
      have := (key y).mpr ⟨h1, l, h2, hy⟩
      rw [ho] at this
      cases this
    | some y =>
      simp only [Option.some.injEq, reduceCtorEq, false_iff, not_not]
      obtain ⟨h1, l, h2, h3⟩ := (key y).mp ho
      refine ⟨h1, l, h2, ?_⟩
      rw [← C70_kurtosis_missing_iff l (hne l h1 h2), h3]
      simp
  · intro y hy
    obtain ⟨_, l, h2, h3⟩ := (key y).mp hy
    exact ⟨C70_kurtosis_lower_bound l y h3, l, h2, h3⟩

example : kurtosis 4 ([none, some 1, some 5, some 1, some 5, some 5, some 5, some 5] : List (Option ℚ)) =
    [none, none, none, none, some (-2), some (-2 / 3), some (-2 / 3), none] := by decide +kernel

/-- Row `i` of the mean-reversion column is the sample z-score (`ddof = 1`) of the last `w` prices, and missing when one of them is. -/
theorem C70_meanrev_column (sqrt : K → K) (w : Nat) (hw : 2 ≤ w) (xs : List (Option K)) (i : Nat) (hi : i < xs.length) (y : K) :
    (meanRevZ sqrt w xs)[i]? = some (some y) ↔
      w ≤ i + 1 ∧ ∃ l : List K, (xs.drop (i + 1 - w)).take w = l.map some ∧ zscoreWin sqrt 1 l = some y := by
  unfold meanRevZ
  rw [C70_rolling_iff xs w i (mrzWin sqrt) y hi]
  refine and_congr_right (fun h => exists_congr (fun l => and_congr_right (fun h2 => ?_)))
  rw [C70_meanrev_eq_zscore]
  have := congrArg List.length h2
  simp only [List.length_take, List.length_drop, List.length_map] at this
  omega

example : meanRevZ (fun v => if v = 4 then 2 else v) 3 ([some 9, none, some 0, some 2, some 4] : List (Option ℚ)) = [none, none, none, none, some 1] := by decide +kernel

end FinML
