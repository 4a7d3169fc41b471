/-
C137: Bollinger %B in float64 arithmetic (`finmlkit/feature/core/volatility.py:289-338`).
-/
import Verif.Model.Float64Bollinger
import Verif.Props.Features64
import Verif.Props.TripleBarrier64
import Verif.Props.Dispersion64
import Verif.Props.Volatility
import Verif.Props.RunningSums64
import Verif.Props.TradeSize64
import Verif.Props.Variance
import Verif.Props.Returns64

set_option linter.unusedSectionVars false

namespace FinML

/-! ### The bands and the side of the price -/

/-- **C137.** Whatever the mean, the deviation and the multiplier, %B is on the correct side of the bands that were computed: negative
exactly below the lower band, zero exactly on it, at most one up to the upper band and at least one from it on. -/
theorem C137_side (c lower upper r : ℚ) (h : bollPos64 c lower upper = some r) :
    (r < 0 ↔ c < lower) ∧ (r = 0 ↔ c = lower) ∧ (c ≤ upper → r ≤ 1) ∧ (upper ≤ c → 1 ≤ r) := by
  unfold bollPos64 at h
  split at h
  swap
  · cases h
  rename_i hlt
  cases h
  have hw : 0 < f64 (upper - lower) := (f64_pos_iff _).mpr (by linarith)
  have h1 : f64 1 = 1 := by decide +kernel
  refine ⟨?_, ?_, ?_, ?_⟩
  · rw [f64_neg_iff, div_neg_iff]
    constructor
    · rintro (⟨_, h⟩ | ⟨h, _⟩)
      · linarith
      · rw [f64_neg_iff] at h; linarith
    · intro h
      exact Or.inr ⟨(f64_neg_iff _).mpr (by linarith), hw⟩
  · rw [f64_eq_zero_iff, div_eq_zero_iff, or_iff_left hw.ne', f64_eq_zero_iff, sub_eq_zero]
  · intro h
    rw [← h1]
    apply f64_mono
    rw [div_le_one hw]
    exact f64_mono (by linarith)
  · intro h
    rw [← h1]
    apply f64_mono
    rw [one_le_div hw]
    exact f64_mono (by linarith)

example : bollPos64 11 10 12 = some (1 / 2) ∧ bollPos64 9 10 12 = some (-1 / 2) ∧ bollPos64 13 10 12 = some (3 / 2) := by decide +kernel

/-- **C137.** For a stored mean and a non-negative deviation and multiplier the computed bands enclose the mean, and %B is missing
exactly when both bands round to the mean; then the half-width of the bands is at most `2^-52` of the mean. -/
theorem C137_bands (numStd mean sd c : ℚ) (hm : f64 mean = mean) (hs : 0 ≤ sd) (hk : 0 ≤ numStd) :
    bollLower64 numStd mean sd ≤ mean ∧ mean ≤ bollUpper64 numStd mean sd ∧
    (bollPos64 c (bollLower64 numStd mean sd) (bollUpper64 numStd mean sd) = none ↔
      bollLower64 numStd mean sd = mean ∧ bollUpper64 numStd mean sd = mean) ∧
    (bollPos64 c (bollLower64 numStd mean sd) (bollUpper64 numStd mean sd) = none → numStd * sd ≤ |mean| / 2 ^ 52) := by
  have hd : 0 ≤ f64 (numStd * sd) := f64_nonneg (mul_nonneg hk hs)
  have h1 : bollLower64 numStd mean sd ≤ mean := by
    unfold bollLower64
    calc f64 (mean - f64 (numStd * sd)) ≤ f64 mean := f64_mono (by linarith)
      _ = mean := hm
  have h2 : mean ≤ bollUpper64 numStd mean sd := by
    unfold bollUpper64
    calc mean = f64 mean := hm.symm
      _ ≤ _ := f64_mono (by linarith)
  have h3 : bollPos64 c (bollLower64 numStd mean sd) (bollUpper64 numStd mean sd) = none ↔
      bollLower64 numStd mean sd = mean ∧ bollUpper64 numStd mean sd = mean := by
    unfold bollPos64
    split
    · rename_i h
      constructor
      · intro h; cases h
      · rintro ⟨e1, e2⟩; rw [e1, e2] at h; exact absurd h (lt_irrefl _)
    · rename_i h
      rw [not_lt] at h
      exact ⟨fun _ => ⟨le_antisymm h1 (by linarith), le_antisymm (by linarith) h2⟩, fun _ => rfl⟩
  refine ⟨h1, h2, h3, fun h => ?_⟩
  obtain ⟨e1, e2⟩ := h3.mp h
  have hp := f64_relErr (numStd * sd)
  rw [abs_of_nonneg (mul_nonneg hk hs)] at hp
  have hp' := abs_le.mp hp
  unfold bollUpper64 at e2
  unfold bollLower64 at e1
  have r1 := f64_relErr (mean + f64 (numStd * sd))
  have r2 := f64_relErr (mean - f64 (numStd * sd))
  rw [e2, show mean - (mean + f64 (numStd * sd)) = -f64 (numStd * sd) by ring, abs_neg, abs_of_nonneg hd] at r1
  rw [e1, show mean - (mean - f64 (numStd * sd)) = f64 (numStd * sd) by ring, abs_of_nonneg hd] at r2
  have r3 : f64 (numStd * sd) ≤ (|mean| + f64 (numStd * sd)) / 2 ^ 53 := by
    refine r1.trans ?_
    gcongr
    calc |mean + f64 (numStd * sd)| ≤ |mean| + |f64 (numStd * sd)| := abs_add_le _ _
      _ = _ := by rw [abs_of_nonneg hd]
  have ha := abs_nonneg mean
  linarith [hp'.1, hp'.2]

example : bollPos64 3 (bollLower64 2 1 (1 / 4)) (bollUpper64 2 1 (1 / 4)) = some (5 / 2) ∧
    bollPos64 3 (bollLower64 2 1 (1 / 2 ^ 60)) (bollUpper64 2 1 (1 / 2 ^ 60)) = none := by decide +kernel

/-- The last step of the error analysis: quotient of a numerator and a denominator with known errors. -/
theorem boll_quot (b d g u h0 N W R : ℚ) (hd : 0 < d) (hu : 0 < u) (hu1 : u ≤ 1 / 1000000) (hg0 : 0 < g) (hg8 : g ≤ 1 / 8)
    (hg : g = h0 - 19 / 10 * u) (hh4 : 4 * u ≤ h0) (hc : h0 ≤ 1 / 8)
    (dN : |N - b * (2 * d)| ≤ d * (g + u * (2 * |b| + g))) (dW : |W - 2 * d| ≤ d * (2 * g + u * (2 + 2 * g)))
    (rr : |R - N / W| ≤ |N / W| * u) : |R - b| ≤ (1 + 2 * |b|) * h0 := by
  have hb0 := abs_nonneg b
  have hh0 : 0 < h0 := by linarith
  have hug : u * g ≤ u / 8 := by nlinarith
  have hW : d * (17 / 10) ≤ W := by
    have h1 := (abs_le.mp dW).1
    have h2 : d * (2 * g + u * (2 + 2 * g)) ≤ d * (3 / 10) := mul_le_mul_of_nonneg_left (by linarith) hd.le
    linarith
  have hW0 : 0 < W := by linarith
  have q : |N / W - b| ≤ (1 + 2 * |b|) * (13 / 20 * h0) := by
    have e : N / W - b = ((N - b * (2 * d)) - b * (W - 2 * d)) / W := by field_simp; ring
    rw [e, abs_div, abs_of_pos hW0, div_le_iff₀ hW0]
    have h5 : g + u * g + 2 * u ≤ 11 / 10 * h0 := by linarith
    calc |(N - b * (2 * d)) - b * (W - 2 * d)| ≤ |N - b * (2 * d)| + |b * (W - 2 * d)| := abs_sub _ _
      _ ≤ d * (g + u * (2 * |b| + g)) + |b| * (d * (2 * g + u * (2 + 2 * g))) := by rw [abs_mul]; gcongr
      _ = d * ((1 + 2 * |b|) * (g + u * g) + 4 * u * |b|) := by ring
      _ ≤ d * ((1 + 2 * |b|) * (g + u * g + 2 * u)) := by
          apply mul_le_mul_of_nonneg_left _ hd.le
          linarith [mul_comm u (|b|)]
      _ ≤ d * ((1 + 2 * |b|) * (11 / 10 * h0)) := by gcongr
      _ ≤ (1 + 2 * |b|) * (13 / 20 * h0) * (d * (17 / 10)) := by
          have : 0 ≤ (1 + 2 * |b|) * h0 * d := by positivity
          linarith
      _ ≤ _ := by gcongr
  have rN : |N / W| ≤ |b| + (1 + 2 * |b|) * (13 / 20 * h0) := by
    calc |N / W| = |b + (N / W - b)| := by congr 1; ring
      _ ≤ |b| + |N / W - b| := abs_add_le _ _
      _ ≤ _ := by linarith
  have rN2 : |N / W| ≤ (1 + 2 * |b|) * (3 / 5) := by
    have : (1 + 2 * |b|) * (13 / 20 * h0) ≤ (1 + 2 * |b|) * (1 / 10) := by gcongr; linarith
    linarith
  calc |R - b| = |(R - N / W) + (N / W - b)| := by congr 1; ring
    _ ≤ |R - N / W| + |N / W - b| := abs_add_le _ _
    _ ≤ (1 + 2 * |b|) * (3 / 5) * u + (1 + 2 * |b|) * (13 / 20 * h0) := by
        have : |N / W| * u ≤ (1 + 2 * |b|) * (3 / 5) * u := by gcongr
        linarith
    _ = (1 + 2 * |b|) * (3 / 5 * u + 13 / 20 * h0) := by ring
    _ ≤ _ := by gcongr; linarith

/-- **C137.** Accuracy for a given mean and deviation: with `d = num_std * sd` the computed %B is within
`(|mean| / d + 4) (1 + 2 |b|) 2^-53` of the exact `b`, as long as `(|mean| / d + 4) 2^-53 ≤ 1/8`. -/
theorem C137_value (numStd mean sd c r : ℚ) (hd : 0 < numStd * sd)
    (hc : (|mean| / (numStd * sd) + 4) / 2 ^ 53 ≤ 1 / 8)
    (h : bollPos64 c (bollLower64 numStd mean sd) (bollUpper64 numStd mean sd) = some r) :
    let b := (c - (mean - numStd * sd)) / ((mean + numStd * sd) - (mean - numStd * sd))
    |r - b| ≤ (|mean| / (numStd * sd) + 4) * (1 + 2 * |b|) / 2 ^ 53 := by
  unfold bollPos64 bollLower64 bollUpper64 at h
  generalize numStd * sd = d at *
  intro b
  have hu : (0 : ℚ) < 1 / 2 ^ 53 := by positivity
  have hu1 : (1 : ℚ) / 2 ^ 53 ≤ 1 / 1000000 := by norm_num
  split at h
  swap
  · cases h
  cases h
  have eb : b = (c - (mean - d)) / (2 * d) := by
    show (c - (mean - d)) / ((mean + d) - (mean - d)) = _
    congr 1; ring
  have eN : c - (mean - d) = b * (2 * d) := by rw [eb]; field_simp
  clear_value b
  have ep := f64_relErr d
  rw [abs_of_pos hd] at ep
  generalize f64 d = p at *
  have hp : |p| ≤ d + d / 2 ^ 53 := by
    calc |p| = |d + (p - d)| := by congr 1; ring
      _ ≤ |d| + |p - d| := abs_add_le _ _
      _ ≤ _ := by rw [abs_of_pos hd]; linarith
  have el := f64_relErr (mean - p)
  have eu := f64_relErr (mean + p)
  have hl : |mean - p| ≤ |mean| + |p| := abs_sub _ _
  have hu' : |mean + p| ≤ |mean| + |p| := abs_add_le _ _
  generalize f64 (mean - p) = lo at *
  generalize f64 (mean + p) = up at *
  -- errors of the bands
  obtain ⟨h0, hh⟩ : ∃ h0 : ℚ, h0 = (|mean| / d + 4) / 2 ^ 53 := ⟨_, rfl⟩
  rw [← hh] at hc
  have hm : |mean| / 2 ^ 53 = d * (h0 - 4 / 2 ^ 53) := by rw [hh]; field_simp; ring
  have hm0 : 0 ≤ d * (h0 - 4 / 2 ^ 53) := by rw [← hm]; positivity
  have hh4 : 4 / 2 ^ 53 ≤ h0 := by nlinarith
  have dl : |lo - (mean - d)| ≤ d * (h0 - 19 / 10 / 2 ^ 53) := by
    calc |lo - (mean - d)| = |(lo - (mean - p)) + (d - p)| := by congr 1; ring
      _ ≤ |lo - (mean - p)| + |d - p| := abs_add_le _ _
      _ ≤ (|mean| + (d + d / 2 ^ 53)) / 2 ^ 53 + d / 2 ^ 53 := by
          rw [abs_sub_comm d p]
          have : |mean - p| / 2 ^ 53 ≤ (|mean| + (d + d / 2 ^ 53)) / 2 ^ 53 := by gcongr; linarith
          linarith
      _ = d * (h0 - 4 / 2 ^ 53) + d * (2 / 2 ^ 53 + 1 / 2 ^ 53 / 2 ^ 53) := by rw [add_div, hm]; ring
      _ ≤ _ := by
          rw [← mul_add]
          apply mul_le_mul_of_nonneg_left _ hd.le
          norm_num
          linarith
  have du : |up - (mean + d)| ≤ d * (h0 - 19 / 10 / 2 ^ 53) := by
    calc |up - (mean + d)| = |(up - (mean + p)) + (p - d)| := by congr 1; ring
      _ ≤ |up - (mean + p)| + |p - d| := abs_add_le _ _
      _ ≤ (|mean| + (d + d / 2 ^ 53)) / 2 ^ 53 + d / 2 ^ 53 := by
          have : |mean + p| / 2 ^ 53 ≤ (|mean| + (d + d / 2 ^ 53)) / 2 ^ 53 := by gcongr; linarith
          linarith
      _ = d * (h0 - 4 / 2 ^ 53) + d * (2 / 2 ^ 53 + 1 / 2 ^ 53 / 2 ^ 53) := by rw [add_div, hm]; ring
      _ ≤ _ := by
          rw [← mul_add]
          apply mul_le_mul_of_nonneg_left _ hd.le
          norm_num
          linarith
  generalize hu53 : (1 : ℚ) / 2 ^ 53 = u at *
  have e19 : (19 / 10 / 2 ^ 53 : ℚ) = 19 / 10 * u := by rw [← hu53]; ring
  have e4 : (4 / 2 ^ 53 : ℚ) = 4 * u := by rw [← hu53]; ring
  rw [e19] at dl du
  rw [e4] at hh4
  generalize hg : h0 - 19 / 10 * u = g at *
  have hg0 : 0 < g := by linarith
  have hg8 : g ≤ 1 / 8 := by linarith
  -- numerator and denominator
  have en := f64_relErr (c - lo)
  have ew := f64_relErr (up - lo)
  have dN : |f64 (c - lo) - b * (2 * d)| ≤ d * (g + u * (2 * |b| + g)) := by
    have t1 : |(c - lo) - b * (2 * d)| ≤ d * g := by
      rw [← eN]
      calc _ = |lo - (mean - d)| := by rw [abs_sub_comm]; congr 1; ring
        _ ≤ _ := dl
    have t2 : |c - lo| ≤ d * (2 * |b| + g) := by
      calc |c - lo| = |b * (2 * d) + ((c - lo) - b * (2 * d))| := by congr 1; ring
        _ ≤ |b * (2 * d)| + _ := abs_add_le _ _
        _ ≤ |b| * (2 * d) + d * g := by rw [abs_mul, abs_of_pos (by linarith : (0:ℚ) < 2 * d)]; linarith
        _ = _ := by ring
    calc _ = |(f64 (c - lo) - (c - lo)) + ((c - lo) - b * (2 * d))| := by congr 1; ring
      _ ≤ _ := abs_add_le _ _
      _ ≤ |c - lo| * u + d * g := by rw [← hu53]; linarith [show |c - lo| / 2 ^ 53 = |c - lo| * (1 / 2 ^ 53) by ring]
      _ ≤ d * (2 * |b| + g) * u + d * g := by gcongr
      _ = _ := by ring
  have dW : |f64 (up - lo) - 2 * d| ≤ d * (2 * g + u * (2 + 2 * g)) := by
    have t1 : |(up - lo) - 2 * d| ≤ d * (2 * g) := by
      calc _ = |(up - (mean + d)) - (lo - (mean - d))| := by congr 1; ring
        _ ≤ |up - (mean + d)| + |lo - (mean - d)| := abs_sub _ _
        _ ≤ _ := by linarith
    have t2 : |up - lo| ≤ d * (2 + 2 * g) := by
      calc |up - lo| = |2 * d + ((up - lo) - 2 * d)| := by congr 1; ring
        _ ≤ |2 * d| + _ := abs_add_le _ _
        _ ≤ 2 * d + d * (2 * g) := by rw [abs_of_pos (by linarith : (0:ℚ) < 2 * d)]; linarith
        _ = _ := by ring
    calc _ = |(f64 (up - lo) - (up - lo)) + ((up - lo) - 2 * d)| := by congr 1; ring
      _ ≤ _ := abs_add_le _ _
      _ ≤ |up - lo| * u + d * (2 * g) := by rw [← hu53]; linarith [show |up - lo| / 2 ^ 53 = |up - lo| * (1 / 2 ^ 53) by ring]
      _ ≤ d * (2 + 2 * g) * u + d * (2 * g) := by gcongr
      _ = _ := by ring
  have key := boll_quot b d g u h0 _ _ _ hd hu hu1 hg0 hg8 (by linarith) hh4 hc dN dW
    (by rw [← hu53]; exact (f64_relErr (f64 (c - lo) / f64 (up - lo))).trans (le_of_eq (by ring)))
  refine key.trans (le_of_eq ?_)
  rw [hh]; ring

example : (|(10 : ℚ)| / (2 * (1 / 3)) + 4) / 2 ^ 53 ≤ 1 / 8 ∧ bollPos64 10 (bollLower64 2 10 (1 / 3)) (bollUpper64 2 10 (1 / 3)) ≠ none := by
  decide +kernel

/-! ### The running sums and the variance -/

/-- The exact sum behind an entry of a running sum. -/
theorem runPairs_sum (xs : List ℚ) (w n : Nat) (h : w + n ≤ xs.length) :
    (xs.take w).sum + ((((xs.drop w).zip xs).take n).map (fun x => x.1 - x.2)).sum = (xs.take (w + n)).sum - (xs.take n).sum := by
  induction n with
  | zero => simp
  | succ n ih =>
    have hl : n < ((xs.drop w).zip xs).length := by simp; omega
    rw [List.take_succ_eq_append_getElem hl, List.map_append, List.sum_append, ← add_assoc, ih (by omega)]
    rw [show w + (n + 1) = (w + n) + 1 by omega, List.take_succ_eq_append_getElem (show w + n < xs.length by omega),
      List.take_succ_eq_append_getElem (show n < xs.length by omega), List.sum_append, List.sum_append]
    simp
    ring

/-- A running sum over `w ≥ 2` entries of size at most `X` is off by at most `6 (w + n) w X 2^-53` after `n` updates. -/
theorem runSums64_err (xs : List ℚ) (w n : Nat) (X : ℚ) (hw : 2 ≤ w) (h : w + n ≤ xs.length) (hN : w + n ≤ 2 ^ 40)
    (hX : ∀ x ∈ xs, |x| ≤ X) :
    ∃ s, (runSums64 xs w)[n]? = some s ∧ |s - (window xs w (w + n - 1)).sum| ≤ 6 * ((w + n : Nat) : ℚ) * (w * X) / 2 ^ 53 ∧
      |(window xs w (w + n - 1)).sum| ≤ w * X := by
  have hX0 : 0 ≤ X := by
    cases xs with
    | nil => simp at h; omega
    | cons a t => exact (abs_nonneg a).trans (hX a (by simp))
  have hl : n ≤ ((xs.drop w).zip xs).length := by simp; omega
  refine ⟨(((xs.drop w).zip xs).take n).foldl runStep64 (sum64 (xs.take w)), ?_, ?_⟩
  · exact scanl_getElem? _ _ _ _ hl
  have wsum : ∀ m, w + m ≤ xs.length →
      (xs.take w).sum + ((((xs.drop w).zip xs).take m).map (fun x => x.1 - x.2)).sum = (window xs w (w + m - 1)).sum := by
    intro m hm
    rw [runPairs_sum xs w m hm, ← window_sum_sub xs w (w + m - 1) (by omega)]
    rw [show w + m - 1 + 1 = w + m by omega, show w + m - w = m by omega]
  have wabs : ∀ m, w + m ≤ xs.length → |(window xs w (w + m - 1)).sum| ≤ w * X := by
    intro m hm
    have hlen := window_length xs w (w + m - 1) (by omega) (by omega)
    have := (sum64_near X hX0 (window xs w (w + m - 1)) (by rw [hlen]; omega)
      (fun x hx => hX x (List.mem_of_mem_drop (List.mem_of_mem_take hx)))).2
    rwa [hlen] at this
  refine ⟨?_, wabs n h⟩
  have d := C90_drift_bound (2 * X) (w * X) (by linarith) (((xs.drop w).zip xs).take n) (sum64 (xs.take w)) ((xs.take w).sum)
    (fun x hx => by
      have hm := List.mem_of_mem_take hx
      have h1 := hX x.1 (List.mem_of_mem_drop (List.of_mem_zip hm).1)
      have h2 := hX x.2 (List.of_mem_zip hm).2
      exact (abs_sub _ _).trans (by linarith))
    (fun m hm => by
      rw [List.length_take] at hm
      rw [List.take_take, min_eq_left (by omega), wsum m (by omega)]
      exact wabs m (by omega))
  rw [wsum n h, List.length_take, min_eq_left hl] at d
  have e0 := (sum64_near X hX0 (xs.take w) (by rw [List.length_take]; omega) (fun x hx => hX x (List.mem_of_mem_take hx))).1
  rw [List.length_take, min_eq_left (by omega)] at e0
  have fu := factor_up n 0 (by omega)
  rw [pow_zero, div_one, add_zero] at fu
  generalize (window xs w (w + n - 1)).sum = S at *
  generalize (((xs.drop w).zip xs).take n).foldl runStep64 (sum64 (xs.take w)) = s at *
  have he0 := abs_nonneg (sum64 (xs.take w) - (xs.take w).sum)
  generalize |sum64 (xs.take w) - (xs.take w).sum| = e at *
  push_cast
  have hwq : (2 : ℚ) ≤ w := by exact_mod_cast hw
  have hnq : (0 : ℚ) ≤ n := by positivity
  have hNq : (w : ℚ) + n ≤ 2 ^ 40 := by exact_mod_cast hN
  have hwX : 2 * X ≤ w * X := by gcongr
  have he1 : e ≤ w * (w * X) / 2 ^ 53 := e0.trans (le_of_eq (by ring))
  have step : (1 + 1 / 2 ^ 53 : ℚ) ^ n * (e + (w * X + 3 * (2 * X))) ≤
      (1 + 4 / 3 * (n : ℚ) / 2 ^ 53) * (w * (w * X) / 2 ^ 53 + (w * X + 3 * (2 * X))) := by
    apply mul_le_mul fu _ _ (by positivity)
    · linarith
    · positivity
  generalize hT : (w : ℚ) * X = T at *
  have hT0 : 0 ≤ T := by rw [← hT]; positivity
  have hs : (4 / 3 * (n : ℚ) / 2 ^ 53) * (w * T / 2 ^ 53) ≤ 1 / 100 * (w * T / 2 ^ 53) := by
    apply mul_le_mul_of_nonneg_right _ (by positivity)
    rw [div_le_iff₀ (by positivity)]
    norm_num at hNq ⊢
    linarith
  have hs2 : (4 / 3 * (n : ℚ) / 2 ^ 53) * (T + 3 * (2 * X)) ≤ (4 / 3 * (n : ℚ) / 2 ^ 53) * (4 * T) :=
    mul_le_mul_of_nonneg_left (by linarith) (by positivity)
  have hnT : 0 ≤ n * T / 2 ^ 53 := by positivity
  have hwT : 0 ≤ w * T / 2 ^ 53 := by positivity
  have fin : |s - S| ≤ (1 + 1 / 100) * (w * T / 2 ^ 53) + 16 / 3 * (n * T / 2 ^ 53) := by
    have := d.trans step
    have e2 : (1 + 4 / 3 * (n : ℚ) / 2 ^ 53) * (w * T / 2 ^ 53 + (T + 3 * (2 * X))) =
      w * T / 2 ^ 53 + (T + 3 * (2 * X)) + (4 / 3 * (n : ℚ) / 2 ^ 53) * (w * T / 2 ^ 53) + (4 / 3 * (n : ℚ) / 2 ^ 53) * (T + 3 * (2 * X)) := by ring
    have e3 : (4 / 3 * (n : ℚ) / 2 ^ 53) * (4 * T) = 16 / 3 * (n * T / 2 ^ 53) := by ring
    rw [e2] at this
    rw [e3] at hs2
    linarith
  have e4 : 6 * ((w : ℚ) + n) * T / 2 ^ 53 = 6 * (w * T / 2 ^ 53) + 6 * (n * T / 2 ^ 53) := by ring
  rw [e4]
  linarith

example : (runSums64 [3, 5, 4, 9] 2)[2]? = some 13 ∧ (window ([3, 5, 4, 9] : List ℚ) 2 3).sum = 13 := by decide +kernel

/-- A rounded product of three factors. -/
theorem f64_prod3 (a b : ℚ) : |f64 (f64 a * b) - a * b| ≤ (2 / 2 ^ 53 + 1 / 2 ^ 53 / 2 ^ 53) * |a * b| := by
  have h1 := f64_relErr a
  have h2 := f64_relErr (f64 a * b)
  have h3 : |f64 a * b - a * b| ≤ |a * b| / 2 ^ 53 := by
    rw [← sub_mul, abs_mul, abs_mul]
    calc |f64 a - a| * |b| ≤ |a| / 2 ^ 53 * |b| := by gcongr
      _ = _ := by ring
  have h4 : |f64 a * b| ≤ |a * b| + |a * b| / 2 ^ 53 := by
    calc |f64 a * b| = |a * b + (f64 a * b - a * b)| := by congr 1; ring
      _ ≤ _ := abs_add_le _ _
      _ ≤ _ := by linarith
  calc _ = |(f64 (f64 a * b) - f64 a * b) + (f64 a * b - a * b)| := by congr 1; ring
    _ ≤ _ := abs_add_le _ _
    _ ≤ (|a * b| + |a * b| / 2 ^ 53) / 2 ^ 53 + |a * b| / 2 ^ 53 := by
        have : |f64 a * b| / 2 ^ 53 ≤ (|a * b| + |a * b| / 2 ^ 53) / 2 ^ 53 := by gcongr
        linarith
    _ = _ := by ring

/-- Adding a rounding error to an approximation. -/
theorem approx_step (x y v A B u : ℚ) (h1 : |x - v| ≤ A) (h2 : |v| ≤ B) (hu : 0 ≤ u) (h3 : |y - x| ≤ u * |x|) :
    |y - v| ≤ A + u * (A + B) := by
  have hx : |x| ≤ A + B := by
    calc |x| = |(x - v) + v| := by congr 1; ring
      _ ≤ _ := abs_add_le _ _
      _ ≤ _ := by linarith
  calc |y - v| = |(y - x) + (x - v)| := by congr 1; ring
    _ ≤ _ := abs_add_le _ _
    _ ≤ u * (A + B) + A := by
        have := mul_le_mul_of_nonneg_left hx hu
        linarith
    _ = _ := by ring

/-- The error of the mean and of its square times the window. -/
theorem mean_sq_err (w X S s m P u η : ℚ) (hw : 2 ≤ w) (hX : 0 ≤ X) (hu : 0 ≤ u) (huη : u ≤ η) (hη : η ≤ 1 / 8)
    (h1 : |s - S| ≤ η * (w * X)) (hS : |S| ≤ w * X) (hm : |m - s / w| ≤ u * |s / w|)
    (hP : |P - w * (m * m)| ≤ (2 * u + u * u) * |w * (m * m)|) : |P - S ^ 2 / w| ≤ 9 * η * (w * X ^ 2) := by
  have hw0 : 0 < w := by linarith
  have a1 : |s / w - S / w| ≤ η * X := by
    rw [← sub_div, abs_div, abs_of_pos hw0, div_le_iff₀ hw0]
    exact h1.trans (le_of_eq (by ring))
  have a2 : |S / w| ≤ X := by
    rw [abs_div, abs_of_pos hw0, div_le_iff₀ hw0]
    exact hS.trans (le_of_eq (by ring))
  have hη0 : 0 ≤ η := hu.trans huη
  have a3 : |m - S / w| ≤ 17 / 8 * η * X := by
    refine (approx_step _ _ _ _ _ u a1 a2 hu hm).trans ?_
    have : u * (η * X + X) ≤ η * (1 / 8 * X + X) := by gcongr
    linarith
  have e : S ^ 2 / w = w * ((S / w) * (S / w)) := by field_simp
  rw [e]
  generalize S / w = μ at *
  have a4 : |m| ≤ 13 / 10 * X := by
    calc |m| = |(m - μ) + μ| := by congr 1; ring
      _ ≤ _ := abs_add_le _ _
      _ ≤ 17 / 8 * (1 / 8) * X + X := by
        have : 17 / 8 * η * X ≤ 17 / 8 * (1 / 8) * X := by gcongr
        linarith
      _ ≤ _ := by linarith
  have a5 : |w * (m * m) - w * (μ * μ)| ≤ 493 / 100 * η * (w * X ^ 2) := by
    have : w * (m * m) - w * (μ * μ) = w * ((m - μ) * (m + μ)) := by ring
    rw [this, abs_mul, abs_mul, abs_of_pos hw0]
    have hs : |m + μ| ≤ 23 / 10 * X := (abs_add_le _ _).trans (by linarith)
    calc w * (|m - μ| * |m + μ|) ≤ w * (17 / 8 * η * X * (23 / 10 * X)) := by gcongr
      _ = 17 / 8 * (23 / 10) * η * (w * X ^ 2) := by ring
      _ ≤ _ := by
        have : 0 ≤ η * (w * X ^ 2) := by positivity
        linarith
  have a6 : |w * (m * m)| ≤ 169 / 100 * (w * X ^ 2) := by
    rw [abs_mul, abs_mul, abs_of_pos hw0]
    calc w * (|m| * |m|) ≤ w * (13 / 10 * X * (13 / 10 * X)) := by gcongr
      _ = _ := by ring
  have a7 : |P - w * (m * m)| ≤ 36 / 10 * η * (w * X ^ 2) := by
    refine hP.trans ?_
    have : 2 * u + u * u ≤ 17 / 8 * η := by nlinarith
    calc (2 * u + u * u) * |w * (m * m)| ≤ (17 / 8 * η) * (169 / 100 * (w * X ^ 2)) := by gcongr
      _ = 17 / 8 * (169 / 100) * η * (w * X ^ 2) := by ring
      _ ≤ _ := by
        have : 0 ≤ η * (w * X ^ 2) := by positivity
        linarith
  calc |P - w * (μ * μ)| = |(P - w * (m * m)) + (w * (m * m) - w * (μ * μ))| := by congr 1; ring
    _ ≤ _ := abs_add_le _ _
    _ ≤ _ := by
      have : 0 ≤ η * (w * X ^ 2) := by positivity
      linarith

/-- The error of the variance from the errors of its ingredients. -/
theorem var_err (w T Q P q D V B u η : ℚ) (hw : 2 ≤ w) (hT : 0 ≤ T) (hu : 0 ≤ u) (huη : u ≤ η) (hη : η ≤ 1 / 8)
    (h1 : |q - Q| ≤ η * T) (h2 : |P - B| ≤ 9 * η * T) (h3 : |Q - B| ≤ T) (hD : |D - (q - P)| ≤ u * |q - P|)
    (hV : |V - D / (w - 1)| ≤ u * |D / (w - 1)|) : |V - (Q - B) / (w - 1)| ≤ 16 * η * (T / (w - 1)) := by
  have hw0 : 0 < w - 1 := by linarith
  have hη0 : 0 ≤ η := hu.trans huη
  have hηT : 0 ≤ η * T := by positivity
  have b1 : |(q - P) - (Q - B)| ≤ 10 * η * T := by
    calc _ = |(q - Q) - (P - B)| := by congr 1; ring
      _ ≤ _ := abs_sub _ _
      _ ≤ _ := by linarith
  have b2 : |D - (Q - B)| ≤ 123 / 10 * η * T := by
    refine (approx_step _ _ _ _ _ u b1 h3 hu hD).trans ?_
    have : u * (10 * η * T + T) ≤ η * (10 * (1 / 8) * T + T) := by gcongr
    linarith
  have b3 : |D / (w - 1) - (Q - B) / (w - 1)| ≤ 123 / 10 * η * (T / (w - 1)) := by
    rw [← sub_div, abs_div, abs_of_pos hw0, div_le_iff₀ hw0]
    refine b2.trans (le_of_eq ?_)
    field_simp
  have b4 : |(Q - B) / (w - 1)| ≤ T / (w - 1) := by
    rw [abs_div, abs_of_pos hw0]; gcongr
  refine (approx_step _ _ _ _ _ u b3 b4 hu hV).trans ?_
  have hR : 0 ≤ T / (w - 1) := by positivity
  generalize T / (w - 1) = R at *
  have : u * (123 / 10 * η * R + R) ≤ η * (123 / 10 * (1 / 8) * R + R) := by gcongr
  have : 0 ≤ η * R := by positivity
  linarith

/-- The entry of the running sums behind index `i`. -/
theorem bollSums64_getD (close : List ℚ) (w n : Nat) (s q : ℚ) (h1 : (runSums64 close w)[n]? = some s)
    (h2 : (runSums64 (close.map (fun c => f64 (c * c))) w)[n]? = some q) : (bollSums64 close w).getD n (0, 0) = (s, q) := by
  unfold bollSums64
  rw [List.getD_eq_getElem?_getD, List.getElem?_zip_eq_some (z := (s, q)) |>.mpr ⟨h1, h2⟩]
  rfl

/-- **C137.** For every price series of size at most `X`, every window of at least two bars and every index below `2^40`, the variance
behind the bands differs from the sample variance of the window by at most `(i + 1) X² / 2^45`. -/
theorem C137_variance (close : List ℚ) (w i : Nat) (X : ℚ) (hw : 2 ≤ w) (hi : w ≤ i + 1) (hl : i < close.length) (hN : i + 1 ≤ 2 ^ 40)
    (hX : ∀ x ∈ close, |x| ≤ X) :
    let l := window close w i
    |bollVarAt64 close w i - (l.map (fun x => (x - l.sum / l.length) ^ 2)).sum / (l.length - 1)| ≤ ((i : ℚ) + 1) * X ^ 2 / 2 ^ 45 := by
  intro l
  obtain ⟨n, rfl⟩ : ∃ n, i = w + n - 1 := ⟨i + 1 - w, by omega⟩
  have hN' : w + n ≤ 2 ^ 40 := by omega
  have hlen : l.length = w := window_length close w _ hl hi
  have hX0 : 0 ≤ X := by
    cases close with
    | nil => simp at hl
    | cons a t => exact (abs_nonneg a).trans (hX a (by simp))
  have hwq : (2 : ℚ) ≤ w := by exact_mod_cast hw
  have hw0 : (0 : ℚ) < w := by linarith
  obtain ⟨s, es, hs, hS⟩ := runSums64_err close w n X hw (by omega) hN' hX
  have hsq : ∀ x ∈ close.map (fun c => f64 (c * c)), |x| ≤ X ^ 2 * (1 + 1 / 2 ^ 53) := by
    intro x hx
    obtain ⟨c, hc, rfl⟩ := List.mem_map.mp hx
    have h1 := f64_relErr (c * c)
    have h2 : |c * c| ≤ X ^ 2 := by
      rw [abs_mul, sq]
      exact mul_le_mul (hX c hc) (hX c hc) (abs_nonneg _) hX0
    calc |f64 (c * c)| = |(f64 (c * c) - c * c) + c * c| := by congr 1; ring
      _ ≤ _ := abs_add_le _ _
      _ ≤ |c * c| * (1 + 1 / 2 ^ 53) := by linarith
      _ ≤ _ := by gcongr
  obtain ⟨q, eq, hq, -⟩ := runSums64_err (close.map (fun c => f64 (c * c))) w n (X ^ 2 * (1 + 1 / 2 ^ 53)) hw (by rw [List.length_map]; omega) hN' hsq
  have hlX : ∀ x ∈ l, |x| ≤ X := fun x hx => hX x (List.mem_of_mem_drop (List.mem_of_mem_take hx))
  rw [show window (close.map (fun c => f64 (c * c))) w (w + n - 1) = l.map (fun c => f64 (c * c)) by
    show _ = (window close w (w + n - 1)).map _
    unfold window; rw [List.map_take, List.map_drop]] at hq
  change |q - (l.map (fun c => f64 (c * c))).sum| ≤ _ at hq
  change |s - l.sum| ≤ _ at hs
  change |l.sum| ≤ _ at hS
  have hsqs : ∀ t : List ℚ, (∀ x ∈ t, |x| ≤ X) → |(t.map (fun c => f64 (c * c))).sum - (t.map (fun c => c * c)).sum| ≤ t.length * (X ^ 2 / 2 ^ 53) ∧
      0 ≤ (t.map (fun c => c * c)).sum ∧ (t.map (fun c => c * c)).sum ≤ t.length * X ^ 2 := by
    intro t
    induction t with
    | nil => intro _; simp
    | cons a t ih =>
      intro h
      obtain ⟨i1, i2, i3⟩ := ih (fun x hx => h x (by simp [hx]))
      have ha : |a * a| ≤ X ^ 2 := by
        rw [abs_mul, sq]
        exact mul_le_mul (h a (by simp)) (h a (by simp)) (abs_nonneg _) hX0
      have h1 := f64_relErr (a * a)
      have h2 : |a * a| / 2 ^ 53 ≤ X ^ 2 / 2 ^ 53 := by gcongr
      simp only [List.map_cons, List.sum_cons, List.length_cons, Nat.cast_add, Nat.cast_one]
      refine ⟨?_, add_nonneg (mul_self_nonneg a) i2, ?_⟩
      · calc _ = |(f64 (a * a) - a * a) + ((t.map (fun c => f64 (c * c))).sum - (t.map (fun c => c * c)).sum)| := by congr 1; ring
          _ ≤ _ := abs_add_le _ _
          _ ≤ _ := by linarith
      · have := le_abs_self (a * a)
        linarith
  obtain ⟨j1, j2, j3⟩ := hsqs l hlX
  rw [hlen] at j1 j3
  have dev : (l.map (fun x => (x - l.sum / l.length) ^ 2)).sum = (l.map (fun x => x * x)).sum - l.sum ^ 2 / w := by
    rw [sum_sq_dev, hlen]
    field_simp
    ring
  have dev0 : 0 ≤ (l.map (fun x => (x - l.sum / l.length) ^ 2)).sum := List.sum_nonneg (by
    intro x hx
    obtain ⟨y, -, rfl⟩ := List.mem_map.mp hx
    positivity)
  rw [dev] at dev0 ⊢
  rw [hlen]
  generalize (l.map (fun x => x * x)).sum = Q at *
  generalize (l.map (fun c => f64 (c * c))).sum = Q' at *
  generalize l.sum = S at *
  obtain ⟨η, hη⟩ : ∃ η : ℚ, η = 8 * ((w + n : Nat) : ℚ) / 2 ^ 53 := ⟨_, rfl⟩
  have hNq : ((w + n : Nat) : ℚ) ≤ 2 ^ 40 := by exact_mod_cast hN'
  have hNq2 : (2 : ℚ) ≤ ((w + n : Nat) : ℚ) := by exact_mod_cast (by omega : 2 ≤ w + n)
  have hη8 : η ≤ 1 / 8 := by
    rw [hη, div_le_iff₀ (by positivity)]
    norm_num at hNq ⊢
    linarith
  have huη : (1 : ℚ) / 2 ^ 53 ≤ η := by
    rw [hη]
    gcongr
    linarith
  have hs' : |s - S| ≤ η * (w * X) := by
    refine hs.trans ?_
    rw [hη]
    have : 0 ≤ ((w + n : Nat) : ℚ) * (w * X) / 2 ^ 53 := by positivity
    linarith
  have hq' : |q - Q| ≤ η * (w * X ^ 2) := by
    calc |q - Q| = |(q - Q') + (Q' - Q)| := by congr 1; ring
      _ ≤ _ := abs_add_le _ _
      _ ≤ 6 * ((w + n : Nat) : ℚ) * (w * (X ^ 2 * (1 + 1 / 2 ^ 53))) / 2 ^ 53 + w * (X ^ 2 / 2 ^ 53) := add_le_add hq j1
      _ = (6 * ((w + n : Nat) : ℚ) * (1 + 1 / 2 ^ 53) + 1) * (w * X ^ 2) / 2 ^ 53 := by ring
      _ ≤ (8 * ((w + n : Nat) : ℚ)) * (w * X ^ 2) / 2 ^ 53 := by
          gcongr
          norm_num
          linarith
      _ = _ := by rw [hη]; ring
  have hQB : |Q - S ^ 2 / w| ≤ w * X ^ 2 := by
    rw [abs_of_nonneg dev0]
    have : 0 ≤ S ^ 2 / w := by positivity
    linarith
  have fin : ∀ P : ℚ, |P - w * (f64 (s / w) * f64 (s / w))| ≤ (2 * (1 / 2 ^ 53) + 1 / 2 ^ 53 * (1 / 2 ^ 53)) * |w * (f64 (s / w) * f64 (s / w))| →
      |f64 (f64 (q - P) / ((w : ℚ) - 1)) - (Q - S ^ 2 / w) / ((w : ℚ) - 1)| ≤ (((w + n - 1 : Nat) : ℚ) + 1) * X ^ 2 / 2 ^ 45 := by
    intro P hP
    have r : ∀ x : ℚ, |f64 x - x| ≤ 1 / 2 ^ 53 * |x| := fun x => (f64_relErr x).trans (le_of_eq (by ring))
    have hPB := mean_sq_err w X S s (f64 (s / w)) P (1 / 2 ^ 53) η hwq hX0 (by positivity) huη hη8 hs' hS (r _) hP
    have := var_err w (w * X ^ 2) Q P q (f64 (q - P)) (f64 (f64 (q - P) / ((w : ℚ) - 1))) (S ^ 2 / w) (1 / 2 ^ 53) η hwq (by positivity)
      (by positivity) huη hη8 hq' hPB hQB (r _) (r _)
    refine this.trans ?_
    have e : (((w + n - 1 : Nat) : ℚ) + 1) = ((w + n : Nat) : ℚ) := by
      rw [Nat.cast_sub (by omega)]; simp
    rw [e, hη]
    have hw1 : (w : ℚ) * X ^ 2 / ((w : ℚ) - 1) ≤ 2 * X ^ 2 := by
      rw [div_le_iff₀ (by linarith)]
      nlinarith [sq_nonneg X]
    calc 16 * (8 * ((w + n : Nat) : ℚ) / 2 ^ 53) * ((w : ℚ) * X ^ 2 / ((w : ℚ) - 1)) ≤ 16 * (8 * ((w + n : Nat) : ℚ) / 2 ^ 53) * (2 * X ^ 2) := by gcongr
      _ = _ := by ring
  unfold bollVarAt64
  rw [show w + n - 1 + 1 - w = n by omega, bollSums64_getD close w n s q es eq]
  dsimp only
  split
  · unfold bollVarFirst64
    dsimp only
    apply fin
    have := f64_prod3 ((w : ℚ) * f64 (s / w)) (f64 (s / w))
    rw [mul_assoc] at this
    exact this.trans (le_of_eq (by ring))
  · unfold bollVar64
    dsimp only
    apply fin
    have := f64_prod3 (f64 (s / w) * f64 (s / w)) w
    rw [mul_comm _ (w : ℚ), mul_comm _ (w : ℚ)] at this
    exact this.trans (le_of_eq (by ring))

example : bollVarAt64 [10, 12, 14, 19] 3 3 = 13 ∧ (∀ x ∈ ([10, 12, 14, 19] : List ℚ), |x| ≤ 19) := by decide +kernel

/-! ### Constant prices and violations -/

/-- A running sum whose updates add the value that they remove stands still. -/
theorem scanl_still (ps : List (ℚ × ℚ)) (s : ℚ) (hs : f64 s = s) (h : ∀ x ∈ ps, x.1 = x.2) :
    ps.scanl runStep64 s = List.replicate (ps.length + 1) s := by
  induction ps with
  | nil => rfl
  | cons x ps ih =>
    have e : runStep64 s x = s := by
      unfold runStep64
      rw [h x (by simp), sub_self, f64_zero, add_zero, hs]
    rw [List.scanl_cons, e, ih (fun y hy => h y (by simp [hy])), List.length_cons, List.replicate_succ (n := ps.length + 1)]

/-- **C137.** A constant price that is a multiple `k 2^j` with `w k² ≤ 2^53` has no %B at any index. -/
theorem C137_constant (sqrt64 : ℚ → ℚ) (hq : sqrt64 0 = 0) (n k w : Nat) (j : Int) (numStd : ℚ) (hw : 2 ≤ w) (hk : w * (k * k) ≤ 2 ^ 53) :
    bollinger64 sqrt64 (List.replicate n ((k : ℚ) * 2 ^ j)) w numStd = List.replicate n none := by
  have hk1 : k ≤ k * k := Nat.le_mul_self k
  have hk2 : w * k ≤ 2 ^ 53 := (Nat.mul_le_mul_left w hk1).trans hk
  have hk3 : k * k ≤ 2 ^ 53 := (Nat.le_mul_of_pos_left _ (by omega)).trans hk
  have ex : ∀ (m : Nat) (i : Int), m ≤ 2 ^ 53 → f64 ((m : ℚ) * 2 ^ i) = (m : ℚ) * 2 ^ i := by
    intro m i hm
    have := rndBits_exact 53 (by norm_num) (m : Int) i (by rw [Nat.abs_cast]; exact_mod_cast hm)
    rw [Int.cast_natCast] at this
    exact this
  have run : ∀ (m : Nat) (i : Int), w * m ≤ 2 ^ 53 → w ≤ n →
      runSums64 (List.replicate n ((m : ℚ) * 2 ^ i)) w = List.replicate (n - w + 1) (((w * m : Nat) : ℚ) * 2 ^ i) := by
    intro m i hm hwn
    have hsum : sum64 ((List.replicate n ((m : ℚ) * 2 ^ i)).take w) = ((w * m : Nat) : ℚ) * 2 ^ i := by
      have := sum64_grid i (List.replicate w m) (by rw [List.sum_replicate, smul_eq_mul]; exact hm)
      rw [List.map_replicate, List.sum_replicate, smul_eq_mul] at this
      rw [List.take_replicate, min_eq_left hwn, this]
    unfold runSums64
    rw [hsum, scanl_still _ _ (ex _ _ hm), List.length_zip, List.length_drop, List.length_replicate, min_eq_left (by omega)]
    intro x hx
    obtain ⟨h1, h2⟩ := List.of_mem_zip hx
    rw [List.eq_of_mem_replicate (List.mem_of_mem_drop h1), List.eq_of_mem_replicate h2]
  have esq : ((k : ℚ) * 2 ^ j) * ((k : ℚ) * 2 ^ j) = ((k * k : Nat) : ℚ) * 2 ^ (j + j) := by
    rw [zpow_add₀ (by norm_num)]; push_cast; ring
  have hwq : (w : ℚ) ≠ 0 := by
    have : 0 < w := by omega
    positivity
  unfold bollinger64
  rw [List.length_replicate]
  unfold tabulate
  rw [List.eq_replicate_iff]
  refine ⟨by simp, fun b hb => ?_⟩
  obtain ⟨i, hi, rfl⟩ := List.mem_map.mp hb
  rw [List.mem_range] at hi
  split
  · rfl
  rename_i hiw
  have e1 := run k j hk2 (by omega)
  have e2 := run (k * k) (j + j) hk (by omega)
  have es : (bollSums64 (List.replicate n ((k : ℚ) * 2 ^ j)) w).getD (i + 1 - w) (0, 0) =
      (((w * k : Nat) : ℚ) * 2 ^ j, ((w * (k * k) : Nat) : ℚ) * 2 ^ (j + j)) := by
    apply bollSums64_getD
    · rw [e1, List.getElem?_replicate, if_pos (by omega)]
    · rw [List.map_replicate, esq, ex _ _ hk3, e2, List.getElem?_replicate, if_pos (by omega)]
  have hmean : f64 (((w * k : Nat) : ℚ) * 2 ^ j / w) = (k : ℚ) * 2 ^ j := by
    rw [show ((w * k : Nat) : ℚ) * 2 ^ j / w = (k : ℚ) * 2 ^ j by push_cast; field_simp]
    exact ex _ _ (by omega)
  have hvar : bollVarAt64 (List.replicate n ((k : ℚ) * 2 ^ j)) w i = 0 := by
    unfold bollVarAt64
    rw [es]
    dsimp only
    split
    · unfold bollVarFirst64
      dsimp only
      rw [hmean, show (w : ℚ) * ((k : ℚ) * 2 ^ j) = ((w * k : Nat) : ℚ) * 2 ^ j by push_cast; ring, ex _ _ hk2,
        show ((w * k : Nat) : ℚ) * 2 ^ j * ((k : ℚ) * 2 ^ j) = ((w * (k * k) : Nat) : ℚ) * 2 ^ (j + j) by
          rw [zpow_add₀ (by norm_num)]; push_cast; ring, ex _ _ hk, sub_self, f64_zero, zero_div, f64_zero]
    · unfold bollVar64
      dsimp only
      rw [hmean, esq, ex _ _ hk3, show (w : ℚ) * (((k * k : Nat) : ℚ) * 2 ^ (j + j)) = ((w * (k * k) : Nat) : ℚ) * 2 ^ (j + j) by
        push_cast; ring, ex _ _ hk, sub_self, f64_zero, zero_div, f64_zero]
  rw [hvar]
  unfold bollVal64
  simp only [max_self, hq]
  unfold bollPos64 bollLower64 bollUpper64
  rw [mul_zero, f64_zero, sub_zero, add_zero, if_neg (lt_irrefl _)]

example : 20 * (10025 * 10025) ≤ 2 ^ 53 := by norm_num

example : bollinger64 (fun x => x) (List.replicate 5 (401 / 4)) 3 2 = List.replicate 5 none := by decide +kernel

/-- **C137.** The column: nothing before the window is full, and then the position of the price of the same bar in the bands around a mean
that differs from the mean of the window by at most `(i + 1) X / 2^48`, with the root of the variance of `C137_variance`. -/
theorem C137_column (sqrt64 : ℚ → ℚ) (close : List ℚ) (w : Nat) (numStd X : ℚ) (hw : 2 ≤ w) (hX : ∀ x ∈ close, |x| ≤ X) (i : Nat) (c : ℚ)
    (hc : close[i]? = some c) :
    (i + 1 < w → (bollinger64 sqrt64 close w numStd)[i]? = some none) ∧
    (w ≤ i + 1 → i + 1 ≤ 2 ^ 40 → ∃ mean, f64 mean = mean ∧
      |mean - (window close w i).sum / (window close w i).length| ≤ ((i : ℚ) + 1) * X / 2 ^ 48 ∧
      (bollinger64 sqrt64 close w numStd)[i]? = some (bollPos64 c (bollLower64 numStd mean (sqrt64 (max (bollVarAt64 close w i) 0)))
        (bollUpper64 numStd mean (sqrt64 (max (bollVarAt64 close w i) 0))))) := by
  have hl : i < close.length := (List.getElem?_eq_some_iff.mp hc).1
  have hg : close.getD i 0 = c := by rw [List.getD_eq_getElem?_getD, hc]; rfl
  unfold bollinger64
  rw [tabulate_get?, if_pos hl]
  refine ⟨fun h => by rw [if_pos h], fun h hN => ?_⟩
  rw [if_neg (by omega), hg]
  obtain ⟨n, rfl⟩ : ∃ n, i = w + n - 1 := ⟨i + 1 - w, by omega⟩
  obtain ⟨s, es, hs, hS⟩ := runSums64_err close w n X hw (by omega) (by omega) hX
  have hX0 : 0 ≤ X := (abs_nonneg c).trans (hX c (List.mem_of_getElem? hc))
  have hw0 : (0 : ℚ) < w := by exact_mod_cast (by omega : 0 < w)
  have e1 : (((bollSums64 close w).getD (w + n - 1 + 1 - w) (0, 0))).1 = s := by
    rw [show w + n - 1 + 1 - w = n by omega]
    obtain ⟨q, eq⟩ : ∃ q, (runSums64 (close.map (fun c => f64 (c * c))) w)[n]? = some q := by
      have hl' : n < (runSums64 (close.map (fun c => f64 (c * c))) w).length := by
        have h1 := (List.getElem?_eq_some_iff.mp es).1
        unfold runSums64 at h1 ⊢
        simp at h1 ⊢
        omega
      exact ⟨_, List.getElem?_eq_getElem hl'⟩
    rw [bollSums64_getD close w n s q es eq]
  rw [e1]
  refine ⟨f64 (s / w), f64_idem _, ?_, rfl⟩
  rw [window_length close w _ hl h]
  generalize (window close w (w + n - 1)).sum = S at *
  have e : (((w + n - 1 : Nat) : ℚ) + 1) = ((w + n : Nat) : ℚ) := by
    rw [Nat.cast_sub (by omega)]; simp
  rw [e]
  have hN1 : (1 : ℚ) ≤ ((w + n : Nat) : ℚ) := by exact_mod_cast (by omega : 1 ≤ w + n)
  have hN2 : ((w + n : Nat) : ℚ) ≤ 2 ^ 40 := by exact_mod_cast (by omega : w + n ≤ 2 ^ 40)
  generalize ((w + n : Nat) : ℚ) = N at *
  have a1 : |s / w - S / w| ≤ 6 * N * X / 2 ^ 53 := by
    rw [← sub_div, abs_div, abs_of_pos hw0, div_le_iff₀ hw0]
    exact hs.trans (le_of_eq (by ring))
  have a2 : |S / w| ≤ X := by
    rw [abs_div, abs_of_pos hw0, div_le_iff₀ hw0]
    exact hS.trans (le_of_eq (by ring))
  have r := f64_relErr (s / w)
  have a3 : |s / w| ≤ 2 * X := by
    have := abs_add_le (s / w - S / w) (S / w)
    rw [sub_add_cancel] at this
    have : 6 * N * X / 2 ^ 53 ≤ X := by
      rw [div_le_iff₀ (by positivity)]
      calc 6 * N * X ≤ 6 * 2 ^ 40 * X := by gcongr
        _ ≤ X * 2 ^ 53 := by rw [mul_comm X]; exact mul_le_mul_of_nonneg_right (by norm_num) hX0
    linarith
  calc |f64 (s / w) - S / w| = |(f64 (s / w) - s / w) + (s / w - S / w)| := by congr 1; ring
    _ ≤ _ := abs_add_le _ _
    _ ≤ 2 * X / 2 ^ 53 + 6 * N * X / 2 ^ 53 := add_le_add (r.trans (by gcongr)) a1
    _ = (2 * X + 6 * (N * X)) / 2 ^ 53 := by ring
    _ ≤ 32 * (N * X) / 2 ^ 53 := by
      gcongr
      have := mul_le_mul_of_nonneg_right hN1 hX0
      have : 0 ≤ N * X := by positivity
      linarith
    _ = _ := by ring

example : bollinger64 (fun x => x) [1, 3, 7, 8] 2 2 = [none, some (5 / 8), some (9 / 16), some (3 / 4)] := by decide +kernel

/-- **C137, violation.** The constant price 100.1 (as float64), window three: the variance is `2^-38` instead of 0, and every square root
gives a %B although no band has any width. -/
theorem C137_constant_value (sqrt64 : ℚ → ℚ) (hs : SqrtRounded sqrt64) :
    bollVarAt64 (List.replicate 3 (f64 (1001 / 10))) 3 2 = 1 / 2 ^ 38 ∧
    (bollinger64 sqrt64 (List.replicate 3 (f64 (1001 / 10))) 3 2)[2]? ≠ some none := by
  have hv : bollVarAt64 (List.replicate 3 (f64 (1001 / 10))) 3 2 = 1 / 2 ^ 38 := by decide +kernel
  refine ⟨hv, ?_⟩
  obtain ⟨m, hm, hm1, hm2⟩ : ∃ m, f64 (((bollSums64 (List.replicate 3 (f64 (1001 / 10))) 3).getD (2 + 1 - 3) (0, 0)).1 / (3 : Nat)) = m ∧
      f64 m = m ∧ |m| ≤ 101 := ⟨_, rfl, by decide +kernel, by decide +kernel⟩
  intro h
  unfold bollinger64 at h
  rw [tabulate_get?, if_pos (by simp), Option.some.injEq, if_neg (by omega), hm, hv] at h
  unfold bollVal64 at h
  rw [max_eq_left (by norm_num : (0 : ℚ) ≤ 1 / 2 ^ 38)] at h
  obtain ⟨s0, s1, -⟩ := hs (1 / 2 ^ 38) (by positivity)
  have hb := (C137_bands 2 m (sqrt64 (1 / 2 ^ 38)) _ hm1 s0 (by norm_num)).2.2.2 h
  generalize sqrt64 (1 / 2 ^ 38) = r at *
  have hr : r ≤ 1 / 2 ^ 40 := by
    have : |m| / 2 ^ 52 ≤ 101 / 2 ^ 52 := by gcongr
    norm_num at this ⊢
    linarith
  have : r ^ 2 ≤ (1 / 2 ^ 40) ^ 2 := by gcongr
  norm_num at s1 this
  linarith

/-- **C137, violation.** Prices 10^8, 10^8 + 1, 10^8 + 2: the sample variance is 1 and the price is at 3/4 of the bands for `num_std = 2`,
but the computed variance is 0 and %B is missing. -/
theorem C137_rising_missing (sqrt64 : ℚ → ℚ) (hq : sqrt64 0 = 0) (numStd : ℚ) :
    bollVarAt64 [100000000, 100000001, 100000002] 3 2 = 0 ∧
    bollinger64 sqrt64 [100000000, 100000001, 100000002] 3 numStd = [none, none, none] := by
  have hv : bollVarAt64 [100000000, 100000001, 100000002] 3 2 = 0 := by decide +kernel
  refine ⟨hv, ?_⟩
  have e : bollinger64 sqrt64 [100000000, 100000001, 100000002] 3 numStd = [none, none, bollVal64 sqrt64 numStd 100000002
      (f64 (((bollSums64 [100000000, 100000001, 100000002] 3).getD 0 (0, 0)).1 / (3 : Nat))) (bollVarAt64 [100000000, 100000001, 100000002] 3 2)] := rfl
  rw [e, hv]
  unfold bollVal64 bollPos64 bollLower64 bollUpper64
  simp only [max_self, hq, mul_zero, f64_zero, sub_zero, add_zero, lt_irrefl, if_false]

example (sqrt64 : ℚ → ℚ) (h : SqrtRounded sqrt64) : sqrt64 0 = 0 ∧ bollinger64 sqrt64 [100000000, 100000001, 100000002] 3 2 = [none, none, none] := by
  have h0 : sqrt64 0 = 0 := by
    have := (h 0 le_rfl).2.2
    rw [zero_mul] at this
    exact pow_eq_zero_iff (two_ne_zero) |>.mp (le_antisymm this (sq_nonneg _))
  exact ⟨h0, (C137_rising_missing sqrt64 h0 2).2⟩

/-- **C137, violation.** One price of `2^27`, then 100, 101, 100, 101, … for ever: with a window of two the variance is -1/2 for ever
instead of 1/2, so that %B is missing for ever. -/
theorem C137_outlier_missing (sqrt64 : ℚ → ℚ) (hq : sqrt64 0 = 0) (numStd : ℚ) (t : List ℚ)
    (ht : ∀ j < t.length, t[j]? = some (if j % 2 = 0 then 100 else 101)) (i : Nat) (h2 : 2 ≤ i) (hi : i < t.length + 1) :
    bollVarAt64 (134217728 :: t) 2 i = -1 / 2 ∧ (bollinger64 sqrt64 (134217728 :: t) 2 numStd)[i]? = some none := by
  obtain ⟨t', rfl⟩ : ∃ t', t = 100 :: 101 :: t' := by
    match t with
    | [] => simp at hi; omega
    | [_] => simp at hi; omega
    | a :: b :: t' =>
      have h0 := ht 0 (by simp)
      have h1 := ht 1 (by simp)
      simp at h0 h1
      exact ⟨t', by rw [h0, h1]⟩
  have pairs : ∀ x ∈ t'.zip ((100 : ℚ) :: 101 :: t'), x.1 = x.2 := by
    intro x hx
    obtain ⟨j, hj, rfl⟩ := List.mem_iff_getElem.mp hx
    simp only [List.length_zip, List.length_cons] at hj
    have a1 := ht (j + 2) (by simp; omega)
    have a2 := ht j (by simp; omega)
    rw [List.getElem?_eq_getElem (by simp; omega), Option.some.injEq] at a1 a2
    rw [List.getElem_zip]
    simp only [List.getElem_cons_succ] at a1
    rw [a1, a2, Nat.add_mod_right]
  have sq : (134217728 :: 100 :: 101 :: t').map (fun c : ℚ => f64 (c * c)) = 18014398509481984 :: 10000 :: 10201 :: t'.map (fun c : ℚ => f64 (c * c)) := by
    simp only [List.map_cons, List.cons.injEq, and_true]
    decide +kernel
  have pairs2 : ∀ x ∈ (t'.map (fun c : ℚ => f64 (c * c))).zip ((10000 : ℚ) :: 10201 :: t'.map (fun c : ℚ => f64 (c * c))), x.1 = x.2 := by
    have e : (10000 : ℚ) :: 10201 :: t'.map (fun c : ℚ => f64 (c * c)) = (100 :: 101 :: t').map (fun c : ℚ => f64 (c * c)) := by
      simp only [List.map_cons, List.cons.injEq, and_true]
      decide +kernel
    rw [e, List.zip_map]
    intro x hx
    obtain ⟨y, hy, rfl⟩ := List.mem_map.mp hx
    simp only [Prod.map]
    rw [pairs y hy]
  have r1 : runSums64 (134217728 :: 100 :: 101 :: t') 2 = 134217828 :: List.replicate (t'.length + 1) 201 := by
    have e : runSums64 (134217728 :: 100 :: 101 :: t') 2 =
      ((101, 134217728) :: t'.zip ((100 : ℚ) :: 101 :: t')).scanl runStep64 (sum64 [134217728, 100]) := rfl
    rw [e, List.scanl_cons, show sum64 [134217728, 100] = 134217828 by decide +kernel,
      show runStep64 134217828 (101, 134217728) = 201 by decide +kernel, scanl_still _ _ (by decide +kernel) pairs]
    simp; omega
  have r2 : runSums64 ((134217728 :: 100 :: 101 :: t').map (fun c : ℚ => f64 (c * c))) 2 =
      18014398509491984 :: List.replicate (t'.length + 1) 20200 := by
    rw [sq]
    have e : runSums64 (18014398509481984 :: 10000 :: 10201 :: t'.map (fun c : ℚ => f64 (c * c))) 2 =
      ((10201, 18014398509481984) :: (t'.map (fun c : ℚ => f64 (c * c))).zip ((10000 : ℚ) :: 10201 :: t'.map (fun c : ℚ => f64 (c * c)))).scanl
        runStep64 (sum64 [18014398509481984, 10000]) := rfl
    rw [e, List.scanl_cons, show sum64 [18014398509481984, 10000] = 18014398509491984 by decide +kernel,
      show runStep64 18014398509491984 (10201, 18014398509481984) = 20200 by decide +kernel, scanl_still _ _ (by decide +kernel) pairs2]
    simp; omega
  obtain ⟨n, rfl⟩ : ∃ n, i = n + 2 := ⟨i - 2, by omega⟩
  simp only [List.length_cons] at hi
  have es : (bollSums64 (134217728 :: 100 :: 101 :: t') 2).getD (n + 2 + 1 - 2) (0, 0) = (201, 20200) := by
    apply bollSums64_getD
    · rw [r1, show n + 2 + 1 - 2 = n + 1 by omega, List.getElem?_cons_succ, List.getElem?_replicate, if_pos (by omega)]
    · rw [r2, show n + 2 + 1 - 2 = n + 1 by omega, List.getElem?_cons_succ, List.getElem?_replicate, if_pos (by omega)]
  have hv : bollVarAt64 (134217728 :: 100 :: 101 :: t') 2 (n + 2) = -1 / 2 := by
    unfold bollVarAt64
    rw [es]
    dsimp only
    rw [if_neg (by omega)]
    decide +kernel
  refine ⟨hv, ?_⟩
  unfold bollinger64
  rw [tabulate_get?, if_pos (by simp; omega), if_neg (by omega), hv]
  unfold bollVal64 bollPos64 bollLower64 bollUpper64
  rw [max_eq_right (by norm_num : (-1 / 2 : ℚ) ≤ 0)]
  simp only [hq, mul_zero, f64_zero, sub_zero, add_zero, lt_irrefl, if_false]

example : bollinger64 (fun x => x) [134217728, 100, 101, 100, 101] 2 2 =
    [none, some (9007199221186535 / 18014398509481984), none, none, none] := by decide +kernel

end FinML
