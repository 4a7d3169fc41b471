/-
C71 over the real numbers: the trend angle with the real logarithm and arcus tangent.
-/
import Verif.Props.Regression
import Mathlib.Analysis.SpecialFunctions.Trigonometric.Arctan
import Mathlib.Analysis.SpecialFunctions.Trigonometric.ArctanDeriv
import Mathlib.Analysis.SpecialFunctions.Log.Basic
import Mathlib.Analysis.Complex.ExponentialBounds
import Mathlib.Analysis.Real.Pi.Bounds

set_option linter.unusedSectionVars false

namespace FinML

open Real

/-- `np.degrees(np.arctan(slope))` (`feature/transforms.py:977`). -/
noncomputable def angleDeg (s : ℝ) : ℝ := 180 / π * arctan s

theorem deg_pos : 0 < 180 / π := div_pos (by norm_num) pi_pos

theorem arctan_le_self' (x : ℝ) (hx : 0 ≤ x) : arctan x ≤ x := by
  by_contra h
  push Not at h
  have h1 : 0 < arctan x := lt_of_le_of_lt hx h
  have h2 := lt_tan h1 (arctan_lt_pi_div_two x)
  rw [tan_arctan] at h2
  linarith

/-- **C71 (angle).** The angle lies strictly between -90 and 90 degrees, grows strictly with the slope, has its sign and is odd. -/
theorem C71_angle (s t : ℝ) :
    -90 < angleDeg s ∧ angleDeg s < 90 ∧ (angleDeg s < angleDeg t ↔ s < t) ∧ (0 < angleDeg s ↔ 0 < s) ∧ angleDeg (-s) = -angleDeg s := by
  have hp := pi_pos
  have hd := deg_pos
  have e90 : (90 : ℝ) = 180 / π * (π / 2) := by field_simp; norm_num
  unfold angleDeg
  refine ⟨?_, ?_, ?_, ?_, ?_⟩
  · have := mul_lt_mul_of_pos_left (neg_pi_div_two_lt_arctan s) hd
    rw [e90]; linarith
  · rw [e90]; exact mul_lt_mul_of_pos_left (arctan_lt_pi_div_two s) hd
  · rw [mul_lt_mul_iff_right₀ hd, arctan_strictMono.lt_iff_lt]
  · rw [mul_pos_iff_of_pos_left hd]
    rw [show (0 : ℝ) = arctan 0 from arctan_zero.symm, arctan_strictMono.lt_iff_lt, arctan_zero]
  · rw [arctan_neg]; ring

/-- **C71 (angle).** The angle is at most the slope in degrees (`180 / pi` per unit of log price per bar), and reaches 45 degrees exactly from
slope one on. -/
theorem C71_angle_size (s : ℝ) : |angleDeg s| ≤ 180 / π * |s| ∧ (45 ≤ angleDeg s ↔ 1 ≤ s) := by
  have hd := deg_pos
  constructor
  · unfold angleDeg
    rw [abs_mul, abs_of_pos hd]
    apply mul_le_mul_of_nonneg_left _ hd.le
    rcases le_total 0 s with h | h
    · have h2 : 0 ≤ arctan s := by
        rw [show (0 : ℝ) = arctan 0 from arctan_zero.symm]; exact arctan_strictMono.monotone h
      rw [abs_of_nonneg h2, abs_of_nonneg h]
      exact arctan_le_self' s h
    · have h2 : arctan s ≤ 0 := by
        rw [show (0 : ℝ) = arctan 0 from arctan_zero.symm]; exact arctan_strictMono.monotone h
      rw [abs_of_nonpos h2, abs_of_nonpos h, ← arctan_neg]
      exact arctan_le_self' (-s) (by linarith)
  · have e45 : (45 : ℝ) = 180 / π * arctan 1 := by
      rw [arctan_one]; have := pi_pos; field_simp; norm_num
    unfold angleDeg
    rw [e45, mul_le_mul_iff_right₀ hd, arctan_strictMono.le_iff_le]

/-- The trend angle of a price column: `np.log`, regression on the last `w` bars, `np.degrees(np.arctan(...))`. -/
noncomputable def trendAngle (w : Nat) (prices : List (Option ℝ)) : List (Option ℝ) :=
  trendSlope angleDeg w (prices.map (Option.map log))

/-- **C71 (steady growth).** If the last `w` prices grow by the factor `q` per bar, the angle is `arctan (log q)` in degrees. -/
theorem C71_angle_growth (w i : Nat) (prices : List (Option ℝ)) (hi : i < prices.length) (h2 : 2 ≤ w) (hw : w ≤ i + 1) (p q : ℝ) (hp : 0 < p) (hq : 0 < q)
    (h : ∀ k, k < w → prices[i + 1 - w + k]? = some (some (p * q ^ k))) :
    (trendAngle w prices)[i]? = some (some (angleDeg (log q))) := by
  unfold trendAngle
  rw [C71_trend_slope angleDeg w i _ (by simpa using hi)]
  refine ⟨hw, (List.range w).map (fun k => log (p * q ^ k)), ?_, ?_⟩
  · apply List.ext_getElem?
    intro k
    rw [List.getElem?_take]
    by_cases hk : k < w
    · rw [if_pos hk, List.getElem?_drop, List.getElem?_map, h k hk]
      simp [hk]
    · rw [if_neg hk, List.getElem?_eq_none (by simp; omega)]
  · congr 1
    symm
    apply C71_trend_exact _ (log p) (log q) (by simpa using h2)
    intro k x hx
    rw [List.getElem?_map] at hx
    cases hr : (List.range w)[k]? with
    | none => rw [hr] at hx; simp at hx
    | some r =>
      rw [hr] at hx
      have : r = k := by
        obtain ⟨_, e⟩ := List.getElem?_eq_some_iff.mp hr
        simpa using e.symm
      subst this
      simp only [Option.map_some, Option.some.injEq] at hx
      rw [← hx, log_mul hp.ne' (pow_pos hq r).ne', log_pow]
      ring

/-- **C71 (steepness).** The angle of a steady trend reaches 45 degrees only when the price grows at least by the factor `e` in every bar; with
one per cent per bar it stays below 0.58 degrees. -/
theorem C71_angle_flat (q : ℝ) (hq : 0 < q) : (45 ≤ angleDeg (log q) ↔ exp 1 ≤ q) ∧ angleDeg (log (101 / 100)) < 58 / 100 := by
  constructor
  · rw [(C71_angle_size _).2, le_log_iff_exp_le hq]
  · have h1 : log (101 / 100 : ℝ) ≤ 1 / 100 := by
      have := log_le_sub_one_of_pos (show (0 : ℝ) < 101 / 100 by norm_num)
      linarith
    have h0 : 0 ≤ log (101 / 100 : ℝ) := log_nonneg (by norm_num)
    have h2 := (C71_angle_size (log (101 / 100))).1
    rw [abs_of_nonneg h0] at h2
    have h3 := le_abs_self (angleDeg (log (101 / 100)))
    have h4 : 180 / π < 58 := by
      rw [div_lt_iff₀ pi_pos]
      have := pi_gt_d2
      linarith
    have h5 : 180 / π * log (101 / 100) ≤ 180 / π * (1 / 100) := mul_le_mul_of_nonneg_left h1 deg_pos.le
    linarith

/-- **C71 (units).** Quoting the prices in another unit does not change the angles. -/
theorem C71_angle_unit (w : Nat) (c : ℝ) (hc : 0 < c) (prices : List (Option ℝ)) (hp : ∀ x, some x ∈ prices → 0 < x) :
    trendAngle w (prices.map (Option.map (c * ·))) = trendAngle w prices := by
  have e : (prices.map (Option.map (c * ·))).map (Option.map log) = (prices.map (Option.map log)).map (Option.map (log c + ·)) := by
    rw [List.map_map, List.map_map]
    apply List.map_congr_left
    intro x hx
    cases x with
    | none => rfl
    | some v => simp [log_mul hc.ne' (hp v hx).ne']
  unfold trendAngle
  rw [e]
  generalize prices.map (Option.map log) = logs
  apply List.ext_getElem?
  intro i
  have len : ∀ l : List (Option ℝ), (trendSlope angleDeg w l).length = l.length := by
    intro l
    unfold trendSlope pdRolling rolling
    rw [length_tabulate]
  by_cases hi : i < logs.length
  · have key : ∀ y, (trendSlope angleDeg w (logs.map (Option.map (log c + ·))))[i]? = some (some y) ↔ (trendSlope angleDeg w logs)[i]? = some (some y) := by
      intro y
      rw [C71_trend_slope _ _ _ _ (by simpa using hi), C71_trend_slope _ _ _ _ hi]
      have sh : ∀ l : List ℝ, slopeOf (withIndex (l.map (log c + ·))) = slopeOf (withIndex l) := by
        intro l
        rw [← C71_slope_shift (withIndex l) 0 (log c)]
        congr 1
        unfold withIndex
        rw [List.length_map]
        apply List.ext_getElem
        · simp
        · intro k h1 h2
          simp [add_comm]
      constructor
      · rintro ⟨h1, l, h2, h3⟩
        refine ⟨h1, l.map (fun x => x - log c), ?_, ?_⟩
        · rw [← List.map_drop, ← List.map_take] at h2
          have := congrArg (List.map (Option.map (fun x => x - log c))) h2
          rw [List.map_map, List.map_map] at this
          have id1 : (Option.map (fun x => x - log c)) ∘ (Option.map (log c + ·)) = id := by
            funext o; cases o <;> simp
          rw [id1, List.map_id] at this
          rw [this, List.map_map]
          rfl
        · rw [h3, ← sh (l.map (fun x => x - log c)), List.map_map]
          congr 3
          rw [show ((log c + ·) ∘ (fun x => x - log c)) = id by funext x; simp, List.map_id]
      · rintro ⟨h1, l, h2, h3⟩
        refine ⟨h1, l.map (log c + ·), ?_, ?_⟩
        · rw [← List.map_drop, ← List.map_take, h2, List.map_map, List.map_map]; rfl
        · rw [h3, sh]
    have g1 : ∃ o, (trendSlope angleDeg w (logs.map (Option.map (log c + ·))))[i]? = some o :=
      ⟨_, List.getElem?_eq_getElem (by rw [len]; simpa using hi)⟩
    have g2 : ∃ o, (trendSlope angleDeg w logs)[i]? = some o := ⟨_, List.getElem?_eq_getElem (by rw [len]; exact hi)⟩
    obtain ⟨o1, h1⟩ := g1
    obtain ⟨o2, h2⟩ := g2
    rw [h1, h2]
    cases o1 with
    | some y => rw [h1] at key; rw [← h2, (key y).mp rfl]
    | none =>
      cases o2 with
      | none => rfl
      | some y => have := (key y).mpr h2; rw [h1] at this; simp at this
  · rw [List.getElem?_eq_none (by rw [len, List.length_map]; omega), List.getElem?_eq_none (by rw [len]; omega)]

/-- Prices doubling per bar in a window of two; `arctan (log 2)` degrees, below 45. -/
example : (trendAngle 2 [some 3, some 6])[1]? = some (some (angleDeg (log 2))) ∧ angleDeg (log 2) < 45 := by
  constructor
  · apply C71_angle_growth 2 1 _ (by simp) le_rfl le_rfl 3 2 (by norm_num) (by norm_num)
    intro k hk
    rcases (by omega : k = 0 ∨ k = 1) with rfl | rfl
    · simp
    · simp; norm_num
  · by_contra h
    push Not at h
    rw [(C71_angle_size _).2] at h
    have := log_two_lt_d9
    linarith

end FinML
