/-
C144: candle shapes, daily gaps, bar rates, bar durations and bi-power variation in float64.
-/
import Verif.Model.Float64Candle
import Verif.Props.DayFeatures
import Verif.Props.Balance64
import Verif.Props.Weights64
import Verif.Props.TradeSize64
import Verif.Props.Returns64
import Verif.Props.PandasRolling

set_option linter.unusedSectionVars false

namespace FinML

theorem candleEps64_pos : 0 < candleEps64 := by decide +kernel

/-! ### Candle shapes -/

theorem f64_one' : f64 1 = 1 := by decide +kernel

theorem ratio_range {a r : ℚ} (ha : 0 ≤ a) (har : a ≤ r) (hr : 0 < r) : 0 ≤ f64 (a / r) ∧ f64 (a / r) ≤ 1 := by
  refine ⟨f64_nonneg (div_nonneg ha hr.le), ?_⟩
  have := f64_mono ((div_le_one hr).mpr har)
  rwa [f64_one'] at this

theorem candle_range_ge (hi lo a : ℚ) (ha : a ≤ hi - lo) : f64 a ≤ f64 (f64 (hi - lo) + candleEps64) := by
  refine (f64_mono ha).trans ?_
  have := f64_mono (show f64 (hi - lo) ≤ f64 (hi - lo) + candleEps64 by linarith [candleEps64_pos])
  rwa [f64_idem] at this

theorem candle_range_pos (hi lo : ℚ) (h : lo ≤ hi) : 0 < f64 (f64 (hi - lo) + candleEps64) :=
  (f64_pos_iff _).mpr (by have := f64_nonneg (sub_nonneg.mpr h); linarith [candleEps64_pos])

/-- **C144.** The computed ratios lie between 0 and 1. -/
theorem C144_ratios_range (op hi lo cl vw : ℚ) (h1 : lo ≤ op) (h2 : op ≤ hi) (h3 : lo ≤ cl) (h4 : cl ≤ hi) :
    let c := candleShape64 op hi lo cl vw
    (0 ≤ c.wickUp ∧ c.wickUp ≤ 1) ∧ (0 ≤ c.wickDn ∧ c.wickDn ≤ 1) ∧ (0 ≤ c.body ∧ c.body ≤ 1) := by
  have hr := candle_range_pos hi lo (h1.trans h2)
  have hm : lo ≤ max op cl := h1.trans (le_max_left _ _)
  have hn : min op cl ≤ hi := (min_le_left _ _).trans h2
  refine ⟨ratio_range (f64_nonneg (sub_nonneg.mpr (max_le h2 h4))) (candle_range_ge hi lo _ (by linarith)) hr,
    ratio_range (f64_nonneg (sub_nonneg.mpr (le_min h1 h3))) (candle_range_ge hi lo _ (by linarith)) hr,
    ratio_range (abs_nonneg _) ?_ hr⟩
  rw [← f64_abs]
  exact candle_range_ge hi lo _ (abs_le.mpr ⟨by linarith, by linarith⟩)

example : (candleShape64 10 12 9 11 10).wickUp = f64 (1 / f64 (3 + candleEps64)) ∧ (9 : ℚ) ≤ 10 ∧ (11 : ℚ) ≤ 12 := by decide +kernel

theorem candle_range_rounds (hi lo : ℚ) (h : lo ≤ hi) : Rounds 2 (hi - lo + candleEps64) (f64 (f64 (hi - lo) + candleEps64)) := by
  have h0 : 0 ≤ hi - lo := sub_nonneg.mpr h
  exact (((Rounds.refl (hi - lo)).f64 h0).add ((Rounds.refl _).mono candleEps64_pos.le (by norm_num))).f64 (by linarith [candleEps64_pos])

theorem candle_ratio_rounds (hi lo a : ℚ) (h : lo ≤ hi) (ha : 0 ≤ a) :
    Rounds 6 (a / (hi - lo + candleEps64)) (f64 (f64 a / f64 (f64 (hi - lo) + candleEps64))) := by
  have hp : 0 < hi - lo + candleEps64 := by linarith [candleEps64_pos]
  exact (((Rounds.refl a).f64 ha).quot ha hp (candle_range_rounds hi lo h)).f64 (div_nonneg ha hp.le)

/-- **C144.** Each ratio is the exact one up to six roundings, so the three add up to `(high - low) / (high - low + 1e-12)` up to six
roundings. -/
theorem C144_ratios_near (op hi lo cl vw : ℚ) (h1 : lo ≤ op) (h2 : op ≤ hi) (h3 : lo ≤ cl) (h4 : cl ≤ hi) :
    let c := candleShape64 op hi lo cl vw
    let e := candleShape candleEps64 op hi lo cl vw
    Rounds 6 e.wickUp c.wickUp ∧ Rounds 6 e.wickDn c.wickDn ∧ Rounds 6 e.body c.body ∧
      Rounds 6 ((hi - lo) / (hi - lo + candleEps64)) (c.wickUp + c.wickDn + c.body) := by
  have h := h1.trans h2
  have a := candle_ratio_rounds hi lo (hi - max op cl) h (sub_nonneg.mpr (max_le h2 h4))
  have b := candle_ratio_rounds hi lo (min op cl - lo) h (sub_nonneg.mpr (le_min h1 h3))
  have d := candle_ratio_rounds hi lo |cl - op| h (abs_nonneg _)
  rw [f64_abs] at d
  refine ⟨a, b, d, ?_⟩
  have hs := (C66_ratios candleEps64 op hi lo cl vw candleEps64_pos h1 h2 h3 h4).2.2.2.2.2.2
  have hsum := (a.add b).add d
  have e : (hi - lo) / (hi - lo + candleEps64) = (hi - max op cl) / (hi - lo + candleEps64) + (min op cl - lo) / (hi - lo + candleEps64) +
      |cl - op| / (hi - lo + candleEps64) := hs.symm
  rw [e]
  exact hsum

example : (9 : ℚ) ≤ 10 ∧ (10 : ℚ) ≤ 12 ∧ (9 : ℚ) ≤ 11 ∧ (11 : ℚ) ≤ 12 ∧
    (candleShape64 10 12 9 11 10).wickUp ≠ (candleShape candleEps64 10 12 9 11 10).wickUp := by decide +kernel

theorem ratio_zero_iff {a r : ℚ} (hr : 0 < r) : f64 (f64 a / r) = 0 ↔ a = 0 := by
  rw [f64_eq_zero_iff, div_eq_zero_iff, or_iff_left hr.ne', f64_eq_zero_iff]

/-- **C144.** A wick is 0 exactly when the body reaches that end of the bar, the body exactly when the bar closes where it opened. -/
theorem C144_zero_iff (op hi lo cl vw : ℚ) (h : lo ≤ hi) :
    let c := candleShape64 op hi lo cl vw
    (c.wickUp = 0 ↔ hi = max op cl) ∧ (c.wickDn = 0 ↔ lo = min op cl) ∧ (c.body = 0 ↔ cl = op) := by
  have hr := candle_range_pos hi lo h
  refine ⟨(ratio_zero_iff hr).trans sub_eq_zero, (ratio_zero_iff hr).trans (sub_eq_zero.trans eq_comm), ?_⟩
  show f64 (|f64 (cl - op)| / _) = 0 ↔ _
  rw [← f64_abs]
  exact (ratio_zero_iff hr).trans (abs_eq_zero.trans sub_eq_zero)

example : (candleShape64 10 12 9 12 10).wickUp = 0 ∧ (candleShape64 10 12 9 12 10).wickDn ≠ 0 := by decide +kernel

/-- **C144.** From a range of `2^55 · 1e-12` (about 36029) on, the `1e-12` is lost: a bar that opens at one end and closes at the other has
body ratio exactly 1, which the exact ratio never reaches (`C66_ratios`). -/
theorem C144_full_body (hi lo vw : ℚ) (h : 2 ^ 55 * candleEps64 ≤ f64 (hi - lo)) :
    (candleShape64 lo hi lo hi vw).body = 1 ∧ (candleShape64 hi hi lo lo vw).body = 1 := by
  have hp : 0 < f64 (hi - lo) := lt_of_lt_of_le (mul_pos (by norm_num) candleEps64_pos) h
  have hr : f64 (f64 (hi - lo) + candleEps64) = f64 (hi - lo) :=
    f64_absorb (f64_idem _) hp.le candleEps64_pos.le (by rw [le_div_iff₀ (by norm_num)]; linarith)
  constructor
  · show f64 (|f64 (hi - lo)| / f64 (f64 (hi - lo) + candleEps64)) = 1
    rw [hr, abs_of_pos hp, div_self hp.ne', f64_one']
  · show f64 (|f64 (lo - hi)| / f64 (f64 (hi - lo) + candleEps64)) = 1
    rw [hr, ← neg_sub hi lo, f64_neg, abs_neg, abs_of_pos hp, div_self hp.ne', f64_one']

example : 2 ^ 55 * candleEps64 ≤ f64 (100000 - 60000) := by decide +kernel

/-- **C144.** On a smaller range the `1e-12` stays visible: the body ratio of a full bar of range 0.01 is below 1. -/
theorem C144_full_body_below : (candleShape64 100 (f64 (10001 / 100)) 100 (f64 (10001 / 100)) 100).body < 1 := by decide +kernel

/-! ### Relative differences: VWAP drift and daily gap -/

theorem quot_neg_iff {a u : ℚ} (hu : 0 < u) : a / u < 0 ↔ a < 0 := by
  rw [div_lt_iff₀ hu, zero_mul]

theorem relDiff_sign (x u : ℚ) (hu : 0 < u) : (0 < relDiff64 x u ↔ u < x) ∧ (relDiff64 x u = 0 ↔ x = u) ∧ (relDiff64 x u < 0 ↔ x < u) := by
  refine ⟨?_, ?_, ?_⟩
  · unfold relDiff64
    rw [f64_pos_iff, div_pos_iff_of_pos_right hu, f64_pos_iff, sub_pos]
  · exact (ratio_zero_iff hu).trans sub_eq_zero
  · unfold relDiff64
    rw [f64_neg_iff, quot_neg_iff hu, f64_neg_iff, sub_neg]

theorem relDiff_near (x u : ℚ) (hu : 0 < u) : |relDiff64 x u - (x - u) / u| ≤ |x - u| / u * (3 / 2 ^ 53) := by
  have h1 := f64_relErr (x - u)
  have h2 := f64_relErr (f64 (x - u) / u)
  unfold relDiff64
  generalize f64 (x - u) = d at *
  generalize f64 (d / u) = q at *
  have e : q - (x - u) / u = (q - d / u) + (d - (x - u)) / u := by field_simp; ring
  have hd : |d| ≤ |x - u| * (1 + 1 / 2 ^ 53) := by
    have := abs_sub_abs_le_abs_sub d (x - u)
    have e2 : |x - u| * (1 + 1 / 2 ^ 53) = |x - u| + |x - u| / 2 ^ 53 := by ring
    linarith
  rw [e]
  have t := abs_add_le (q - d / u) ((d - (x - u)) / u)
  rw [abs_div d u, abs_of_pos hu] at h2
  rw [abs_div, abs_of_pos hu] at t
  have h3 : |d - (x - u)| / u ≤ |x - u| / 2 ^ 53 / u := div_le_div_of_nonneg_right h1 hu.le
  have h4 : |d| / u / 2 ^ 53 ≤ |x - u| * (1 + 1 / 2 ^ 53) / u / 2 ^ 53 :=
    div_le_div_of_nonneg_right (div_le_div_of_nonneg_right hd hu.le) (by norm_num)
  have hA : 0 ≤ |x - u| / u := div_nonneg (abs_nonneg _) hu.le
  have e3 : |x - u| / 2 ^ 53 / u = |x - u| / u * (1 / 2 ^ 53) := by ring
  have e4 : |x - u| * (1 + 1 / 2 ^ 53) / u / 2 ^ 53 = |x - u| / u * ((1 + 1 / 2 ^ 53) / 2 ^ 53) := by ring
  rw [e3] at h3
  rw [e4] at h4
  have k : (1 : ℚ) / 2 ^ 53 + (1 + 1 / 2 ^ 53) / 2 ^ 53 ≤ 3 / 2 ^ 53 := by norm_num
  have := mul_le_mul_of_nonneg_left k hA
  rw [mul_add] at this
  linarith

/-- **C144.** The VWAP drift has the exact sign and is off by at most three units of `2^-53` of its size. -/
theorem C144_drift (op hi lo cl vw : ℚ) (ho : 0 < op) : ∃ d, (candleShape64 op hi lo cl vw).vwapDrift = some d ∧
    (0 < d ↔ op < vw) ∧ (d = 0 ↔ vw = op) ∧ (d < 0 ↔ vw < op) ∧ |d - (vw - op) / op| ≤ |vw - op| / op * (3 / 2 ^ 53) := by
  obtain ⟨a, b, c⟩ := relDiff_sign vw op ho
  exact ⟨relDiff64 vw op, if_neg ho.ne', a, b, c, relDiff_near vw op ho⟩

example : (candleShape64 10 12 9 11 (f64 (101 / 10))).vwapDrift = some (f64 (f64 (f64 (101 / 10) - 10) / 10)) := by decide +kernel

/-- **C144.** When VWAP and open are float64 numbers within a factor of 2 of each other, the drift is the exact quotient rounded once. -/
theorem C144_drift_once (op hi lo cl vw : ℚ) (ho : 0 < op) (fo : f64 op = op) (fv : f64 vw = vw) (h1 : op ≤ 2 * vw) (h2 : vw ≤ 2 * op) :
    (candleShape64 op hi lo cl vw).vwapDrift = some (f64 ((vw - op) / op)) := by
  show (if op = 0 then none else some (relDiff64 vw op)) = _
  rw [if_neg ho.ne']
  unfold relDiff64
  rw [f64_sub_exact vw op fv fo h1 h2]

example : f64 10 = 10 ∧ f64 (f64 (101 / 10)) = f64 (101 / 10) ∧ (10 : ℚ) ≤ 2 * f64 (101 / 10) ∧ f64 (101 / 10) ≤ 2 * 10 := by decide +kernel

/-- **C144.** Daily gaps: the same rows carry a gap as in exact arithmetic; for positive prices each gap has the exact sign and is off by at
most three units of `2^-53` of its size. -/
theorem C144_gap (rows : List (Int × ℚ)) (hp : ∀ r ∈ rows, 0 < r.2) (i : Nat) :
    ((dailyGap64 rows)[i]? = some none ↔ (dailyGap rows)[i]? = some none) ∧
    ∀ g, (dailyGap64 rows)[i]? = some (some g) → ∃ e, (dailyGap rows)[i]? = some (some e) ∧
      (0 < g ↔ 0 < e) ∧ (g < 0 ↔ e < 0) ∧ |g - e| ≤ |e| * (3 / 2 ^ 53) := by
  have hpos : ∀ (l : List (Int × ℚ)) (prev : Option ℚ), (∀ r ∈ l, 0 < r.2) → (∀ v, prev = some v → 0 < v) → ∀ r ∈ shiftRows prev l, ∀ v, r.2 = some v → 0 < v := by
    intro l
    induction l with
    | nil => intro prev _ _ r hr; simp [shiftRows] at hr
    | cons a l ih =>
      intro prev hl hprev r hr v hv
      rw [shiftRows] at hr
      rcases List.mem_cons.mp hr with rfl | hr
      · exact hprev v hv
      · exact ih (some a.2) (fun r h => hl r (List.mem_cons_of_mem _ h)) (fun v h => by injection h with h; rw [← h]; exact hl a (by simp)) r hr v hv
  have hlast : ∀ d u, lastShifted rows d = some u → 0 < u := by
    intro d u h
    unfold lastShifted at h
    have hm := List.mem_of_getLast? h
    obtain ⟨r, hr, hv⟩ := List.mem_filterMap.mp hm
    split at hv
    · exact hpos rows none hp (by simp) r hr u hv
    · cases hv
  have key : ∀ d, (gapOfDay64 rows d = none ↔ gapOfDay rows d = none) ∧ ∀ g, gapOfDay64 rows d = some g →
      ∃ e, gapOfDay rows d = some e ∧ (0 < g ↔ 0 < e) ∧ (g < 0 ↔ e < 0) ∧ |g - e| ≤ |e| * (3 / 2 ^ 53) := by
    intro d
    unfold gapOfDay64 gapOfDay
    cases hx : firstOfDay rows d with
    | none => exact ⟨Iff.rfl, fun g h => by cases h⟩
    | some x =>
      cases hu : lastShifted rows d with
      | none => exact ⟨Iff.rfl, fun g h => by cases h⟩
      | some u =>
        have h0 := hlast d u hu
        simp only [if_neg h0.ne']
        refine ⟨by simp, fun g h => ⟨(x - u) / u, rfl, ?_⟩⟩
        injection h with h
        obtain ⟨a, _, c⟩ := relDiff_sign x u h0
        rw [← h]
        refine ⟨a.trans ?_, c.trans ?_, ?_⟩
        · rw [div_pos_iff_of_pos_right h0, sub_pos]
        · rw [quot_neg_iff h0, sub_neg]
        · have := relDiff_near x u h0
          rwa [abs_div (x - u) u, abs_of_pos h0]
  unfold dailyGap64 dailyGap
  rw [List.getElem?_map, List.getElem?_map]
  cases hr : rows[i]? with
  | none => simp
  | some r =>
    simp only [Option.map_some, Option.some.injEq]
    by_cases hm : r.1 % dayNs = 0
    · rw [if_pos hm, if_pos hm]
      exact key _
    · rw [if_neg hm, if_neg hm]
      exact ⟨Iff.rfl, fun g h => by cases h⟩

example : (dailyGap64 [(dayNs - 900, 10), (dayNs, 11), (dayNs + 900, 12), (dayNs + 1800, 13)])[1]? = some (some (f64 (-1 / 12))) := by
  decide +kernel

/-! ### Bar rates -/

/-- **C144.** A computed bar rate is the exact one up to two roundings. -/
theorem C144_rate (w : Int) (sec : ℚ) (hs : 0 < sec) (ts : List Int) (i : Nat) (hi : i < ts.length) :
    ∃ r, (barRate64 w sec ts)[i]? = some r ∧
      Rounds 2 (((ts.take (i + 1)).countP (fun t => decide (ts[i] - t ≤ w)) : Nat) * 3600 / sec) r := by
  refine ⟨rateOf64 sec ((ts.take (i + 1)).countP (fun t => decide (ts.getD i 0 - w ≤ t))), ?_, ?_⟩
  · unfold barRate64
    rw [List.getElem?_map, List.getElem?_range hi]
    rfl
  · have hc : (ts.take (i + 1)).countP (fun t => decide (ts.getD i 0 - w ≤ t)) = (ts.take (i + 1)).countP (fun t => decide (ts[i] - t ≤ w)) := by
      apply List.countP_congr
      intro t _
      rw [List.getD_eq_getElem?_getD, List.getElem?_eq_getElem hi, Option.getD_some, decide_eq_true_iff, decide_eq_true_iff]
      omega
    rw [hc]
    generalize (ts.take (i + 1)).countP (fun t => decide (ts[i] - t ≤ w)) = k
    have hk : (0 : ℚ) ≤ (k : ℚ) / sec := div_nonneg (Nat.cast_nonneg k) hs.le
    have h1 := ((((Rounds.refl ((k : ℚ) / sec)).f64 hk).mul_left (show (0 : ℚ) ≤ 3600 by norm_num)).f64 (mul_nonneg (by norm_num) hk))
    unfold rateOf64
    rw [mul_comm (f64 _) 3600, show (k : ℚ) * 3600 / sec = 3600 * ((k : ℚ) / sec) by ring]
    exact h1

example : barRate64 3600000000000 3600 [0, 1800000000000, 3600000000000, 7200000000001] = [1, 2, 3, 1] := by decide +kernel

/-- **C144.** More bars give a higher rate: the rates of different counts (below `2^50`) are different and in the same order. -/
theorem C144_rate_order (sec : ℚ) (hs : 0 < sec) (k m : Nat) (h : k < m) (hm : m ≤ 2 ^ 50) : rateOf64 sec k < rateOf64 sec m := by
  have R : ∀ n : Nat, Rounds 2 (3600 * ((n : ℚ) / sec)) (rateOf64 sec n) := by
    intro n
    have hn : (0 : ℚ) ≤ (n : ℚ) / sec := div_nonneg (Nat.cast_nonneg n) hs.le
    have h1 := ((((Rounds.refl ((n : ℚ) / sec)).f64 hn).mul_left (show (0 : ℚ) ≤ 3600 by norm_num)).f64 (mul_nonneg (by norm_num) hn))
    unfold rateOf64
    rw [mul_comm (f64 _) 3600]
    exact h1
  have hkq : (k : ℚ) + 1 ≤ m := by exact_mod_cast h
  have hmq : (m : ℚ) ≤ 2 ^ 50 := by exact_mod_cast hm
  have hk0 : (0 : ℚ) ≤ k := Nat.cast_nonneg k
  refine lt_of_le_of_lt (R k).2 (lt_of_lt_of_le ?_ (R m).1)
  have hpos : 0 < 3600 / sec := by positivity
  have e : ∀ (n : ℚ) (c : ℚ), 3600 * (n / sec) * c = 3600 / sec * (n * c) := by intros; ring
  rw [e, e]
  apply mul_lt_mul_of_pos_left _ hpos
  have : (k : ℚ) * (1 + 1 / 2 ^ 53) ^ 2 < (k + 1) * (1 - 1 / 2 ^ 53) ^ 2 := by
    have : (k : ℚ) * ((1 + 1 / 2 ^ 53) ^ 2 - (1 - 1 / 2 ^ 53) ^ 2) < (1 - 1 / 2 ^ 53) ^ 2 := by
      have h1 : (k : ℚ) ≤ 2 ^ 50 := by linarith
      refine lt_of_le_of_lt (mul_le_mul_of_nonneg_right h1 (by norm_num)) (by norm_num)
    linarith
  refine lt_of_lt_of_le this (mul_le_mul_of_nonneg_right hkq (by norm_num))

example : rateOf64 3600 56 < rateOf64 3600 57 := by decide +kernel

/-- **C144, violation.** `bars_per_hour` over one hour is not always the number of bars in the hour: 57 bars give a rate below 57, although
56 bars give exactly 56. -/
theorem C144_rate_not_count : rateOf64 3600 57 ≠ 57 ∧ rateOf64 3600 56 = 56 := by decide +kernel

/-! ### Bar durations -/

theorem seconds_mono {a b : Int} (h : a ≤ b) : seconds64 a ≤ seconds64 b := by
  unfold seconds64
  exact f64_mono (div_le_div_of_nonneg_right (f64_mono (by exact_mod_cast h)) (by norm_num))

/-- **C144.** Durations keep their order, and two different durations of at most `2^50` nanoseconds (13 days) stay different. -/
theorem C144_duration_order (a b : Int) (h : a < b) : seconds64 a ≤ seconds64 b ∧ (0 ≤ a → b ≤ 2 ^ 50 → seconds64 a < seconds64 b) := by
  refine ⟨seconds_mono h.le, fun h0 hb => ?_⟩
  unfold seconds64
  rw [f64_int a (by rw [abs_of_nonneg h0]; linarith), f64_int b (by rw [abs_of_nonneg (h0.trans h.le)]; linarith)]
  have ha : (0 : ℚ) ≤ (a : ℚ) := by exact_mod_cast h0
  have hab : (a : ℚ) + 1 ≤ b := by exact_mod_cast h
  have hbq : (b : ℚ) ≤ 2 ^ 50 := by exact_mod_cast hb
  have u := (f64_factor (show (0 : ℚ) ≤ (a : ℚ) / 1000000000 by positivity)).2
  have l := (f64_factor (show (0 : ℚ) ≤ (b : ℚ) / 1000000000 by apply div_nonneg <;> linarith)).1
  refine lt_of_le_of_lt u (lt_of_lt_of_le ?_ l)
  norm_num at hbq ⊢
  linarith

example : seconds64 1000000000 = 1 ∧ seconds64 1000000001 > 1 := by decide +kernel

/-- **C144.** A duration of whole seconds (up to 4.6 billion) is computed exactly; any non-negative duration up to two roundings. -/
theorem C144_duration (d : Int) (h : 0 ≤ d) : Rounds 2 ((d : ℚ) / 1000000000) (seconds64 d) ∧
    ∀ s : Int, d = s * 1000000000 → s ≤ 4611686018 → seconds64 d = s := by
  have h0 : (0 : ℚ) ≤ d := by exact_mod_cast h
  constructor
  · exact (((Rounds.refl (d : ℚ)).f64 h0).div (by norm_num)).f64 (div_nonneg h0 (by norm_num))
  · intro s hd hs
    have hs0 : 0 ≤ s := by omega
    have e : d = (s * 1953125) * 2 ^ 9 := by rw [hd]; ring
    unfold seconds64
    have hx := f64_exact (s * 1953125) 9 (by rw [abs_of_nonneg (by omega)]; omega)
    rw [← e] at hx
    rw [hx, hd]
    push_cast
    rw [mul_div_assoc, div_self (by norm_num), mul_one]
    exact f64_int s (by rw [abs_of_nonneg hs0]; omega)

example : (0 : Int) ≤ 3600000000000 ∧ (3600000000000 : Int) = 3600 * 1000000000 := by decide

/-- **C144.** The column of bar durations: missing exactly on the first `p` rows, elsewhere the seconds between the two stamps. -/
theorem C144_duration_column (p : Nat) (ts : List Int) (i : Nat) (hi : i < ts.length) :
    (barDuration64 p ts)[i]? = some (if i < p then none else some (seconds64 (ts[i] - ts.getD (i - p) 0))) := by
  unfold barDuration64
  have h : ts.getD i 0 = ts[i] := by rw [List.getD_eq_getElem?_getD, List.getElem?_eq_getElem hi, Option.getD_some]
  rw [tabulate_get?, if_pos hi, h]

example : barDuration64 1 [0, 1500000000, 4000000000] = [none, some (3 / 2), some (5 / 2)] := by decide +kernel

/-! ### Bi-power variation -/

theorem pairProducts_rounds (l : List ℚ) (h : ∀ x ∈ l, 0 ≤ x) :
    RoundsAll 1 (List.zipWith (· * ·) l.tail l.dropLast) (pairProducts64 l) ∧ ∀ x ∈ List.zipWith (· * ·) l.tail l.dropLast, 0 ≤ x := by
  have gen : ∀ a b : List ℚ, (∀ x ∈ a, 0 ≤ x) → (∀ x ∈ b, 0 ≤ x) →
      RoundsAll 1 (List.zipWith (· * ·) a b) (List.zipWith (fun a b => f64 (a * b)) a b) ∧ ∀ x ∈ List.zipWith (· * ·) a b, 0 ≤ x := by
    intro a
    induction a with
    | nil => intro b _ _; exact ⟨List.Forall₂.nil, by simp⟩
    | cons x a ih =>
      intro b ha hb
      cases b with
      | nil => exact ⟨List.Forall₂.nil, by simp⟩
      | cons y b =>
        obtain ⟨i1, i2⟩ := ih b (fun z hz => ha z (List.mem_cons_of_mem _ hz)) (fun z hz => hb z (List.mem_cons_of_mem _ hz))
        have hxy : 0 ≤ x * y := mul_nonneg (ha x (by simp)) (hb y (by simp))
        refine ⟨List.Forall₂.cons ((Rounds.refl (x * y)).f64 hxy) i1, ?_⟩
        intro z hz
        rw [List.zipWith_cons_cons] at hz
        rcases List.mem_cons.mp hz with rfl | hz
        · exact hxy
        · exact i2 z hz
  exact gen _ _ (fun x hx => h x (List.mem_of_mem_tail hx)) (fun x hx => h x (List.mem_of_mem_dropLast hx))

/-- **C144.** Bi-power variation, in whatever order the products are added: missing where the exact one is missing, and elsewhere the exact
one up to two roundings and one more for each level of additions. -/
theorem C144_bipower (c : ℚ) (hc : 0 ≤ c) (w : Nat) (order : List ℚ → SumTree) (ho : ∀ l, (order l).leaves = l) (D : Nat)
    (hD : ∀ l : List ℚ, l.length ≤ w → (order l).depth ≤ D) (xs : List (Option ℚ)) (i : Nat) (hi : i < xs.length) :
    ((biPower64 c order w xs)[i]? = some none ↔ (biPower c w xs)[i]? = some none) ∧
    ∀ y, (biPower64 c order w xs)[i]? = some (some y) → ∃ e, (biPower c w xs)[i]? = some (some e) ∧ 0 ≤ e ∧ Rounds (D + 2) e y := by
  unfold biPower64 biPower pdRolling
  rw [List.getElem?_map, List.getElem?_map, rolling_get? _ _ _ i (by simpa using hi), rolling_get? _ _ _ i (by simpa using hi)]
  simp only [Option.map_some, Option.some.injEq]
  by_cases hw : i + 1 < w + 1
  · rw [if_pos hw, if_pos hw]
    exact ⟨Iff.rfl, fun y h => by cases h⟩
  · rw [if_neg hw, if_neg hw]
    have hlen := window_length (xs.map (Option.map abs)) (w + 1) i (by simpa using hi) (by omega)
    have hmem : ∀ v ∈ window (xs.map (Option.map abs)) (w + 1) i, v ∈ xs.map (Option.map abs) :=
      fun v hv => List.mem_of_mem_drop (List.mem_of_mem_take hv)
    generalize window (xs.map (Option.map abs)) (w + 1) i = L at *
    cases hL : allSome L with
    | none => exact ⟨Iff.rfl, fun y h => by cases h⟩
    | some l =>
      refine ⟨by simp, fun y hy => ⟨c * neighbourProducts l, rfl, ?_⟩⟩
      have hl := (allSome_eq_some L l).mp hL
      have h0 : ∀ x ∈ l, 0 ≤ x := by
        intro x hx
        have hxL : some x ∈ L := by rw [hl]; exact List.mem_map.mpr ⟨x, hx, rfl⟩
        obtain ⟨o, _, ho⟩ := List.mem_map.mp (hmem _ hxL)
        cases o with
        | none => cases ho
        | some z =>
          injection ho with ho
          rw [← ho]; exact abs_nonneg z
      obtain ⟨r1, r2⟩ := pairProducts_rounds l h0
      have hs0 : 0 ≤ neighbourProducts l := List.sum_nonneg r2
      have hpl : (pairProducts64 l).length ≤ w := by
        have : l.length = w + 1 := by rw [← hlen, hl, List.length_map]
        unfold pairProducts64
        rw [List.length_zipWith, List.length_tail, List.length_dropLast]
        omega
      have hp0 := r1.nonneg r2
      have hsum := C98_sum_any_order (order (pairProducts64 l)) (by rw [ho]; exact hp0)
      rw [ho] at hsum
      have hR : Rounds (order (pairProducts64 l)).depth (pairProducts64 l).sum (order (pairProducts64 l)).eval64 := hsum
      have hR1 := r1.sum.trans hs0 hR
      have hfin := (hR1.mul_left hc).f64 (mul_nonneg hc hs0)
      have hc0 : 0 ≤ c * neighbourProducts l := mul_nonneg hc hs0
      have hy' : f64 (c * (order (pairProducts64 l)).eval64) = y := by
        injection hy
      rw [← hy']
      exact ⟨hc0, hfin.mono hc0 (by have := hD _ hpl; omega)⟩

example : biPower64 (f64 (12533 / 10000)) SumTree.ofList 2 [some (1 / 2), some (-1 / 4), some 1, none] = [none, none, some (f64 (f64 (12533 / 10000) * (3 / 8))), none] ∧
    (SumTree.ofList [1 / 8, 1 / 4]).leaves = [1 / 8, 1 / 4] ∧ (SumTree.ofList [1 / 8, 1 / 4]).depth = 2 := by decide +kernel

end FinML
