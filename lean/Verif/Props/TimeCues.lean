/-
C43: session cues (`finmlkit/feature/core/time.py` `time_cues`).
-/
import Verif.Model.Indicators
import Mathlib.Tactic.Ring
import Mathlib.Tactic.Linarith
import Mathlib.Analysis.SpecialFunctions.Trigonometric.Angle

set_option linter.unusedSectionVars false

namespace FinML

/-- **C43.**  For every day number `d` (negative too), second `s` of the day and nanosecond `r`: the cues are the second of the day, the weekday
with Monday = 0 (day 0, 1970-01-01, was a Thursday), and the session flags in exactly their hour ranges. -/
theorem C43_cues_of_calendar (d s r : Int) (hs : 0 ≤ s) (hs' : s < 86400) (hr : 0 ≤ r) (hr' : r < 1000000000) :
    let c := timeCue ((d * 86400 + s) * 1000000000 + r)
    c.secInDay = s ∧ c.dayWeek = (d + 3) % 7 ∧
    (c.asia = true ↔ s < 8 * 3600) ∧
    (c.eu = true ↔ 7 * 3600 ≤ s ∧ s < 15 * 3600) ∧
    (c.us = true ↔ 13 * 3600 ≤ s ∧ s < 21 * 3600) ∧
    (c.trans = true ↔ (0 ≤ s ∧ s < 60) ∨ (7 * 3600 ≤ s ∧ s < 7 * 3600 + 60) ∨ (13 * 3600 ≤ s ∧ s < 13 * 3600 + 60)) ∧
    (c.topHour = true ↔ s % 3600 < 60) := by
  intro c
  have h1 : ((d * 86400 + s) * 1000000000 + r) / 1000000000 = d * 86400 + s := by omega
  have h2 : (d * 86400 + s) % 86400 = s := by omega
  have h3 : (d * 86400 + s) / 86400 = d := by omega
  have hc : c = timeCue ((d * 86400 + s) * 1000000000 + r) := rfl
  unfold timeCue at hc
  simp only [h1, h2, h3] at hc
  rw [hc]
  simp only [decide_eq_true_eq]
  refine ⟨trivial, trivial, ?_, ?_, ?_, ?_, ?_⟩ <;> omega

example : timeCue 0 = { secInDay := 0, dayWeek := 3, asia := true, eu := false, us := false, trans := true, topHour := true } := by decide +kernel

/-- Every timestamp has such a decomposition. -/
theorem calendar_decomposition (t : Int) : ∃ d s r : Int, 0 ≤ s ∧ s < 86400 ∧ 0 ≤ r ∧ r < 1000000000 ∧ t = (d * 86400 + s) * 1000000000 + r :=
  ⟨t / 1000000000 / 86400, t / 1000000000 % 86400, t % 1000000000, by omega, by omega, by omega, by omega, by omega⟩

/-- **C43.**  One day later everything is the same except the weekday, which advances by one modulo 7. -/
theorem C43_next_day (t : Int) :
    timeCue (t + 86400000000000) = { timeCue t with dayWeek := ((timeCue t).dayWeek + 1) % 7 } := by
  unfold timeCue
  simp only
  have h1 : (t + 86400000000000) / 1000000000 = t / 1000000000 + 86400 := by omega
  have h2 : (t / 1000000000 + 86400) % 86400 = t / 1000000000 % 86400 := by omega
  have h3 : (t / 1000000000 + 86400) / 86400 = t / 1000000000 / 86400 + 1 := by omega
  rw [h1, h2, h3]
  have h4 : (t / 1000000000 / 86400 + 1 + 3) % 7 = ((t / 1000000000 / 86400 + 3) % 7 + 1) % 7 := by omega
  rw [h4]

/-- **C43.**  The cues repeat every week. -/
theorem C43_weekly_period (t : Int) : timeCue (t + 7 * 86400000000000) = timeCue t := by
  unfold timeCue
  simp only
  have h1 : (t + 7 * 86400000000000) / 1000000000 = t / 1000000000 + 604800 := by omega
  have h2 : (t / 1000000000 + 604800) % 86400 = t / 1000000000 % 86400 := by omega
  have h3 : ((t / 1000000000 + 604800) / 86400 + 3) % 7 = (t / 1000000000 / 86400 + 3) % 7 := by omega
  rw [h1, h2, h3]

/-- **C43.**  Every timestamp, negative ones included, gets a second in `[0, 86400)` and a weekday in `[0, 7)`, and no session is active from 21:00. -/
theorem C43_ranges (t : Int) : 0 ≤ (timeCue t).secInDay ∧ (timeCue t).secInDay < 86400 ∧ 0 ≤ (timeCue t).dayWeek ∧ (timeCue t).dayWeek < 7 ∧
    (21 * 3600 ≤ (timeCue t).secInDay ↔ (timeCue t).asia = false ∧ (timeCue t).eu = false ∧ (timeCue t).us = false) := by
  obtain ⟨d, s, r, h1, h2, h3, h4, rfl⟩ := calendar_decomposition t
  obtain ⟨a1, a2, a3, a4, a5, -, -⟩ := C43_cues_of_calendar d s r h1 h2 h3 h4
  rw [a1, a2]
  refine ⟨h1, h2, by omega, by omega, ?_⟩
  rw [← Bool.not_eq_true, ← Bool.not_eq_true, ← Bool.not_eq_true, a3, a4, a5]
  omega

example : (timeCue (-1)).secInDay = 86399 ∧ (timeCue (-1)).dayWeek = 2 := by decide +kernel

/-- **C43.**  The cyclic features of two timestamps agree when they are a whole number of weeks apart, and the time-of-day features already when
they are a whole number of days apart. -/
theorem C43_phase_periodic {K : Type} [Field K] [LinearOrder K] (sin cos : K → K) (pi2 : K) (t : Int) (n : Nat) :
    timeCues sin cos pi2 [t + 7 * 86400000000000] = timeCues sin cos pi2 [t] ∧
    (timeCue (t + (n : Int) * 86400000000000)).secInDay = (timeCue t).secInDay := by
  constructor
  · unfold timeCues
    simp only [List.map_cons, List.map_nil, C43_weekly_period]
  · unfold timeCue
    simp only
    omega

/-- Two fractions `a/n`, `b/n` of a full turn with `0 ≤ a, b < n` have the same sine and cosine only when `a = b`. -/
theorem turn_inj {a b n : Int} (hn : 0 < n) (ha : 0 ≤ a) (ha' : a < n) (hb : 0 ≤ b) (hb' : b < n)
    (hsin : Real.sin (2 * Real.pi * ((a : ℝ) / n)) = Real.sin (2 * Real.pi * ((b : ℝ) / n)))
    (hcos : Real.cos (2 * Real.pi * ((a : ℝ) / n)) = Real.cos (2 * Real.pi * ((b : ℝ) / n))) : a = b := by
  have h := Real.Angle.cos_sin_inj hcos hsin
  obtain ⟨k, hk⟩ := Real.Angle.angle_eq_iff_two_pi_dvd_sub.mp h
  have hpi := Real.pi_pos
  have hn' : (n : ℝ) ≠ 0 := by exact_mod_cast hn.ne'
  have h1 : (a : ℝ) - b = n * k := by
    field_simp at hk
    linarith
  have h2 : a - b = n * k := by exact_mod_cast h1
  have h3 : k = 0 := by
    rcases lt_trichotomy k 0 with h | h | h
    · nlinarith
    · exact h
    · nlinarith
  rw [h3] at h2
  omega

/-- **C43 (the cyclic features determine the time).**  Over the reals: the time-of-day pair lies on the unit circle and is the
same for two timestamps exactly when they fall on the same second of the day; the weekday pair lies on the unit circle and is
the same exactly for equal weekdays. -/
theorem C43_phase_faithful (t u : Int) :
    ∃ st ct sw cw st' ct' sw' cw',
      timeCues Real.sin Real.cos (2 * Real.pi) [t, u] = [(st, ct, sw, cw, timeCue t), (st', ct', sw', cw', timeCue u)] ∧
      st ^ 2 + ct ^ 2 = 1 ∧ sw ^ 2 + cw ^ 2 = 1 ∧
      ((st = st' ∧ ct = ct') ↔ (timeCue t).secInDay = (timeCue u).secInDay) ∧
      ((sw = sw' ∧ cw = cw') ↔ (timeCue t).dayWeek = (timeCue u).dayWeek) := by
  obtain ⟨a1, a2, a3, a4, -⟩ := C43_ranges t
  obtain ⟨b1, b2, b3, b4, -⟩ := C43_ranges u
  refine ⟨_, _, _, _, _, _, _, _, rfl, Real.sin_sq_add_cos_sq _, Real.sin_sq_add_cos_sq _, ?_, ?_⟩
  · constructor
    · rintro ⟨h1, h2⟩
      exact turn_inj (n := 86400) (by norm_num) a1 a2 b1 b2 (by exact_mod_cast h1) (by exact_mod_cast h2)
    · intro h; rw [h]; exact ⟨rfl, rfl⟩
  · constructor
    · rintro ⟨h1, h2⟩
      exact turn_inj (n := 7) (by norm_num) a3 a4 b3 b4 (by exact_mod_cast h1) (by exact_mod_cast h2)
    · intro h; rw [h]; exact ⟨rfl, rfl⟩

/-- **C43 (no jump at the end of the week or day).**  The squared distance of the weekday pairs of a timestamp and of the same
time one day later is the same on all days, Sunday to Monday included; likewise for the time of day of consecutive seconds. -/
theorem C43_phase_no_jump (t : Int) :
    ∃ st ct sw cw st' ct' sw' cw' st'' ct'' sw'' cw'',
      timeCues Real.sin Real.cos (2 * Real.pi) [t, t + 86400000000000, t + 1000000000] =
        [(st, ct, sw, cw, timeCue t), (st', ct', sw', cw', timeCue (t + 86400000000000)),
          (st'', ct'', sw'', cw'', timeCue (t + 1000000000))] ∧
      (sw' - sw) ^ 2 + (cw' - cw) ^ 2 = 2 - 2 * Real.cos (2 * Real.pi / 7) ∧
      (st'' - st) ^ 2 + (ct'' - ct) ^ 2 = 2 - 2 * Real.cos (2 * Real.pi / 86400) := by
  have chord : ∀ x y : ℝ, (Real.sin x - Real.sin y) ^ 2 + (Real.cos x - Real.cos y) ^ 2 = 2 - 2 * Real.cos (x - y) := by
    intro x y
    rw [Real.cos_sub]
    have h1 := Real.sin_sq_add_cos_sq x
    have h2 := Real.sin_sq_add_cos_sq y
    linear_combination h1 + h2
  have wrap : ∀ (a b : Int) (n : Int), 0 < n → 0 ≤ a → a < n → b = (a + 1) % n →
      Real.cos (2 * Real.pi * ((b : ℝ) / n) - 2 * Real.pi * ((a : ℝ) / n)) = Real.cos (2 * Real.pi / n) := by
    intro a b n hn h1 h2 hb
    have hn' : (n : ℝ) ≠ 0 := by exact_mod_cast hn.ne'
    obtain ⟨k, hk⟩ : ∃ k : Int, b = a + 1 - n * k := ⟨(a + 1) / n, by rw [hb, Int.emod_def]⟩
    have h3 : (b : ℝ) = a + 1 - n * k := by rw [hk]; push_cast; ring
    have h4 : 2 * Real.pi * ((b : ℝ) / n) - 2 * Real.pi * ((a : ℝ) / n) = 2 * Real.pi / n - k * (2 * Real.pi) := by
      rw [h3]; field_simp; ring
    rw [h4, Real.cos_sub_int_mul_two_pi]
  obtain ⟨a1, a2, a3, a4, -⟩ := C43_ranges t
  refine ⟨_, _, _, _, _, _, _, _, _, _, _, _, rfl, ?_, ?_⟩
  · rw [chord]
    have h := wrap (timeCue t).dayWeek (timeCue (t + 86400000000000)).dayWeek 7 (by norm_num) a3 a4 (by rw [C43_next_day])
    rw [show ((7 : Int) : ℝ) = 7 by norm_num] at h
    rw [h]
  · rw [chord]
    have h := wrap (timeCue t).secInDay (timeCue (t + 1000000000)).secInDay 86400 (by norm_num) a1 a2
      (by unfold timeCue; simp only; omega)
    rw [show ((86400 : Int) : ℝ) = 86400 by norm_num] at h
    rw [h]

end FinML
