/-
C124: point of control, value area and share above the point of control in the arithmetic of the code.
-/
import Verif.Model.Float64Profile
import Verif.Props.ValueArea
import Verif.Props.Ohlcv64
import Verif.Props.Directional64
import Mathlib.Algebra.Order.Ring.Pow

set_option linter.unusedSectionVars false

namespace FinML

/-! ### Specification -/

/-- The greedy extension of C40, with the volumes of the next two levels compared in float32. -/
def greedyNext32 (vols : List ℚ) (I : Nat × Nat) : Nat × Nat :=
  let lo := I.1
  let hi := I.2
  let U := f32 ((vols.take (hi + 3)).drop (hi + 1)).sum
  let D := f32 ((vols.take lo).drop (lo - 2)).sum
  (if 0 < lo ∧ (D ≥ U ∨ hi + 1 = vols.length) then lo - 2 else lo,
   if hi + 1 < vols.length ∧ (U ≥ D ∨ lo = 0) then min (hi + 2) (vols.length - 1) else hi)

theorem f32_zero : f32 0 = 0 := rndBits_zero 24
theorem f32_nonneg {x : ℚ} (h : 0 ≤ x) : 0 ≤ f32 x := rndBits_nonneg 24 (by norm_num) x h

/-- All entries are float32 numbers. -/
def AllF32 (vols : List ℚ) : Prop := ∀ x ∈ vols, f32 x = x

theorem AllF32.getD {vols : List ℚ} (h : AllF32 vols) {i : Nat} (hi : i < vols.length) : f32 (vols.getD i 0) = vols.getD i 0 := by
  rw [List.getD_eq_getElem _ _ hi]; exact h _ (List.getElem_mem hi)

theorem pairUp32_eq (vols : List ℚ) (h32 : AllF32 vols) (e : ℚ) (up : Nat) (h : up < vols.length) :
    pairUp32 vols e up = f32 (preSum vols (up + 2) - preSum vols up) := by
  rw [← pairUp_eq vols e up h]
  unfold pairUp32 pairUp
  rw [if_pos h, if_pos h]
  split
  · rfl
  · exact (h32.getD h).symm

theorem pairDown32_eq (vols : List ℚ) (h32 : AllF32 vols) (e : ℚ) (lo : Nat) (h0 : 0 < lo) (h : lo ≤ vols.length) :
    pairDown32 vols e ((lo : Int) - 1) = f32 (preSum vols lo - preSum vols (lo - 2)) := by
  rw [← pairDown_eq vols e lo h0 h]
  unfold pairDown32 pairDown
  have hp : 0 ≤ (lo : Int) - 1 := by omega
  rw [if_pos hp, if_pos hp]
  split
  · rfl
  · exact (h32.getD (show ((lo : Int) - 1).toNat < vols.length by omega)).symm

/-! ### The loop -/

/-- factors between the exact volume of the interval and `cum_volume` after `k` passes -/
def vaLow (k : Nat) : ℚ := (1 - 1 / 2 ^ 24) * (1 - 1 / 2 ^ 53) ^ (2 * k)
def vaHigh (k : Nat) : ℚ := (1 + 1 / 2 ^ 24) * (1 + 1 / 2 ^ 53) ^ (2 * k)

theorem vaLow_nonneg (k : Nat) : 0 ≤ vaLow k := by
  unfold vaLow; exact mul_nonneg (by norm_num) (pow_nonneg (by norm_num) _)

theorem vaLow_le (k : Nat) : vaLow k ≤ 1 - 1 / 2 ^ 24 := by
  unfold vaLow
  exact mul_le_of_le_one_right (by norm_num) (pow_le_one₀ (by norm_num) (by norm_num))

theorem le_vaHigh (k : Nat) : 1 + 1 / 2 ^ 24 ≤ vaHigh k := by
  unfold vaHigh
  exact le_mul_of_one_le_right (by norm_num) (one_le_pow₀ (by norm_num))

theorem vaLow_succ (k : Nat) : vaLow (k + 1) = vaLow k * (1 - 1 / 2 ^ 53) * (1 - 1 / 2 ^ 53) := by
  unfold vaLow
  rw [show 2 * (k + 1) = 2 * k + 1 + 1 by ring, pow_succ, pow_succ]; ring

theorem vaHigh_succ (k : Nat) : vaHigh (k + 1) = vaHigh k * (1 + 1 / 2 ^ 53) * (1 + 1 / 2 ^ 53) := by
  unfold vaHigh
  rw [show 2 * (k + 1) = 2 * k + 1 + 1 by ring, pow_succ, pow_succ]; ring

theorem cum_round {V W c w l h : ℚ} (hV : 0 ≤ V) (hW : 0 ≤ W) (hl : 0 ≤ l) (c1 : V * l ≤ c) (c2 : c ≤ V * h)
    (w1 : W * l ≤ w) (w2 : w ≤ W * h) :
    (V + W) * (l * (1 - 1 / 2 ^ 53)) ≤ f64 (c + w) ∧ f64 (c + w) ≤ (V + W) * (h * (1 + 1 / 2 ^ 53)) := by
  have h0 : 0 ≤ c + w := by
    have := mul_nonneg hV hl
    have := mul_nonneg hW hl
    linarith
  obtain ⟨f1, f2⟩ := f64_factor h0
  constructor
  · calc (V + W) * (l * (1 - 1 / 2 ^ 53)) = (V * l + W * l) * (1 - 1 / 2 ^ 53) := by ring
      _ ≤ (c + w) * (1 - 1 / 2 ^ 53) := mul_le_mul_of_nonneg_right (by linarith) (by norm_num)
      _ ≤ _ := f1
  · calc f64 (c + w) ≤ (c + w) * (1 + 1 / 2 ^ 53) := f2
      _ ≤ (V * h + W * h) * (1 + 1 / 2 ^ 53) := mul_le_mul_of_nonneg_right (by linarith) (by norm_num)
      _ = _ := by ring

theorem pair_factor {W : ℚ} (hW : 0 ≤ W) (k : Nat) : W * vaLow k ≤ f32 W ∧ f32 W ≤ W * vaHigh k := by
  obtain ⟨f1, f2⟩ := f32_factor hW
  exact ⟨le_trans (mul_le_mul_of_nonneg_left (vaLow_le k) hW) f1, le_trans f2 (mul_le_mul_of_nonneg_left (le_vaHigh k) hW)⟩

theorem cum_step_one {V W c : ℚ} (k : Nat) (hV : 0 ≤ V) (hW : 0 ≤ W) (c1 : V * vaLow k ≤ c) (c2 : c ≤ V * vaHigh k) :
    (V + W) * vaLow (k + 1) ≤ f64 (c + f32 W) ∧ f64 (c + f32 W) ≤ (V + W) * vaHigh (k + 1) := by
  obtain ⟨p1, p2⟩ := pair_factor hW k
  obtain ⟨r1, r2⟩ := cum_round hV hW (vaLow_nonneg k) c1 c2 p1 p2
  have hVW : 0 ≤ V + W := by linarith
  have hl := vaLow_nonneg k
  have hh : 0 ≤ vaHigh k := le_trans (by norm_num) (le_vaHigh k)
  rw [vaLow_succ, vaHigh_succ]
  constructor
  · refine le_trans (mul_le_mul_of_nonneg_left ?_ hVW) r1
    exact mul_le_of_le_one_right (mul_nonneg hl (by norm_num)) (by norm_num)
  · refine le_trans r2 (mul_le_mul_of_nonneg_left ?_ hVW)
    exact le_mul_of_one_le_right (mul_nonneg hh (by norm_num)) (by norm_num)

theorem cum_step_two {V W X c : ℚ} (k : Nat) (hV : 0 ≤ V) (hW : 0 ≤ W) (hX : 0 ≤ X) (c1 : V * vaLow k ≤ c)
    (c2 : c ≤ V * vaHigh k) :
    (V + (W + X)) * vaLow (k + 1) ≤ f64 (c + f64 (f32 W + f32 X)) ∧
      f64 (c + f64 (f32 W + f32 X)) ≤ (V + (W + X)) * vaHigh (k + 1) := by
  obtain ⟨p1, p2⟩ := pair_factor hW k
  obtain ⟨q1, q2⟩ := pair_factor hX k
  obtain ⟨r1, r2⟩ := cum_round hW hX (vaLow_nonneg k) p1 p2 q1 q2
  have hl := vaLow_nonneg k
  have hh : 0 ≤ vaHigh k := le_trans (by norm_num) (le_vaHigh k)
  have d1 : V * (vaLow k * (1 - 1 / 2 ^ 53)) ≤ c :=
    le_trans (mul_le_mul_of_nonneg_left (mul_le_of_le_one_right hl (by norm_num)) hV) c1
  have d2 : c ≤ V * (vaHigh k * (1 + 1 / 2 ^ 53)) :=
    le_trans c2 (mul_le_mul_of_nonneg_left (le_mul_of_one_le_right hh (by norm_num)) hV)
  rw [vaLow_succ, vaHigh_succ]
  exact cum_round hV (by linarith) (mul_nonneg hl (by norm_num)) d1 d2 r1 r2

/-- what the state says about the current interval, after `k` passes -/
structure VaInv32 (levels : List Int) (vols : List ℚ) (s : VaState ℚ) (lo hi k : Nat) : Prop where
  le : lo ≤ hi
  lt : hi < vols.length
  hva : s.hva = levels.getD hi 0
  lva : s.lva = levels.getD lo 0
  cum : volIn vols lo hi * vaLow k ≤ s.cum ∧ s.cum ≤ volIn vols lo hi * vaHigh k
  upSide : (s.cu = -1 ∧ hi + 1 = vols.length) ∨ (s.up = hi + 1 ∧ s.cu = f32 (preSum vols (hi + 3) - preSum vols (hi + 1)))
  downSide : (s.cd = -1 ∧ lo = 0) ∨ (s.down = (lo : Int) - 1 ∧ s.cd = f32 (preSum vols lo - preSum vols (lo - 2)))

/-- remaining work -/
def vaMeasure32 (vols : List ℚ) (s : VaState ℚ) : Nat :=
  (if s.cu = -1 then 0 else vols.length - s.up + 1) + (if s.cd = -1 then 0 else (s.down + 1).toNat + 1)

theorem upSide_next32 (vols : List ℚ) (h32 : AllF32 vols) (hi : Nat) (hlt : hi < vols.length) (up : Nat) (hup : up = hi + 1) :
    (pairUp32 vols (-1) (up + 2) = -1 ∧ min (hi + 2) (vols.length - 1) + 1 = vols.length) ∨
      (up + 2 = min (hi + 2) (vols.length - 1) + 1 ∧ pairUp32 vols (-1) (up + 2)
        = f32 (preSum vols (min (hi + 2) (vols.length - 1) + 3) - preSum vols (min (hi + 2) (vols.length - 1) + 1))) := by
  subst hup
  by_cases h : hi + 1 + 2 < vols.length
  · right
    have e : min (hi + 2) (vols.length - 1) = hi + 2 := by omega
    rw [e, pairUp32_eq _ h32 _ _ h]
    exact ⟨rfl, rfl⟩
  · left
    constructor
    · unfold pairUp32; rw [if_neg h]
    · omega

theorem downSide_next32 (vols : List ℚ) (h32 : AllF32 vols) (lo : Nat) (hlt : lo < vols.length) (down : Int) (hd : down = (lo : Int) - 1) :
    (pairDown32 vols (-1) (down - 2) = -1 ∧ lo - 2 = 0) ∨
      (down - 2 = ((lo - 2 : Nat) : Int) - 1 ∧ pairDown32 vols (-1) (down - 2)
        = f32 (preSum vols (lo - 2) - preSum vols (lo - 2 - 2))) := by
  subst hd
  by_cases h : 0 ≤ (lo : Int) - 1 - 2
  · right
    have e : (lo : Int) - 1 - 2 = ((lo - 2 : Nat) : Int) - 1 := by omega
    rw [e, pairDown32_eq _ h32 _ _ (by omega) (by omega)]
    exact ⟨rfl, rfl⟩
  · left
    constructor
    · unfold pairDown32; rw [if_neg h]
    · omega

theorem measure_up32 (vols : List ℚ) (up : Nat) :
    (if pairUp32 vols (-1) (up + 2) = -1 then 0 else vols.length - (up + 2) + 1) < vols.length - up + 1 := by
  split
  · omega
  · rename_i h
    have : up + 2 < vols.length := by
      by_contra hc
      apply h
      unfold pairUp32; rw [if_neg hc]
    omega

theorem measure_down32 (vols : List ℚ) (down : Int) :
    (if pairDown32 vols (-1) (down - 2) = -1 then 0 else (down - 2 + 1).toNat + 1) < (down + 1).toNat + 1 := by
  split
  · omega
  · rename_i h
    have : 0 ≤ down - 2 := by
      by_contra hc
      apply h
      unfold pairDown32; rw [if_neg hc]
    omega

/-- one pass: the interval moves as the specification says and the remaining work decreases -/
theorem vaStep_spec32 (levels : List Int) (vols : List ℚ) (hlen : levels.length = vols.length)
    (h32 : AllF32 vols)
    (hpos : ∀ x ∈ vols, 0 ≤ x) (s : VaState ℚ) (lo hi k : Nat) (hI : VaInv32 levels vols s lo hi k) :
    (vaStep32 levels vols s = none ∧ lo = 0 ∧ hi + 1 = vols.length) ∨
      ∃ s', vaStep32 levels vols s = some s' ∧
        VaInv32 levels vols s' (greedyNext32 vols (lo, hi)).1 (greedyNext32 vols (lo, hi)).2 (k + 1) ∧
        vaMeasure32 vols s' < vaMeasure32 vols s := by
  obtain ⟨h1, h2, h3, h4, h5, h6, h7⟩ := hI
  obtain ⟨U, hUd⟩ : ∃ U, U = preSum vols (hi + 3) - preSum vols (hi + 1) := ⟨_, rfl⟩
  obtain ⟨D, hDd⟩ : ∃ D, D = preSum vols lo - preSum vols (lo - 2) := ⟨_, rfl⟩
  have hU : ((vols.take (hi + 3)).drop (hi + 1)).sum = U := by rw [hUd]; exact sum_take_drop _ _ _ (by omega)
  have hD : ((vols.take lo).drop (lo - 2)).sum = D := by rw [hDd]; exact sum_take_drop _ _ _ (by omega)
  rw [← hUd] at h6
  rw [← hDd] at h7
  have hU0 : 0 ≤ U := by
    have := preSum_mono vols hpos (show hi + 1 ≤ hi + 3 by omega); linarith
  have hD0 : 0 ≤ D := by
    have := preSum_mono vols hpos (show lo - 2 ≤ lo by omega); linarith
  have hUr : 0 ≤ f32 U := f32_nonneg hU0
  have hDr : 0 ≤ f32 D := f32_nonneg hD0
  have hUz : hi + 1 = vols.length → f32 U = 0 := by
    intro e; rw [hUd, preSum_ge vols (hi + 3) (by omega), ← e, sub_self, f32_zero]
  have hDz : lo = 0 → f32 D = 0 := by intro e; rw [hDd, e]; simp [f32_zero]
  have hcu : -1 ≤ s.cu := by rcases h6 with h | h
                             · rw [h.1]
                             · rw [h.2]; linarith
  have hcd : -1 ≤ s.cd := by rcases h7 with h | h
                             · rw [h.1]
                             · rw [h.2]; linarith
  have hmin : min (hi + 1 + 1) (levels.length - 1) = min (hi + 2) (vols.length - 1) := by rw [hlen]
  have hmax : (max ((lo : Int) - 1 - 1) 0).toNat = lo - 2 := by omega
  have hltm : min (hi + 2) (vols.length - 1) < vols.length := by omega
  have hminS : preSum vols (min (hi + 2) (vols.length - 1) + 1) = preSum vols (hi + 3) := by
    by_cases h : hi + 2 ≤ vols.length - 1
    · rw [min_eq_left h]
    · rw [min_eq_right (by omega), preSum_ge vols (hi + 3) (by omega)]
      congr 1; omega
  have hV0 : 0 ≤ volIn vols lo hi := by
    rw [volIn_eq _ _ _ (by omega)]
    have := preSum_mono vols hpos (show lo ≤ hi + 1 by omega); linarith
  have hVu : volIn vols lo (min (hi + 2) (vols.length - 1)) = volIn vols lo hi + U := by
    rw [volIn_eq _ _ _ (by omega), volIn_eq _ _ _ (by omega), hminS, hUd]; ring
  have hVd : volIn vols (lo - 2) hi = volIn vols lo hi + D := by
    rw [volIn_eq _ _ _ (by omega), volIn_eq _ _ _ (by omega), hDd]; ring
  have hVb : volIn vols (lo - 2) (min (hi + 2) (vols.length - 1)) = volIn vols lo hi + (U + D) := by
    rw [volIn_eq _ _ _ (by omega), volIn_eq _ _ _ (by omega), hminS, hUd, hDd]; ring
  unfold vaStep32
  by_cases hgt : s.cu > s.cd
  · -- extend upwards
    right
    rw [if_pos hgt]
    have h6' : s.up = hi + 1 ∧ s.cu = f32 U := by
      rcases h6 with h | h
      · exfalso; rw [h.1] at hgt; linarith
      · exact h
    have hne : s.cu ≠ -1 := by intro e; rw [e] at hgt; linarith
    refine ⟨_, rfl, ?_, ?_⟩
    · have hn : (greedyNext32 vols (lo, hi)) = (lo, min (hi + 2) (vols.length - 1)) := by
        unfold greedyNext32
        simp only []
        rw [hU, hD]
        have hn' : (if hi + 1 < vols.length then min (hi + 2) (vols.length - 1) else hi) = min (hi + 2) (vols.length - 1) := by
          split <;> omega
        rcases h7 with h | h
        · have hl : lo = 0 := h.2
          rw [if_neg (by omega)]
          simp [hl, hn']
        · rw [h.2, h6'.2] at hgt
          have hhi : hi + 1 ≠ vols.length := by
            intro e; rw [hUz e] at hgt; linarith
          rw [if_neg (by rintro ⟨_, h | h⟩; exact absurd h (not_le.mpr hgt); exact hhi h), if_pos ⟨by omega, Or.inl hgt.le⟩]
      rw [hn]
      refine ⟨by simp only []; omega, by simpa using hltm, ?_, h4, ?_, ?_, by rw [← hDd]; exact h7⟩
      · show levels.getD (min (s.up + 1) (levels.length - 1)) 0 = _
        rw [h6'.1, hmin]
      · show _ ≤ f64 (s.cum + s.cu) ∧ f64 (s.cum + s.cu) ≤ _
        rw [hVu, h6'.2]
        exact cum_step_one k hV0 hU0 h5.1 h5.2
      · exact upSide_next32 vols h32 hi h2 s.up h6'.1
    · have := measure_up32 vols s.up
      unfold vaMeasure32 vaUp32
      simp only []
      rw [if_neg hne]
      omega
  · rw [if_neg hgt]
    by_cases hlt : s.cu < s.cd
    · right
      rw [if_pos hlt]
      have h7' : s.down = (lo : Int) - 1 ∧ s.cd = f32 D := by
        rcases h7 with h | h
        · exfalso; rw [h.1] at hlt; linarith
        · exact h
      have hne : s.cd ≠ -1 := by intro e; rw [e] at hlt; linarith
      refine ⟨_, rfl, ?_, ?_⟩
      · have hn : (greedyNext32 vols (lo, hi)) = (lo - 2, hi) := by
          unfold greedyNext32
          simp only []
          rw [hU, hD]
          rcases h6 with h | h
          · have hl : hi + 1 = vols.length := h.2
            rw [if_neg (show ¬ (hi + 1 < vols.length ∧ _) by omega)]
            simp only [hl, or_true, and_true]
            split
            · rfl
            · have : lo = 0 := by omega
              rw [this]
          · rw [h.2, h7'.2] at hlt
            have hlo : lo ≠ 0 := by
              intro e; rw [hDz e] at hlt; linarith
            rw [if_neg (show ¬ (hi + 1 < vols.length ∧ _) by rintro ⟨_, h | h⟩; exact absurd h (not_le.mpr hlt); exact hlo h)]
            rw [if_pos ⟨by omega, Or.inl hlt.le⟩]
        rw [hn]
        refine ⟨by simp only []; omega, h2, h3, ?_, ?_, by rw [← hUd]; exact h6, ?_⟩
        · show levels.getD (max (s.down - 1) 0).toNat 0 = _
          rw [h7'.1, hmax]
        · show _ ≤ f64 (s.cum + s.cd) ∧ f64 (s.cum + s.cd) ≤ _
          rw [hVd, h7'.2]
          exact cum_step_one k hV0 hD0 h5.1 h5.2
        · exact downSide_next32 vols h32 lo (by omega) s.down h7'.1
      · have := measure_down32 vols s.down
        unfold vaMeasure32 vaDown32
        simp only []
        rw [if_neg hne]
        omega
    · rw [if_neg hlt]
      have heq : s.cu = s.cd := le_antisymm (not_lt.mp hgt) (not_lt.mp hlt)
      by_cases hne : s.cd ≠ -1
      · right
        rw [if_pos hne]
        have hne' : s.cu ≠ -1 := by rw [heq]; exact hne
        have h6' : s.up = hi + 1 ∧ s.cu = f32 U := by
          rcases h6 with h | h
          · exact absurd h.1 hne'
          · exact h
        have h7' : s.down = (lo : Int) - 1 ∧ s.cd = f32 D := by
          rcases h7 with h | h
          · exact absurd h.1 hne
          · exact h
        refine ⟨_, rfl, ?_, ?_⟩
        · have hn : (greedyNext32 vols (lo, hi)) = (lo - 2, min (hi + 2) (vols.length - 1)) := by
            unfold greedyNext32
            simp only []
            rw [hU, hD, ← h6'.2, ← h7'.2]
            congr 1
            · split
              · rfl
              · rename_i hc
                by_contra hne2
                exact hc ⟨by omega, Or.inl heq.le⟩
            · split
              · rfl
              · rename_i hc
                by_contra hne2
                exact hc ⟨by omega, Or.inl heq.ge⟩
          rw [hn]
          refine ⟨by simp only []; omega, hltm, ?_, ?_, ?_, ?_, ?_⟩
          · show levels.getD (min (s.up + 1) (levels.length - 1)) 0 = _
            rw [h6'.1, hmin]
          · show levels.getD (max (s.down - 1) 0).toNat 0 = _
            rw [h7'.1, hmax]
          · show _ ≤ f64 (s.cum + f64 (s.cu + s.cd)) ∧ f64 (s.cum + f64 (s.cu + s.cd)) ≤ _
            rw [hVb, h6'.2, h7'.2]
            exact cum_step_two k hV0 hU0 hD0 h5.1 h5.2
          · exact upSide_next32 vols h32 hi h2 s.up h6'.1
          · exact downSide_next32 vols h32 lo (by omega) s.down h7'.1
        · have m1 := measure_up32 vols s.up
          have m2 := measure_down32 vols s.down
          unfold vaMeasure32 vaBoth32
          simp only []
          rw [if_neg hne, if_neg hne']
          omega
      · left
        rw [if_neg hne]
        have hm1 : s.cd = -1 := not_not.mp hne
        refine ⟨rfl, ?_, ?_⟩
        · rcases h7 with h | h
          · exact h.2
          · rw [h.2] at hm1; linarith
        · rw [← heq] at hm1
          rcases h6 with h | h
          · exact h.2
          · rw [h.2] at hm1; linarith

theorem vaLoop_spec32 (levels : List Int) (vols : List ℚ) (thr : ℚ) (hlen : levels.length = vols.length) (h32 : AllF32 vols)
    (hpos : ∀ x ∈ vols, 0 ≤ x) (f : Nat) (s : VaState ℚ) (lo hi k : Nat)
    (hI : VaInv32 levels vols s lo hi k) (hf : vaMeasure32 vols s < f) :
    ∃ m : Nat, m ≤ vaMeasure32 vols s ∧
      (∀ j, j < m → volIn vols ((greedyNext32 vols)^[j] (lo, hi)).1 ((greedyNext32 vols)^[j] (lo, hi)).2 * vaLow (k + j) < thr) ∧
      (thr ≤ volIn vols ((greedyNext32 vols)^[m] (lo, hi)).1 ((greedyNext32 vols)^[m] (lo, hi)).2 * vaHigh (k + m) ∨
        (((greedyNext32 vols)^[m] (lo, hi)).1 = 0 ∧ ((greedyNext32 vols)^[m] (lo, hi)).2 + 1 = vols.length)) ∧
      VaInv32 levels vols (vaLoop32 levels vols thr f s) ((greedyNext32 vols)^[m] (lo, hi)).1
        ((greedyNext32 vols)^[m] (lo, hi)).2 (k + m) := by
  induction f generalizing s lo hi k with
  | zero => omega
  | succ f ih =>
    unfold vaLoop32
    by_cases hc : s.cum < thr
    · rw [if_pos hc]
      rcases vaStep_spec32 levels vols hlen h32 hpos s lo hi k hI with ⟨h1, h2, h3⟩ | ⟨s', h1, h2, h3⟩
      · rw [h1]
        exact ⟨0, by omega, fun j hj => by omega, Or.inr ⟨h2, h3⟩, hI⟩
      · rw [h1]
        obtain ⟨m, i0, i1, i2, i3⟩ := ih s' _ _ _ h2 (by omega)
        have e : k + (m + 1) = k + 1 + m := by ring
        refine ⟨m + 1, by omega, ?_, ?_, ?_⟩
        · intro j hj
          cases j with
          | zero =>
            rw [Function.iterate_zero, id]
            exact lt_of_le_of_lt hI.cum.1 hc
          | succ j =>
            rw [Function.iterate_succ_apply, show k + (j + 1) = k + 1 + j by ring]; exact i1 j (by omega)
        · rw [Function.iterate_succ_apply, e]; exact i2
        · rw [Function.iterate_succ_apply, e]; exact i3
    · rw [if_neg hc]
      refine ⟨0, by omega, fun j hj => by omega, Or.inl ?_, hI⟩
      rw [Function.iterate_zero, id]
      exact le_trans (not_lt.mp hc) hI.cum.2

theorem vaLoop_fuel32 (levels : List Int) (vols : List ℚ) (thr : ℚ) (hlen : levels.length = vols.length) (h32 : AllF32 vols)
    (hpos : ∀ x ∈ vols, 0 ≤ x) (f g : Nat) (s : VaState ℚ) (lo hi k : Nat)
    (hI : VaInv32 levels vols s lo hi k) (hf : vaMeasure32 vols s < f) (hg : vaMeasure32 vols s < g) :
    vaLoop32 levels vols thr f s = vaLoop32 levels vols thr g s := by
  induction f generalizing g s lo hi k with
  | zero => omega
  | succ f ih =>
    cases g with
    | zero => omega
    | succ g =>
      unfold vaLoop32
      by_cases hc : s.cum < thr
      · rw [if_pos hc, if_pos hc]
        rcases vaStep_spec32 levels vols hlen h32 hpos s lo hi k hI with ⟨h1, _, _⟩ | ⟨s', h1, h2, h3⟩
        · rw [h1]
        · rw [h1]; exact ih g s' _ _ _ h2 (by omega) (by omega)
      · rw [if_neg hc, if_neg hc]

theorem vaInit_inv32 (levels : List Int) (vols : List ℚ) (hne : vols ≠ []) (h32 : AllF32 vols) (hpos : ∀ x ∈ vols, 0 ≤ x) :
    VaInv32 levels vols (vaInit32 levels vols) (argMax vols) (argMax vols) 0 := by
  obtain ⟨h1, _, _⟩ := argMax_spec vols hne
  refine ⟨le_refl _, h1, rfl, rfl, ?_, ?_, ?_⟩
  · show _ ≤ vols.getD (argMax vols) 0 ∧ vols.getD (argMax vols) 0 ≤ _
    have h0 : 0 ≤ vols.getD (argMax vols) 0 := by
      rw [List.getD_eq_getElem _ _ h1]; exact hpos _ (List.getElem_mem h1)
    have e : volIn vols (argMax vols) (argMax vols) = vols.getD (argMax vols) 0 := by
      rw [volIn_eq _ _ _ (by omega), preSum_succ _ _ h1]; ring
    rw [e]
    unfold vaLow vaHigh
    constructor
    · exact mul_le_of_le_one_right h0 (by norm_num)
    · exact le_mul_of_one_le_right h0 (by norm_num)
  · right
    refine ⟨rfl, ?_⟩
    show pairUp32 vols 0 (argMax vols + 1) = _
    by_cases h : argMax vols + 1 < vols.length
    · rw [pairUp32_eq _ h32 _ _ h]
    · unfold pairUp32
      have : argMax vols + 1 = vols.length := by omega
      rw [if_neg h, preSum_ge vols (argMax vols + 3) (by omega), this, sub_self, f32_zero]
  · right
    refine ⟨rfl, ?_⟩
    show pairDown32 vols 0 ((argMax vols : Int) - 1) = _
    by_cases h : 0 < argMax vols
    · rw [pairDown32_eq _ h32 _ _ h (by omega)]
    · have : argMax vols = 0 := by omega
      rw [this]; simp [pairDown32, f32_zero]

theorem vaInit_measure32 (levels : List Int) (vols : List ℚ) (hne : vols ≠ []) :
    vaMeasure32 vols (vaInit32 levels vols) < vols.length + 2 := by
  obtain ⟨h1, _, _⟩ := argMax_spec vols hne
  unfold vaMeasure32
  have e1 : (vaInit32 levels vols).up = argMax vols + 1 := rfl
  have e2 : (vaInit32 levels vols).down = (argMax vols : Int) - 1 := rfl
  rw [e1, e2]
  split <;> split <;> omega

/-! ### Sums -/

theorem fold32_bounds : ∀ (l : List ℚ) (s S : ℚ) (k : Nat), (∀ x ∈ l, 0 ≤ x) → 0 ≤ S →
      S * (1 - 1 / 2 ^ 24) ^ k ≤ s → s ≤ S * (1 + 1 / 2 ^ 24) ^ k →
      (S + l.sum) * (1 - 1 / 2 ^ 24) ^ (k + l.length) ≤ l.foldl (fun a x => f32 (a + x)) s ∧
      l.foldl (fun a x => f32 (a + x)) s ≤ (S + l.sum) * (1 + 1 / 2 ^ 24) ^ (k + l.length)
  | [], s, S, k, _, _, h1, h2 => by
    rw [List.sum_nil, add_zero, List.length_nil, add_zero, List.foldl_nil]
    exact ⟨h1, h2⟩
  | x :: l, s, S, k, hl, hS, h1, h2 => by
    have hx : 0 ≤ x := hl x (by simp)
    have p1 : (0 : ℚ) ≤ (1 - 1 / 2 ^ 24) ^ k := pow_nonneg (by norm_num) k
    have p1' : ((1 : ℚ) - 1 / 2 ^ 24) ^ k ≤ 1 := pow_le_one₀ (by norm_num) (by norm_num)
    have p2 : (1 : ℚ) ≤ (1 + 1 / 2 ^ 24) ^ k := one_le_pow₀ (by norm_num)
    have s1 : (S + x) * (1 - 1 / 2 ^ 24) ^ k ≤ s + x := by
      have := mul_le_of_le_one_right hx p1'
      rw [add_mul]; linarith
    have s2 : s + x ≤ (S + x) * (1 + 1 / 2 ^ 24) ^ k := by
      have := le_mul_of_one_le_right hx p2
      rw [add_mul]; linarith
    have s0 : 0 ≤ s + x := le_trans (mul_nonneg (by linarith) p1) s1
    have hf := f32_factor s0
    have ih := fold32_bounds l (f32 (s + x)) (S + x) (k + 1) (fun y hy => hl y (by simp [hy])) (by linarith)
      (by
        calc (S + x) * (1 - 1 / 2 ^ 24) ^ (k + 1) = (S + x) * (1 - 1 / 2 ^ 24) ^ k * (1 - 1 / 2 ^ 24) := by rw [pow_succ]; ring
          _ ≤ (s + x) * (1 - 1 / 2 ^ 24) := mul_le_mul_of_nonneg_right s1 (by norm_num)
          _ ≤ _ := hf.1)
      (by
        calc f32 (s + x) ≤ (s + x) * (1 + 1 / 2 ^ 24) := hf.2
          _ ≤ (S + x) * (1 + 1 / 2 ^ 24) ^ k * (1 + 1 / 2 ^ 24) := mul_le_mul_of_nonneg_right s2 (by norm_num)
          _ = _ := by rw [pow_succ]; ring)
    rw [List.sum_cons, List.length_cons, List.foldl_cons, show k + (l.length + 1) = k + 1 + l.length by ring, ← add_assoc]
    exact ih

theorem npSum32_bounds (l : List ℚ) (h : ∀ x ∈ l, 0 ≤ x) :
    l.sum * (1 - 1 / 2 ^ 24) ^ l.length ≤ npSum32 l ∧ npSum32 l ≤ l.sum * (1 + 1 / 2 ^ 24) ^ l.length := by
  have := fold32_bounds l 0 0 0 h le_rfl (by norm_num) (by norm_num)
  simpa [npSum32] using this

/-! ### Theorems -/

theorem vaThr32_bounds (vols : List ℚ) (pct : ℚ) (hpos : ∀ x ∈ vols, 0 ≤ x) (hp0 : 0 ≤ pct) :
    vols.sum * (pct / 100) * ((1 - 1 / 2 ^ 24) ^ vols.length * (1 - 1 / 2 ^ 53) ^ 2) ≤ vaThr32 vols pct ∧
      vaThr32 vols pct ≤ vols.sum * (pct / 100) * ((1 + 1 / 2 ^ 24) ^ vols.length * (1 + 1 / 2 ^ 53) ^ 2) := by
  obtain ⟨s1, s2⟩ := npSum32_bounds vols hpos
  have hS : 0 ≤ vols.sum := List.sum_nonneg hpos
  have hq : 0 ≤ pct / 100 := by positivity
  obtain ⟨q1, q2⟩ := f64_factor hq
  have a0 : (0 : ℚ) ≤ (1 - 1 / 2 ^ 24) ^ vols.length := pow_nonneg (by norm_num) _
  have hs0 : 0 ≤ npSum32 vols := le_trans (mul_nonneg hS a0) s1
  have hq0 : 0 ≤ f64 (pct / 100) := f64_nonneg hq
  obtain ⟨r1, r2⟩ := f64_factor (mul_nonneg hs0 hq0)
  unfold vaThr32
  constructor
  · calc _ = (vols.sum * (1 - 1 / 2 ^ 24) ^ vols.length) * (pct / 100 * (1 - 1 / 2 ^ 53)) * (1 - 1 / 2 ^ 53) := by ring
      _ ≤ npSum32 vols * f64 (pct / 100) * (1 - 1 / 2 ^ 53) :=
        mul_le_mul_of_nonneg_right (mul_le_mul s1 q1 (mul_nonneg hq (by norm_num)) hs0) (by norm_num)
      _ ≤ _ := r1
  · calc _ ≤ npSum32 vols * f64 (pct / 100) * (1 + 1 / 2 ^ 53) := r2
      _ ≤ (vols.sum * (1 + 1 / 2 ^ 24) ^ vols.length) * (pct / 100 * (1 + 1 / 2 ^ 53)) * (1 + 1 / 2 ^ 53) :=
        mul_le_mul_of_nonneg_right (mul_le_mul s2 q2 hq0 (mul_nonneg hS (pow_nonneg (by norm_num) _))) (by norm_num)
      _ = _ := by ring

/-- Rounding does not touch the point of control: it is the first level with the largest stored volume. -/
theorem C124_poc (levels : List Int) (vols : List ℚ) (pct : ℚ) (hne : vols ≠ []) (hlen : levels.length = vols.length) :
    ∃ p, p < vols.length ∧ levels[p]? = some (compPocHvaLva32 levels vols pct).1 ∧
      (∀ j, j < vols.length → vols.getD j 0 ≤ vols.getD p 0) ∧ (∀ j, j < p → vols.getD j 0 < vols.getD p 0) :=
  C40_poc_is_first_maximum levels vols pct hne hlen

example : compPocHvaLva32 [10, 11, 12, 13, 14] [1, 5, 2, 5, 1] 70 = (11, 13, 11) := by decide +kernel

/-- The loop ends whatever the roundings: more than `n + 2` passes never happen. -/
theorem C124_loop_terminates (levels : List Int) (vols : List ℚ) (thr : ℚ) (hne : vols ≠ [])
    (hlen : levels.length = vols.length) (h32 : AllF32 vols) (hpos : ∀ x ∈ vols, 0 ≤ x) (f : Nat) (hf : vols.length + 2 ≤ f) :
    vaLoop32 levels vols thr f (vaInit32 levels vols)
      = vaLoop32 levels vols thr (vols.length + 2) (vaInit32 levels vols) := by
  have := vaInit_measure32 levels vols hne
  exact vaLoop_fuel32 levels vols thr hlen h32 hpos _ _ _ _ _ _ (vaInit_inv32 levels vols hne h32 hpos) (by omega) this

example : vaLoop32 [1, 2, 3] [0, 5, 1] 6 50 (vaInit32 [1, 2, 3] [0, 5, 1])
    = vaLoop32 [1, 2, 3] [0, 5, 1] 6 5 (vaInit32 [1, 2, 3] [0, 5, 1]) := by decide +kernel

theorem greedyNext32_bounds (vols : List ℚ) (I : Nat × Nat) (h1 : I.1 ≤ I.2) (h2 : I.2 < vols.length) :
    (greedyNext32 vols I).1 ≤ I.1 ∧ I.2 ≤ (greedyNext32 vols I).2 ∧ I.1 ≤ (greedyNext32 vols I).1 + 2 ∧
      (greedyNext32 vols I).2 ≤ I.2 + 2 ∧ (greedyNext32 vols I).2 < vols.length := by
  unfold greedyNext32
  simp only []
  refine ⟨?_, ?_, ?_, ?_, ?_⟩ <;> split <;> omega

theorem greedyIter32_bounds (vols : List ℚ) (p : Nat) (hp : p < vols.length) (m : Nat) :
    ((greedyNext32 vols)^[m] (p, p)).1 ≤ p ∧ p ≤ ((greedyNext32 vols)^[m] (p, p)).2 ∧
      ((greedyNext32 vols)^[m] (p, p)).2 < vols.length := by
  induction m with
  | zero => simp [hp]
  | succ m ih =>
    rw [Function.iterate_succ_apply']
    obtain ⟨a, b, _, _, c⟩ := greedyNext32_bounds vols ((greedyNext32 vols)^[m] (p, p)) (by omega) ih.2.2
    exact ⟨by omega, by omega, c⟩

/-- The greedy step never goes only to the side with the smaller volume: one-sided steps are towards the side whose next two
levels hold more (or the other side is exhausted); a two-sided step is made when the two volumes agree to a relative
`2^-23`. -/
theorem C124_direction (vols : List ℚ) (hpos : ∀ x ∈ vols, 0 ≤ x) (lo hi : Nat) (hlo : 0 < lo) (hhi : hi + 1 < vols.length) :
    let U := ((vols.take (hi + 3)).drop (hi + 1)).sum
    let D := ((vols.take lo).drop (lo - 2)).sum
    ((greedyNext32 vols (lo, hi)).1 = lo → D < U) ∧ ((greedyNext32 vols (lo, hi)).2 = hi → U < D) ∧
      ((greedyNext32 vols (lo, hi)).1 ≠ lo → (greedyNext32 vols (lo, hi)).2 ≠ hi → |U - D| ≤ (U + D) / 2 ^ 24) := by
  intro U D
  have hsub : ∀ a b, 0 ≤ ((vols.take a).drop b).sum := fun a b =>
    List.sum_nonneg (fun x hx => hpos x (List.mem_of_mem_take (List.mem_of_mem_drop hx)))
  have hU0 : 0 ≤ U := hsub _ _
  have hD0 : 0 ≤ D := hsub _ _
  have g1 : (greedyNext32 vols (lo, hi)).1 = if f32 D ≥ f32 U then lo - 2 else lo := by
    unfold greedyNext32
    simp only [hlo, true_and]
    have : hi + 1 ≠ vols.length := by omega
    simp only [this, or_false]
    rfl
  have g2 : (greedyNext32 vols (lo, hi)).2 = if f32 U ≥ f32 D then min (hi + 2) (vols.length - 1) else hi := by
    unfold greedyNext32
    have : lo ≠ 0 := by omega
    simp only [hhi, true_and, this, or_false]
    rfl
  rw [g1, g2]
  refine ⟨?_, ?_, ?_⟩
  · intro h
    split at h
    · omega
    · rename_i hc
      by_contra hn
      exact hc (f32_mono (not_lt.mp hn))
  · intro h
    split at h
    · omega
    · rename_i hc
      by_contra hn
      exact hc (f32_mono (not_lt.mp hn))
  · intro h h'
    have a : f32 D ≥ f32 U := by
      by_contra hc; rw [if_neg hc] at h; exact h rfl
    have b : f32 U ≥ f32 D := by
      by_contra hc; rw [if_neg hc] at h'; exact h' rfl
    obtain ⟨u1, u2⟩ := f32_factor hU0
    obtain ⟨d1, d2⟩ := f32_factor hD0
    rw [abs_le]
    constructor <;> linarith

example : greedyNext32 [16777216, 1, 16777217, 16777216] (2, 2) = (0, 3) := by decide +kernel

/-- **C124.** The value area: a greedy extension of the point of control, between levels of the profile, holding the
requested share up to the roundings of the float32 total and the float64 running volume; the interval before the last
extension misses the share up to the same roundings. -/
theorem C124_value_area (levels : List Int) (vols : List ℚ) (pct : ℚ) (hne : vols ≠ [])
    (hlen : levels.length = vols.length) (h32 : AllF32 vols) (hpos : ∀ x ∈ vols, 0 ≤ x) (hp0 : 0 ≤ pct) (hp : pct ≤ 100) :
    ∃ (p m lo hi : Nat), m ≤ vols.length + 1 ∧ (greedyNext32 vols)^[m] (p, p) = (lo, hi) ∧
      lo ≤ p ∧ p ≤ hi ∧ hi < vols.length ∧
      levels[p]? = some (compPocHvaLva32 levels vols pct).1 ∧
      levels[hi]? = some (compPocHvaLva32 levels vols pct).2.1 ∧
      levels[lo]? = some (compPocHvaLva32 levels vols pct).2.2 ∧
      vols.sum * (pct / 100) * ((1 - 1 / 2 ^ 24) ^ vols.length * (1 - 1 / 2 ^ 53) ^ 2)
        ≤ volIn vols lo hi * ((1 + 1 / 2 ^ 24) * (1 + 1 / 2 ^ 53) ^ (2 * m)) ∧
      (∀ j, j < m → volIn vols ((greedyNext32 vols)^[j] (p, p)).1 ((greedyNext32 vols)^[j] (p, p)).2
          * ((1 - 1 / 2 ^ 24) * (1 - 1 / 2 ^ 53) ^ (2 * j))
        < vols.sum * (pct / 100) * ((1 + 1 / 2 ^ 24) ^ vols.length * (1 + 1 / 2 ^ 53) ^ 2)) := by
  obtain ⟨t1, t2⟩ := vaThr32_bounds vols pct hpos hp0
  have hm := vaInit_measure32 levels vols hne
  obtain ⟨m, i0, i1, i2, i3⟩ := vaLoop_spec32 levels vols (vaThr32 vols pct) hlen h32 hpos (vols.length + 2) _ _ _ _
    (vaInit_inv32 levels vols hne h32 hpos) hm
  obtain ⟨a1, _, _⟩ := argMax_spec vols hne
  obtain ⟨b1, b2, b3⟩ := greedyIter32_bounds vols (argMax vols) a1 m
  rw [zero_add] at i2 i3
  have hS : 0 ≤ vols.sum := List.sum_nonneg hpos
  refine ⟨argMax vols, m, _, _, by omega, rfl, b1, b2, b3, ?_, ?_, ?_, ?_, ?_⟩
  · unfold compPocHvaLva32
    rw [List.getD_eq_getElem _ _ (by omega), List.getElem?_eq_getElem (by omega)]
  · unfold compPocHvaLva32
    simp only []
    rw [i3.hva, List.getD_eq_getElem _ _ (by omega), List.getElem?_eq_getElem (by omega)]
  · unfold compPocHvaLva32
    simp only []
    rw [i3.lva, List.getD_eq_getElem _ _ (by omega), List.getElem?_eq_getElem (by omega)]
  · rcases i2 with i2 | ⟨i2, i2'⟩
    · exact le_trans t1 i2
    · rw [volIn_eq _ _ _ (by omega), i2, i2', preSum_total]
      have h0 : preSum vols 0 = 0 := rfl
      rw [h0, sub_zero]
      have e1 : vols.sum * (pct / 100) ≤ vols.sum := mul_le_of_le_one_right hS (by linarith)
      have e2 : ((1 : ℚ) - 1 / 2 ^ 24) ^ vols.length * (1 - 1 / 2 ^ 53) ^ 2 ≤ 1 :=
        mul_le_one₀ (pow_le_one₀ (by norm_num) (by norm_num)) (by positivity) (by norm_num)
      have e3 : (1 : ℚ) ≤ (1 + 1 / 2 ^ 24) * (1 + 1 / 2 ^ 53) ^ (2 * m) := le_trans (by norm_num) (le_vaHigh m)
      calc _ ≤ vols.sum * (pct / 100) * 1 := mul_le_mul_of_nonneg_left e2 (mul_nonneg hS (by positivity))
        _ ≤ vols.sum * 1 := by linarith
        _ ≤ _ := mul_le_mul_of_nonneg_left e3 hS
  · intro j hj
    have := i1 j hj
    rw [zero_add] at this
    exact lt_of_lt_of_le this t2

example : compPocHvaLva32 [10, 11, 12, 13, 14, 15] [1, 2, 9, 1, 1, 1] 75 = (12, 12, 10) := by decide +kernel

theorem one_sub_mul_ge {a b x y : ℚ} (hb : 0 ≤ b) (hx0 : 0 ≤ x) (hx : 1 - a ≤ x) (hx1 : x ≤ 1) (hy : 1 - b ≤ y) :
    1 - a - b ≤ x * y := by
  have : x * (1 - b) ≤ x * y := mul_le_mul_of_nonneg_left hy hx0
  have : x * b ≤ b := mul_le_of_le_one_left hb hx1
  linarith [mul_sub x 1 b]

theorem one_sub_pow_ge (u : ℚ) (h : u ≤ 2) (n : Nat) : 1 - n * u ≤ (1 - u) ^ n := by
  have := one_add_mul_le_pow (show (-2 : ℚ) ≤ -u by linarith) n
  rw [← sub_eq_add_neg] at this
  linarith

/-- On ascending levels: LVA ≤ POC ≤ HVA, all three are levels of the profile, and the levels between LVA and HVA hold the
requested share of the stored volume up to `(n + 2) / 2^24` of it. -/
theorem C124_covers (levels : List Int) (vols : List ℚ) (pct : ℚ) (hne : vols ≠ [])
    (hlen : levels.length = vols.length) (hs : levels.Pairwise (· < ·)) (h32 : AllF32 vols) (hpos : ∀ x ∈ vols, 0 ≤ x)
    (hp0 : 0 ≤ pct) (hp : pct ≤ 100) (hn : vols.length ≤ 2 ^ 26) :
    let r := compPocHvaLva32 levels vols pct
    r.1 ∈ levels ∧ r.2.1 ∈ levels ∧ r.2.2 ∈ levels ∧ r.2.2 ≤ r.1 ∧ r.1 ≤ r.2.1 ∧
    vols.sum * (pct / 100) * (1 - (vols.length + 2) / 2 ^ 24)
      ≤ (((levels.zip vols).filter (fun x => decide (r.2.2 ≤ x.1 ∧ x.1 ≤ r.2.1))).map Prod.snd).sum := by
  intro r
  obtain ⟨p, m, lo, hi, hm, _, b1, b2, b3, e1, e2, e3, hc, _⟩ := C124_value_area levels vols pct hne hlen h32 hpos hp0 hp
  have hle : levels.Pairwise (· ≤ ·) := hs.imp le_of_lt
  obtain ⟨l1, e1⟩ := List.getElem?_eq_some_iff.mp e1
  obtain ⟨l2, e2⟩ := List.getElem?_eq_some_iff.mp e2
  obtain ⟨l3, e3⟩ := List.getElem?_eq_some_iff.mp e3
  have g2 : r.2.1 = levels.getD hi 0 := by rw [List.getD_eq_getElem _ _ l2]; exact e2.symm
  have g3 : r.2.2 = levels.getD lo 0 := by rw [List.getD_eq_getElem _ _ l3]; exact e3.symm
  refine ⟨?_, ?_, ?_, ?_, ?_, ?_⟩
  · rw [← e1]; exact List.getElem_mem _
  · rw [← e2]; exact List.getElem_mem _
  · rw [← e3]; exact List.getElem_mem _
  · rw [← e1, ← e3]; exact sorted_get_le hle (by omega) (by omega) b1
  · rw [← e1, ← e2]; exact sorted_get_le hle (by omega) (by omega) b2
  · rw [g2, g3, filter_levels levels vols hlen hs _ _ (by omega) b3]
    have hV : 0 ≤ volIn vols lo hi :=
      List.sum_nonneg (fun x hx => hpos x (List.mem_of_mem_take (List.mem_of_mem_drop hx)))
    have hT : 0 ≤ vols.sum * (pct / 100) := mul_nonneg (List.sum_nonneg hpos) (by positivity)
    generalize hTd : vols.sum * (pct / 100) = T at *
    generalize volIn vols lo hi = V at *
    have hmq : (m : ℚ) ≤ vols.length + 1 := by exact_mod_cast hm
    have hnq : (vols.length : ℚ) ≤ 67108864 := by exact_mod_cast (show vols.length ≤ 67108864 by omega)
    generalize hnn : vols.length = n at *
    -- multiply by the lower factors
    have x1 : ((1 : ℚ) + 1 / 2 ^ 24) * (1 - 1 / 2 ^ 24) ≤ 1 := by norm_num
    have x2 : ((1 : ℚ) + 1 / 2 ^ 53) ^ (2 * m) * (1 - 1 / 2 ^ 53) ^ (2 * m) ≤ 1 := by
      rw [← mul_pow]; exact pow_le_one₀ (by norm_num) (by norm_num)
    have p0 : (0 : ℚ) ≤ (1 - 1 / 2 ^ 53) ^ (2 * m) := pow_nonneg (by norm_num) _
    have step : T * ((1 - 1 / 2 ^ 24) ^ n * (1 - 1 / 2 ^ 53) ^ 2) * ((1 - 1 / 2 ^ 24) * (1 - 1 / 2 ^ 53) ^ (2 * m)) ≤ V := by
      calc _ ≤ V * ((1 + 1 / 2 ^ 24) * (1 + 1 / 2 ^ 53) ^ (2 * m)) * ((1 - 1 / 2 ^ 24) * (1 - 1 / 2 ^ 53) ^ (2 * m)) :=
            mul_le_mul_of_nonneg_right hc (mul_nonneg (by norm_num) p0)
        _ = V * ((((1 : ℚ) + 1 / 2 ^ 24) * (1 - 1 / 2 ^ 24)) * ((1 + 1 / 2 ^ 53) ^ (2 * m) * (1 - 1 / 2 ^ 53) ^ (2 * m))) := by ring
        _ ≤ V * 1 := by
          apply mul_le_mul_of_nonneg_left _ hV
          exact mul_le_one₀ x1 (mul_nonneg (pow_nonneg (by norm_num) _) p0) x2
        _ = V := mul_one V
    refine le_trans ?_ step
    have k1 : ((1 : ℚ) - 1 / 2 ^ 24) ^ n * (1 - 1 / 2 ^ 53) ^ 2 * ((1 - 1 / 2 ^ 24) * (1 - 1 / 2 ^ 53) ^ (2 * m))
        = (1 - 1 / 2 ^ 24) ^ (n + 1) * (1 - 1 / 2 ^ 53) ^ (2 * m + 2) := by
      rw [pow_succ, pow_add]; ring
    rw [mul_assoc T, k1]
    apply mul_le_mul_of_nonneg_left _ hT
    have q1 := one_sub_pow_ge (1 / 2 ^ 24) (by norm_num) (n + 1)
    have q2 := one_sub_pow_ge (1 / 2 ^ 53) (by norm_num) (2 * m + 2)
    have := one_sub_mul_ge (a := ((n + 1 : Nat) : ℚ) * (1 / 2 ^ 24)) (b := ((2 * m + 2 : Nat) : ℚ) * (1 / 2 ^ 53))
      (by positivity) (pow_nonneg (by norm_num) _) q1 (pow_le_one₀ (by norm_num) (by norm_num)) q2
    refine le_trans ?_ this
    push_cast
    have : (2 * (m : ℚ) + 2) * (1 / 2 ^ 53) ≤ 1 / 2 ^ 24 := by
      rw [mul_one_div, div_le_div_iff₀ (by norm_num) (by norm_num)]
      norm_num
      linarith
    have e : ((n : ℚ) + 2) / 2 ^ 24 = (n + 1) * (1 / 2 ^ 24) + 1 / 2 ^ 24 := by ring
    rw [e]
    linarith

example : (let r := compPocHvaLva32 [10, 11, 12, 13, 14] [1, 5, 2, 4, 1] 70; (r.1, r.2.1, r.2.2)) = (11, 13, 11) := by
  decide +kernel

/-! ### Volumes on a grid -/

/-- Every volume is a non-negative multiple of a power of two and the total is at most `2^24` times that power. -/
def OnGrid (vols : List ℚ) : Prop :=
  ∃ (k : Int) (ms : List Nat), vols = ms.map (fun m : Nat => ((m : Int) : ℚ) * 2 ^ k) ∧ ms.sum ≤ 2 ^ 24

theorem grid_sum (k : Int) (ms : List Nat) :
    (ms.map (fun m : Nat => ((m : Int) : ℚ) * 2 ^ k)).sum = ((ms.sum : Nat) : Int) * 2 ^ k := by
  induction ms with
  | nil => simp
  | cons m ms ih => rw [List.map_cons, List.sum_cons, ih, List.sum_cons]; push_cast; ring

theorem f32_grid (k : Int) (m : Nat) (h : m ≤ 2 ^ 24) : f32 (((m : Int) : ℚ) * 2 ^ k) = ((m : Int) : ℚ) * 2 ^ k := by
  refine rndBits_exact 24 (by norm_num) _ _ ?_
  rw [abs_of_nonneg (by positivity)]
  exact_mod_cast h

theorem f64_grid (k : Int) (m : Nat) (h : m ≤ 2 ^ 24) : f64 (((m : Int) : ℚ) * 2 ^ k) = ((m : Int) : ℚ) * 2 ^ k := by
  refine rndBits_exact 53 (by norm_num) _ _ ?_
  rw [abs_of_nonneg (by positivity)]
  have : m ≤ 2 ^ 53 := le_trans h (by norm_num)
  exact_mod_cast this

theorem take_drop_grid (k : Int) (ms : List Nat) (h : ms.sum ≤ 2 ^ 24) (a b : Nat) :
    ∃ M : Nat, M ≤ 2 ^ 24 ∧ (((ms.map (fun m : Nat => ((m : Int) : ℚ) * 2 ^ k)).take b).drop a).sum = ((M : Int) : ℚ) * 2 ^ k := by
  refine ⟨((ms.take b).drop a).sum, ?_, ?_⟩
  · refine le_trans (List.Sublist.sum_le_sum ?_ (by simp)) h
    exact (List.drop_sublist _ _).trans (List.take_sublist _ _)
  · rw [← List.map_take, ← List.map_drop, grid_sum]

theorem grid_npSum32 (k : Int) (ms : List Nat) (h : ms.sum ≤ 2 ^ 24) :
    npSum32 (ms.map (fun m : Nat => ((m : Int) : ℚ) * 2 ^ k)) = (ms.map (fun m : Nat => ((m : Int) : ℚ) * 2 ^ k)).sum := by
  have : ∀ (l : List Nat) (a : Nat), a + l.sum ≤ 2 ^ 24 →
      (l.map (fun m : Nat => ((m : Int) : ℚ) * 2 ^ k)).foldl (fun a x => f32 (a + x)) (((a : Int) : ℚ) * 2 ^ k)
        = ((a + l.sum : Nat) : Int) * 2 ^ k := by
    intro l
    induction l with
    | nil => intro a _; simp
    | cons x l ih =>
      intro a ha
      rw [List.sum_cons] at ha
      rw [List.map_cons, List.foldl_cons, ← add_mul, ← Int.cast_add, ← Nat.cast_add, f32_grid k (a + x) (by omega),
        ih (a + x) (by omega), List.sum_cons, add_assoc]
  have h0 := this ms 0 (by omega)
  rw [grid_sum]
  unfold npSum32
  simpa using h0

/-- **C124.** If the volumes are multiples of a power of two with a total of at most `2^24` of it, nothing but the threshold
is rounded: the result is that of exact arithmetic with the threshold `total * (va_pct / 100)` in float64. -/
theorem C124_exact_on_grid (levels : List Int) (vols : List ℚ) (pct : ℚ) (hne : vols ≠ [])
    (hlen : levels.length = vols.length) (hg : OnGrid vols) :
    let s := vaLoop levels vols (f64 (vols.sum * f64 (pct / 100))) (vols.length + 2) (vaInit levels vols)
    compPocHvaLva32 levels vols pct = (levels.getD (argMax vols) 0, s.hva, s.lva) := by
  intro s
  obtain ⟨k, ms, hv, hsum⟩ := hg
  have hpos : ∀ x ∈ vols, 0 ≤ x := by
    intro x hx
    rw [hv] at hx
    obtain ⟨m, _, rfl⟩ := List.mem_map.mp hx
    exact mul_nonneg (by exact_mod_cast Nat.zero_le m) (two_zpow_pos k).le
  have htd : ∀ a b, ∃ M : Nat, M ≤ 2 ^ 24 ∧ ((vols.take b).drop a).sum = ((M : Int) : ℚ) * 2 ^ k := by
    intro a b; rw [hv]; exact take_drop_grid k ms hsum a b
  have hp32 : ∀ a b, a ≤ b → f32 (preSum vols b - preSum vols a) = preSum vols b - preSum vols a := by
    intro a b hab
    obtain ⟨M, h1, h2⟩ := htd a b
    rw [← sum_take_drop _ _ _ hab, h2]; exact f32_grid k M h1
  have hp64 : ∀ a b, a ≤ b → f64 (preSum vols b - preSum vols a) = preSum vols b - preSum vols a := by
    intro a b hab
    obtain ⟨M, h1, h2⟩ := htd a b
    rw [← sum_take_drop _ _ _ hab, h2]; exact f64_grid k M h1
  have h32 : AllF32 vols := by
    intro x hx
    obtain ⟨i, hi, rfl⟩ := List.getElem_of_mem hx
    have := hp32 i (i + 1) (by omega)
    rw [preSum_succ _ _ hi, List.getD_eq_getElem _ _ hi, add_sub_cancel_left] at this
    exact this
  have hup : ∀ e up, pairUp32 vols e up = pairUp vols e up := by
    intro e up
    by_cases h : up < vols.length
    · rw [pairUp32_eq _ h32 _ _ h, pairUp_eq _ _ _ h]; exact hp32 _ _ (by omega)
    · unfold pairUp32 pairUp; rw [if_neg h, if_neg h]
  have hdn : ∀ e (down : Int), down < vols.length → pairDown32 vols e down = pairDown vols e down := by
    intro e down hlt
    by_cases h : 0 ≤ down
    · obtain ⟨lo, h0, rfl⟩ : ∃ lo : Nat, 0 < lo ∧ down = (lo : Int) - 1 := ⟨(down + 1).toNat, by omega, by omega⟩
      rw [pairDown32_eq _ h32 _ _ h0 (by omega), pairDown_eq _ _ _ h0 (by omega)]; exact hp32 _ _ (by omega)
    · unfold pairDown32 pairDown; rw [if_neg h, if_neg h]
  obtain ⟨a1, _, _⟩ := argMax_spec vols hne
  have hinit : vaInit32 levels vols = vaInit levels vols := by
    unfold vaInit32 vaInit
    simp only []
    rw [hup, hdn _ _ (by omega)]
  have hthr : vaThr32 vols pct = f64 (vols.sum * f64 (pct / 100)) := by
    unfold vaThr32
    have : npSum32 vols = vols.sum := by rw [hv]; exact grid_npSum32 k ms hsum
    rw [this]
  have hloop : ∀ (f : Nat) (s : VaState ℚ) (lo hi : Nat) (thr : ℚ), VaInv levels vols s lo hi →
      (s.down < vols.length) → vaLoop32 levels vols thr f s = vaLoop levels vols thr f s := by
    intro f
    induction f with
    | zero => intro s lo hi thr _ _; rfl
    | succ f ih =>
      intro s lo hi thr hI hd
      have hstep : vaStep32 levels vols s = vaStep levels vols s := by
        obtain ⟨h1, h2, h3, h4, h5, h6, h7⟩ := hI
        rw [volIn_eq _ _ _ (by omega)] at h5
        unfold vaStep32 vaStep
        have hU0 : 0 ≤ preSum vols (hi + 3) - preSum vols (hi + 1) := by
          have := preSum_mono vols hpos (show hi + 1 ≤ hi + 3 by omega); linarith
        have hD0 : 0 ≤ preSum vols lo - preSum vols (lo - 2) := by
          have := preSum_mono vols hpos (show lo - 2 ≤ lo by omega); linarith
        have hcu : -1 ≤ s.cu := by rcases h6 with h | h
                                   · rw [h.1]
                                   · rw [h.2]; linarith
        have hcd : -1 ≤ s.cd := by rcases h7 with h | h
                                   · rw [h.1]
                                   · rw [h.2]; linarith
        by_cases hgt : s.cu > s.cd
        · rw [if_pos hgt, if_pos hgt]
          rcases h6 with h | h
          · exfalso; rw [h.1] at hgt; linarith
          · unfold vaUp32 vaUp
            have : f64 (s.cum + s.cu) = s.cum + s.cu := by
              have e : s.cum + s.cu = preSum vols (hi + 3) - preSum vols lo := by rw [h5, h.2]; ring
              rw [e]; exact hp64 _ _ (by omega)
            rw [this, hup]
        · rw [if_neg hgt, if_neg hgt]
          by_cases hlt : s.cu < s.cd
          · rw [if_pos hlt, if_pos hlt]
            rcases h7 with h | h
            · exfalso; rw [h.1] at hlt; linarith
            · unfold vaDown32 vaDown
              have : f64 (s.cum + s.cd) = s.cum + s.cd := by
                have e : s.cum + s.cd = preSum vols (hi + 1) - preSum vols (lo - 2) := by rw [h5, h.2]; ring
                rw [e]; exact hp64 _ _ (by omega)
              rw [this, hdn _ _ (by omega)]
          · rw [if_neg hlt, if_neg hlt]
            by_cases hm1 : s.cd ≠ -1
            · rw [if_pos hm1, if_pos hm1]
              have heq : s.cu = s.cd := le_antisymm (not_lt.mp hgt) (not_lt.mp hlt)
              rcases h7 with h | h
              · exact absurd h.1 hm1
              · rcases h6 with h' | h'
                · exact absurd (heq ▸ h'.1) hm1
                · unfold vaBoth32 vaBoth
                  have e1 : f64 (s.cu + s.cd) = s.cu + s.cd := by
                    rw [heq, h.2]
                    obtain ⟨M, m1, m2⟩ := htd (lo - 2) lo
                    obtain ⟨M', m1', m2'⟩ := htd (hi + 1) (hi + 3)
                    rw [← sum_take_drop _ _ _ (by omega), m2]
                    have : ((M : Int) : ℚ) * 2 ^ k + ((M : Int) : ℚ) * 2 ^ k = ((M : Int) : ℚ) * 2 ^ (k + 1) := by
                      rw [zpow_add_one₀ (by norm_num)]; ring
                    rw [this]; exact f64_grid (k + 1) M m1
                  have e2 : f64 (s.cum + (s.cu + s.cd)) = s.cum + (s.cu + s.cd) := by
                    have e : s.cum + (s.cu + s.cd) = preSum vols (hi + 3) - preSum vols (lo - 2) := by
                      rw [h5, h.2, h'.2]; ring
                    rw [e]; exact hp64 _ _ (by omega)
                  rw [e1, e2, hup, hdn _ _ (by omega)]
            · rw [if_neg hm1, if_neg hm1]
      unfold vaLoop32 vaLoop
      rw [hstep]
      split
      · rcases vaStep_spec levels vols hlen hpos s lo hi hI with ⟨h1, _, _⟩ | ⟨s', h1, h2, _⟩
        · rw [h1]
        · rw [h1]
          refine ih s' _ _ thr h2 ?_
          unfold vaStep at h1
          split at h1
          · cases h1; exact hd
          · split at h1
            · cases h1; show s.down - 2 < _; omega
            · split at h1
              · cases h1; show s.down - 2 < _; omega
              · cases h1
      · rfl
  unfold compPocHvaLva32
  simp only []
  rw [hinit, hthr, hloop _ _ _ _ _ (vaInit_inv levels vols hne) (show (argMax vols : Int) - 1 < _ by omega)]

example : OnGrid [1, 5 / 2, 2] := ⟨-1, [2, 5, 4], by simp; norm_num, by decide⟩

/-! ### Share above the point of control -/

theorem above_fold (poc : Int) (z : List (Int × ℚ)) (a : ℚ) :
    z.foldl (fun acc p => if p.1 > poc then f64 (acc + p.2) else acc) a
      = ((z.filter (fun x => decide (poc < x.1))).map Prod.snd).foldl (fun s v => f64 (s + v)) a := by
  induction z generalizing a with
  | nil => rfl
  | cons x t ih =>
    rw [List.foldl_cons, ih]
    by_cases h : x.1 > poc
    · rw [if_pos h, List.filter_cons_of_pos (by simpa using h), List.map_cons, List.foldl_cons]
    · rw [if_neg h, List.filter_cons_of_neg (by simpa using h)]

/-- **C124.** The share above the point of control: within the roundings of the float32 total, the float64 sum, the quotient
and the store of the exact share, and non-negative. -/
theorem C124_share (levels : List Int) (vols : List ℚ) (poc : Int) (hlen : levels.length = vols.length)
    (hpos : ∀ x ∈ vols, 0 ≤ x) (hT : 0 < vols.sum) :
    let S := (((levels.zip vols).filter (fun x => decide (poc < x.1))).map Prod.snd).sum / vols.sum
    let n := vols.length
    0 ≤ pctAbovePoc32 levels vols poc ∧
    S * ((1 - 1 / 2 ^ 53) ^ (n + 1) * (1 - 1 / 2 ^ 24)) ≤ pctAbovePoc32 levels vols poc * (1 + 1 / 2 ^ 24) ^ n ∧
    pctAbovePoc32 levels vols poc * (1 - 1 / 2 ^ 24) ^ n ≤ S * ((1 + 1 / 2 ^ 53) ^ (n + 1) * (1 + 1 / 2 ^ 24)) := by
  intro S n
  obtain ⟨s1, s2⟩ := npSum32_bounds vols hpos
  have ha0 : (0 : ℚ) < (1 - 1 / 2 ^ 24) ^ n := pow_pos (by norm_num) _
  have hS32 : 0 < npSum32 vols := lt_of_lt_of_le (mul_pos hT ha0) s1
  obtain ⟨L, hL⟩ : ∃ L, L = ((levels.zip vols).filter (fun x => decide (poc < x.1))).map Prod.snd := ⟨_, rfl⟩
  have hLpos : ∀ x ∈ L, 0 ≤ x := by
    intro x hx
    rw [hL] at hx
    obtain ⟨y, hy, rfl⟩ := List.mem_map.mp hx
    exact hpos _ (List.of_mem_zip (List.mem_filter.mp hy).1).2
  have hLlen : L.length ≤ n := by
    rw [hL, List.length_map]
    refine le_trans (List.length_filter_le _ _) ?_
    rw [List.length_zip]; omega
  have hSd : S = L.sum / vols.sum := by rw [hL]
  have hLs : 0 ≤ L.sum := List.sum_nonneg hLpos
  obtain ⟨A, hA⟩ : ∃ A, A = (levels.zip vols).foldl (fun acc p => if p.1 > poc then f64 (acc + p.2) else acc) 0 := ⟨_, rfl⟩
  have hA' : A = L.foldl (fun s v => f64 (s + v)) 0 := by rw [hA, hL, above_fold]
  obtain ⟨b1, b2⟩ : L.sum * (1 - 1 / 2 ^ 53) ^ n ≤ A ∧ A ≤ L.sum * (1 + 1 / 2 ^ 53) ^ n := by
    have := fold64_bounds (fun v : ℚ => v) (fun v => v) (1 / 2 ^ 53) 1 1 rfl (by norm_num) (by norm_num) L 0 0 0
      (fun t ht => ⟨hLpos t ht, by linarith, by linarith⟩) le_rfl (by norm_num) (by norm_num)
    rw [← hA', zero_add, zero_add, List.map_id', one_mul, one_mul] at this
    constructor
    · refine le_trans (mul_le_mul_of_nonneg_left ?_ hLs) this.1
      exact pow_le_pow_of_le_one (by norm_num) (by norm_num) hLlen
    · refine le_trans this.2 (mul_le_mul_of_nonneg_left ?_ hLs)
      exact pow_le_pow_right₀ (by norm_num) hLlen
  have hA0 : 0 ≤ A := le_trans (mul_nonneg hLs (pow_nonneg (by norm_num) _)) b1
  -- the result is the rounded quotient in all cases
  have hval : pctAbovePoc32 levels vols poc = f32 (f64 (A / npSum32 vols)) := by
    unfold pctAbovePoc32
    simp only []
    rw [if_neg (not_le.mpr hS32), ← hA]
    split
    · rename_i h
      have : A = 0 := le_antisymm h hA0
      rw [this, zero_div, f64_zero, f32_zero]
    · rfl
  have hq0 : 0 ≤ A / npSum32 vols := div_nonneg hA0 hS32.le
  obtain ⟨q1, q2⟩ := f64_factor hq0
  obtain ⟨r1, r2⟩ := f32_factor (f64_nonneg hq0)
  have hb0 : (0 : ℚ) ≤ (1 + 1 / 2 ^ 24) ^ n := pow_nonneg (by norm_num) _
  rw [hval, hSd]
  refine ⟨f32_nonneg (f64_nonneg hq0), ?_, ?_⟩
  · have k1 : L.sum / vols.sum * (1 - 1 / 2 ^ 53) ^ n ≤ A / npSum32 vols * (1 + 1 / 2 ^ 24) ^ n := by
      rw [div_mul_eq_mul_div, div_mul_eq_mul_div, div_le_div_iff₀ hT hS32]
      calc L.sum * (1 - 1 / 2 ^ 53) ^ n * npSum32 vols ≤ A * (vols.sum * (1 + 1 / 2 ^ 24) ^ n) :=
            mul_le_mul b1 s2 hS32.le hA0
        _ = _ := by ring
    calc L.sum / vols.sum * ((1 - 1 / 2 ^ 53) ^ (n + 1) * (1 - 1 / 2 ^ 24))
        = (L.sum / vols.sum * (1 - 1 / 2 ^ 53) ^ n) * ((1 - 1 / 2 ^ 53) * (1 - 1 / 2 ^ 24)) := by rw [pow_succ]; ring
      _ ≤ (A / npSum32 vols * (1 + 1 / 2 ^ 24) ^ n) * ((1 - 1 / 2 ^ 53) * (1 - 1 / 2 ^ 24)) :=
          mul_le_mul_of_nonneg_right k1 (by norm_num)
      _ = ((A / npSum32 vols * (1 - 1 / 2 ^ 53)) * (1 - 1 / 2 ^ 24)) * (1 + 1 / 2 ^ 24) ^ n := by ring
      _ ≤ (f64 (A / npSum32 vols) * (1 - 1 / 2 ^ 24)) * (1 + 1 / 2 ^ 24) ^ n :=
          mul_le_mul_of_nonneg_right (mul_le_mul_of_nonneg_right q1 (by norm_num)) hb0
      _ ≤ _ := mul_le_mul_of_nonneg_right r1 hb0
  · have k1 : A / npSum32 vols * (1 - 1 / 2 ^ 24) ^ n ≤ L.sum / vols.sum * (1 + 1 / 2 ^ 53) ^ n := by
      rw [div_mul_eq_mul_div, div_mul_eq_mul_div, div_le_div_iff₀ hS32 hT]
      calc A * (1 - 1 / 2 ^ 24) ^ n * vols.sum = A * (vols.sum * (1 - 1 / 2 ^ 24) ^ n) := by ring
        _ ≤ (L.sum * (1 + 1 / 2 ^ 53) ^ n) * npSum32 vols :=
            mul_le_mul b2 s1 (mul_nonneg hT.le ha0.le) (mul_nonneg hLs (pow_nonneg (by norm_num) _))
    calc f32 (f64 (A / npSum32 vols)) * (1 - 1 / 2 ^ 24) ^ n
        ≤ (f64 (A / npSum32 vols) * (1 + 1 / 2 ^ 24)) * (1 - 1 / 2 ^ 24) ^ n := mul_le_mul_of_nonneg_right r2 ha0.le
      _ ≤ ((A / npSum32 vols * (1 + 1 / 2 ^ 53)) * (1 + 1 / 2 ^ 24)) * (1 - 1 / 2 ^ 24) ^ n :=
          mul_le_mul_of_nonneg_right (mul_le_mul_of_nonneg_right q2 (by norm_num)) ha0.le
      _ = (A / npSum32 vols * (1 - 1 / 2 ^ 24) ^ n) * ((1 + 1 / 2 ^ 53) * (1 + 1 / 2 ^ 24)) := by ring
      _ ≤ (L.sum / vols.sum * (1 + 1 / 2 ^ 53) ^ n) * ((1 + 1 / 2 ^ 53) * (1 + 1 / 2 ^ 24)) :=
          mul_le_mul_of_nonneg_right k1 (by norm_num)
      _ = _ := by rw [pow_succ]; ring

example : pctAbovePoc32 [10, 11, 12] [1, 2, 1] 11 = 1 / 4 := by decide +kernel

/-- The total of a level from the float32 volumes of the bars of the window. -/
theorem C124_level_total (buys sells : List ℚ) (hb : ∀ x ∈ buys, 0 ≤ x) (hs : ∀ x ∈ sells, 0 ≤ x) (n : Nat)
    (hbn : buys.length ≤ n) (hsn : sells.length ≤ n) :
    (buys.sum + sells.sum) * (1 - 1 / 2 ^ 24) ^ (n + 1) ≤ levelTotal32 buys sells ∧
      levelTotal32 buys sells ≤ (buys.sum + sells.sum) * (1 + 1 / 2 ^ 24) ^ (n + 1) ∧
      f32 (levelTotal32 buys sells) = levelTotal32 buys sells := by
  have key : ∀ l : List ℚ, (∀ x ∈ l, 0 ≤ x) → l.length ≤ n →
      l.sum * (1 - 1 / 2 ^ 24) ^ n ≤ npSum32 l ∧ npSum32 l ≤ l.sum * (1 + 1 / 2 ^ 24) ^ n := by
    intro l hl hn
    obtain ⟨a, b⟩ := npSum32_bounds l hl
    have h0 := List.sum_nonneg hl
    exact ⟨le_trans (mul_le_mul_of_nonneg_left (pow_le_pow_of_le_one (by norm_num) (by norm_num) hn) h0) a,
      le_trans b (mul_le_mul_of_nonneg_left (pow_le_pow_right₀ (by norm_num) hn) h0)⟩
  obtain ⟨a1, a2⟩ := key buys hb hbn
  obtain ⟨b1, b2⟩ := key sells hs hsn
  have p0 : (0 : ℚ) ≤ (1 - 1 / 2 ^ 24) ^ n := pow_nonneg (by norm_num) _
  have h0 : 0 ≤ npSum32 buys + npSum32 sells := by
    have := mul_nonneg (List.sum_nonneg hb) p0
    have := mul_nonneg (List.sum_nonneg hs) p0
    linarith
  obtain ⟨r1, r2⟩ := f32_factor h0
  unfold levelTotal32
  refine ⟨?_, ?_, f32_idem _⟩
  · calc _ = (buys.sum * (1 - 1 / 2 ^ 24) ^ n + sells.sum * (1 - 1 / 2 ^ 24) ^ n) * (1 - 1 / 2 ^ 24) := by rw [pow_succ]; ring
      _ ≤ (npSum32 buys + npSum32 sells) * (1 - 1 / 2 ^ 24) := mul_le_mul_of_nonneg_right (by linarith) (by norm_num)
      _ ≤ _ := r1
  · calc _ ≤ (npSum32 buys + npSum32 sells) * (1 + 1 / 2 ^ 24) := r2
      _ ≤ (buys.sum * (1 + 1 / 2 ^ 24) ^ n + sells.sum * (1 + 1 / 2 ^ 24) ^ n) * (1 + 1 / 2 ^ 24) :=
          mul_le_mul_of_nonneg_right (by linarith) (by norm_num)
      _ = _ := by rw [pow_succ]; ring

example : levelTotal32 [1, 2] [1 / 2] = 7 / 2 := by decide +kernel

/-- **C124.** A profile without volume has share 0 above the point of control. -/
theorem C124_share_empty (levels : List Int) (vols : List ℚ) (poc : Int) (hpos : ∀ x ∈ vols, 0 ≤ x) (hT : vols.sum = 0) :
    pctAbovePoc32 levels vols poc = 0 := by
  have h := (npSum32_bounds vols hpos).2
  rw [hT, zero_mul] at h
  unfold pctAbovePoc32
  rw [if_pos h]

example : (∀ x ∈ [(0 : ℚ), 0], 0 ≤ x) ∧ [(0 : ℚ), 0].sum = 0 ∧ pctAbovePoc32 [10, 11] [0, 0] 10 = 0 := by decide +kernel

/-- **C124.** With at most 4095 levels the stored share above the point of control is at most 1. -/
theorem C124_share_le_one (levels : List Int) (vols : List ℚ) (pct : ℚ) (hne : vols ≠ [])
    (hlen : levels.length = vols.length) (hpos : ∀ x ∈ vols, 0 ≤ x) (hn : vols.length ≤ 4095) :
    pctAbovePoc32 levels vols (compPocHvaLva32 levels vols pct).1 ≤ 1 := by
  obtain ⟨p, p1, p2, p3, _⟩ := C124_poc levels vols pct hne hlen
  generalize (compPocHvaLva32 levels vols pct).1 = poc at *
  obtain ⟨l1, p2⟩ := List.getElem?_eq_some_iff.mp p2
  obtain ⟨s1, _⟩ := npSum32_bounds vols hpos
  have hvp : 0 ≤ vols.getD p 0 := by rw [List.getD_eq_getElem _ _ p1]; exact hpos _ (List.getElem_mem _)
  have hsumle : vols.sum ≤ vols.length * vols.getD p 0 := by
    have : ∀ l : List ℚ, (∀ x ∈ l, x ≤ vols.getD p 0) → l.sum ≤ l.length * vols.getD p 0 := by
      intro l
      induction l with
      | nil => simp
      | cons x l ih =>
        intro h
        have := ih (fun y hy => h y (by simp [hy]))
        have := h x (by simp)
        rw [List.sum_cons, List.length_cons]
        push_cast
        linarith
    apply this
    intro x hx
    obtain ⟨i, hi, rfl⟩ := List.getElem_of_mem hx
    have := p3 i hi
    rwa [List.getD_eq_getElem _ _ hi] at this
  obtain ⟨L, hL⟩ : ∃ L, L = ((levels.zip vols).filter (fun x => decide (poc < x.1))).map Prod.snd := ⟨_, rfl⟩
  have hLpos : ∀ x ∈ L, 0 ≤ x := by
    intro x hx
    rw [hL] at hx
    obtain ⟨y, hy, rfl⟩ := List.mem_map.mp hx
    exact hpos _ (List.of_mem_zip (List.mem_filter.mp hy).1).2
  have hLlen : L.length ≤ vols.length := by
    rw [hL, List.length_map]
    refine le_trans (List.length_filter_le _ _) ?_
    rw [List.length_zip]; omega
  have hLs : 0 ≤ L.sum := List.sum_nonneg hLpos
  have hLsum : L.sum + vols.getD p 0 ≤ vols.sum := by
    have hz : vols.sum = ((levels.zip vols).map Prod.snd).sum := by rw [List.map_snd_zip (by omega)]
    have hmem : (poc, vols.getD p 0) ∈ levels.zip vols := by
      rw [List.mem_iff_getElem]
      refine ⟨p, by rw [List.length_zip]; omega, ?_⟩
      rw [List.getElem_zip, p2, List.getD_eq_getElem _ _ p1]
    have hzpos : ∀ x ∈ levels.zip vols, 0 ≤ x.2 := fun x hx => hpos _ (List.of_mem_zip hx).2
    rw [hz, hL]
    revert hmem hzpos
    generalize levels.zip vols = z
    intro hmem hzpos
    have hsub : ∀ z : List (Int × ℚ), (∀ x ∈ z, 0 ≤ x.2) →
        ((z.filter (fun x => decide (poc < x.1))).map Prod.snd).sum ≤ (z.map Prod.snd).sum := by
      intro z hz
      refine List.Sublist.sum_le_sum (List.Sublist.map _ List.filter_sublist) ?_
      intro x hx
      obtain ⟨y, hy, rfl⟩ := List.mem_map.mp hx
      exact hz y hy
    induction z with
    | nil => simp at hmem
    | cons x z ih =>
      rcases List.mem_cons.mp hmem with e | e
      · have hx : x.1 = poc := by rw [← e]
        have hx2 : x.2 = vols.getD p 0 := by rw [← e]
        rw [List.filter_cons_of_neg (by simp [hx]), List.map_cons, List.sum_cons, hx2]
        have := hsub z (fun y hy => hzpos y (by simp [hy]))
        linarith
      · have := ih e (fun y hy => hzpos y (by simp [hy]))
        have hx0 := hzpos x (by simp)
        by_cases h : poc < x.1
        · rw [List.filter_cons_of_pos (by simpa using h), List.map_cons, List.sum_cons, List.map_cons, List.sum_cons]
          linarith
        · rw [List.filter_cons_of_neg (by simpa using h), List.map_cons, List.sum_cons]
          linarith
  unfold pctAbovePoc32
  simp only []
  rw [above_fold, ← hL]
  split
  · norm_num
  · rename_i hS
    have hS32 : 0 < npSum32 vols := not_le.mp hS
    split
    · norm_num
    · have hA : L.foldl (fun s v => f64 (s + v)) 0 ≤ npSum32 vols := by
        have := (fold64_bounds (fun v : ℚ => v) (fun v => v) (1 / 2 ^ 53) 1 1 rfl (by norm_num) (by norm_num) L 0 0 0
          (fun t ht => ⟨hLpos t ht, by linarith, by linarith⟩) le_rfl (by norm_num) (by norm_num)).2
        rw [zero_add, zero_add, List.map_id', one_mul] at this
        refine le_trans this (le_trans ?_ s1)
        obtain ⟨n, hnd⟩ : ∃ n, n = vols.length := ⟨_, rfl⟩
        rw [← hnd] at hn hLlen hsumle p1 ⊢
        have hn1 : 1 ≤ n := by omega
        have e1 : L.sum * (1 + 1 / 2 ^ 53) ^ L.length ≤ L.sum * (1 + 1 / 2 ^ 53) ^ n :=
          mul_le_mul_of_nonneg_left (pow_le_pow_right₀ (by norm_num) hLlen) hLs
        refine le_trans e1 ?_
        have hT0 : 0 ≤ vols.sum := List.sum_nonneg hpos
        have hnq : (n : ℚ) ≤ 4095 := by exact_mod_cast hn
        have hn1q : (1 : ℚ) ≤ n := by exact_mod_cast hn1
        -- multiply by (1 - u)^n
        have hpos' : (0 : ℚ) < (1 - 1 / 2 ^ 53) ^ n := pow_pos (by norm_num) _
        have e2 : (1 + 1 / 2 ^ 53 : ℚ) ^ n * (1 - 1 / 2 ^ 53) ^ n ≤ 1 := by
          rw [← mul_pow]; exact pow_le_one₀ (by norm_num) (by norm_num)
        have q1 := one_sub_pow_ge (1 / 2 ^ 24) (by norm_num) n
        have q2 := one_sub_pow_ge (1 / 2 ^ 53) (by norm_num) n
        have q3 := one_sub_mul_ge (a := (n : ℚ) * (1 / 2 ^ 24)) (b := (n : ℚ) * (1 / 2 ^ 53))
          (by positivity) (pow_nonneg (by norm_num) _) q1 (pow_le_one₀ (by norm_num) (by norm_num)) q2
        have q4 : (n : ℚ) * ((n : ℚ) * (1 / 2 ^ 24) + n * (1 / 2 ^ 53)) ≤ 1 := by
          have : (n : ℚ) * n ≤ 4095 * 4095 := mul_le_mul hnq hnq (by linarith) (by norm_num)
          have e : (n : ℚ) * ((n : ℚ) * (1 / 2 ^ 24) + n * (1 / 2 ^ 53)) = (n * n) * (1 / 2 ^ 24 + 1 / 2 ^ 53) := by ring
          rw [e]
          refine le_trans (mul_le_mul_of_nonneg_right this (by norm_num)) (by norm_num)
        have q5 : L.sum ≤ vols.sum * (1 - (n * (1 / 2 ^ 24) + n * (1 / 2 ^ 53))) := by
          have : vols.sum * (n * (1 / 2 ^ 24) + n * (1 / 2 ^ 53)) ≤ vols.getD p 0 := by
            calc _ ≤ n * vols.getD p 0 * (n * (1 / 2 ^ 24) + n * (1 / 2 ^ 53)) :=
                  mul_le_mul_of_nonneg_right hsumle (by positivity)
              _ = vols.getD p 0 * (n * (n * (1 / 2 ^ 24) + n * (1 / 2 ^ 53))) := by ring
              _ ≤ _ := mul_le_of_le_one_right hvp q4
          rw [mul_sub, mul_one]
          linarith
        have q6 : L.sum ≤ vols.sum * ((1 - 1 / 2 ^ 24) ^ n * (1 - 1 / 2 ^ 53) ^ n) :=
          le_trans q5 (mul_le_mul_of_nonneg_left (by linarith) hT0)
        calc L.sum * (1 + 1 / 2 ^ 53) ^ n
            ≤ vols.sum * ((1 - 1 / 2 ^ 24) ^ n * (1 - 1 / 2 ^ 53) ^ n) * (1 + 1 / 2 ^ 53) ^ n :=
              mul_le_mul_of_nonneg_right q6 (pow_nonneg (by norm_num) _)
          _ = vols.sum * (1 - 1 / 2 ^ 24) ^ n * ((1 + 1 / 2 ^ 53) ^ n * (1 - 1 / 2 ^ 53) ^ n) := by ring
          _ ≤ _ := mul_le_of_le_one_right (mul_nonneg hT0 (pow_nonneg (by norm_num) _)) e2
      have hq : L.foldl (fun s v => f64 (s + v)) 0 / npSum32 vols ≤ 1 := (div_le_one hS32).mpr hA
      have e64 : f64 1 = 1 := by simpa using f64_int 1 (by norm_num)
      have e32 : f32 1 = 1 := by decide +kernel
      calc _ ≤ f32 (f64 1) := f32_mono (f64_mono hq)
        _ = 1 := by rw [e64, e32]

example : pctAbovePoc32 [10, 11, 12] [2, 1, 1] (compPocHvaLva32 [10, 11, 12] [2, 1, 1] 70).1 = 1 / 2 := by decide +kernel

/-! ### Where the documented statement fails -/

/-- The float32 total can lose whole levels: asked for all of the volume, the value area is the point of control alone while
two other levels have volume. -/
theorem C124_total_stalls :
    compPocHvaLva32 [10, 11, 12] [16777216, 1, 1] 100 = (10, 10, 10) ∧
      compPocHvaLva [10, 11, 12] ([16777216, 1, 1] : List ℚ) 100 = (10, 12, 10) := by
  decide +kernel

/-- The branch that prints "BUG! Stuck in loop" is reached on valid input: the float32 total is rounded up, the float64
running volume of the whole profile stays below it. -/
theorem C124_bug_branch :
    let vols : List ℚ := [16777216, 3]
    let s := vaLoop32 [10, 11] vols (vaThr32 vols 100) 4 (vaInit32 [10, 11] vols)
    s.cum < vaThr32 vols 100 ∧ vaStep32 [10, 11] vols s = none := by
  decide +kernel

/-- In exact arithmetic the branch is never reached. -/
theorem C124_bug_branch_exact (levels : List Int) (vols : List ℚ) (pct : ℚ) (hne : vols ≠ [])
    (hlen : levels.length = vols.length) (hpos : ∀ x ∈ vols, 0 ≤ x) (hp : pct ≤ 100) :
    vols.sum * (pct / 100) ≤ (vaLoop levels vols (vols.sum * (pct / 100)) (vols.length + 2) (vaInit levels vols)).cum := by
  have hsum : 0 ≤ vols.sum := List.sum_nonneg hpos
  have hthr : vols.sum * (pct / 100) ≤ vols.sum := mul_le_of_le_one_right hsum (by linarith)
  obtain ⟨m, _, i2, i3⟩ := vaLoop_spec levels vols _ hlen hpos hthr (vols.length + 2) _ _ _ (vaInit_inv levels vols hne)
    (vaInit_measure levels vols hne)
  rw [i3.cum]; exact i2

example : ([2, 1, 1] : List ℚ) ≠ [] ∧ (∀ x ∈ ([2, 1, 1] : List ℚ), 0 ≤ x) ∧ (70 : ℚ) ≤ 100 := by decide +kernel

/-- Volume of the upper levels of the profile below: `1 - 2^-11 - 2^-24`. -/
def slightlyLess : ℚ := 1 - 1 / 2 ^ 11 - 1 / 2 ^ 24

/-- `a` levels of volume 1, then `b` levels of slightly less. -/
def longProfile (a b : Nat) : List ℚ := List.replicate a 1 ++ List.replicate b slightlyLess

theorem sum32_ones (k : Nat) (h : k ≤ 2 ^ 24) : (List.replicate k (1 : ℚ)).foldl (fun a x => f32 (a + x)) 0 = k := by
  have := grid_npSum32 0 (List.replicate k 1) (by simpa using h)
  rw [List.map_replicate, List.sum_replicate] at this
  simpa [npSum32] using this

theorem sum32_lossy (j : Nat) (h : j ≤ 2060) :
    (List.replicate j slightlyLess).foldl (fun a x => f32 (a + x)) 8192 = 8192 + j * (1 - 1 / 2 ^ 10) := by
  induction j with
  | zero => simp
  | succ j ih =>
    rw [List.replicate_succ', List.foldl_append, ih (by omega), List.foldl_cons, List.foldl_nil]
    have hj : (j : ℚ) ≤ 2059 := by exact_mod_cast (show j ≤ 2059 by omega)
    have hj0 : (0 : ℚ) ≤ j := by positivity
    unfold f32 slightlyLess
    have b1 : (2 : ℚ) ^ (13 : Int) ≤ 8192 + j * (1 - 1 / 2 ^ 10) + (1 - 1 / 2 ^ 11 - 1 / 2 ^ 24) := by
      norm_num; linarith
    have b2 : 8192 + (j : ℚ) * (1 - 1 / 2 ^ 10) + (1 - 1 / 2 ^ 11 - 1 / 2 ^ 24) < (2 : ℚ) ^ ((13 : Int) + 1) := by
      norm_num; linarith
    rw [rndBits_binade 24 _ 13 b1 b2]
    unfold rndAt
    have hz : ((8192 : ℚ) + j * (1 - 1 / 2 ^ 10) + (1 - 1 / 2 ^ 11 - 1 / 2 ^ 24)) / 2 ^ ((13 : Int) - ((24 : Nat) - 1))
        = ((8388608 + (j + 1) * 1023 : Int) : ℚ) + (1 / 2 - 1 / 2 ^ 14) := by
      push_cast; norm_num; ring
    have hr : rint (((8388608 + (j + 1) * 1023 : Int) : ℚ) + (1 / 2 - 1 / 2 ^ 14)) = 8388608 + (j + 1) * 1023 := by
      obtain ⟨r1, r2⟩ := rint_bounds (((8388608 + (j + 1) * 1023 : Int) : ℚ) + (1 / 2 - 1 / 2 ^ 14))
      generalize (8388608 + ((j : Int) + 1) * 1023) = z at *
      generalize rint ((z : ℚ) + (1 / 2 - 1 / 2 ^ 14)) = y at *
      have h1 : ((z - 1 : Int) : ℚ) < y := by push_cast; linarith
      have h2 : (y : ℚ) < ((z + 1 : Int) : ℚ) := by push_cast; linarith
      have := Int.cast_lt.mp h1
      have := Int.cast_lt.mp h2
      omega
    rw [hz, hr]
    push_cast
    norm_num
    ring

theorem long_total (a b : Nat) (ha : a = 8192) (hb : b ≤ 2060) :
    npSum32 (longProfile a b) = 8192 + b * (1 - 1 / 2 ^ 10) := by
  unfold npSum32 longProfile
  rw [List.foldl_append, sum32_ones a (by omega), ha]
  exact_mod_cast sum32_lossy b hb

theorem sum64_grid24 (ms : List Nat) (a : Nat) (ha : a + ms.sum ≤ 2 ^ 53) :
    (ms.map (fun m : Nat => ((m : Int) : ℚ) * 2 ^ (-24 : Int))).foldl (fun s v => f64 (s + v)) (((a : Int) : ℚ) * 2 ^ (-24 : Int))
      = (((a + ms.sum : Nat) : Int) : ℚ) * 2 ^ (-24 : Int) := by
  induction ms generalizing a with
  | nil => simp
  | cons x l ih =>
    rw [List.sum_cons] at ha
    have e : f64 ((((a + x : Nat) : Int) : ℚ) * 2 ^ (-24 : Int)) = (((a + x : Nat) : Int) : ℚ) * 2 ^ (-24 : Int) := by
      refine rndBits_exact 53 (by norm_num) _ _ ?_
      rw [abs_of_nonneg (by positivity)]
      exact_mod_cast (show a + x ≤ 2 ^ 53 by omega)
    rw [List.map_cons, List.foldl_cons, ← add_mul, ← Int.cast_add, ← Nat.cast_add, e, ih (a + x) (by omega), List.sum_cons,
      add_assoc]

theorem long_above (a b : Nat) (h : a + b ≤ 2 ^ 20) :
    (longProfile a b).foldl (fun s v => f64 (s + v)) 0 = a + b * slightlyLess := by
  have := sum64_grid24 (List.replicate a 16777216 ++ List.replicate b 16769023) 0
    (by rw [List.sum_append, List.sum_replicate, List.sum_replicate, nsmul_eq_mul, nsmul_eq_mul, Nat.cast_id, Nat.cast_id]; omega)
  rw [List.sum_append, List.sum_replicate, List.sum_replicate, nsmul_eq_mul, nsmul_eq_mul, List.map_append, List.map_replicate,
    List.map_replicate] at this
  have e1 : (((16777216 : Nat) : Int) : ℚ) * 2 ^ (-24 : Int) = 1 := by norm_num
  have e2 : (((16769023 : Nat) : Int) : ℚ) * 2 ^ (-24 : Int) = slightlyLess := by unfold slightlyLess; norm_num
  rw [e1, e2] at this
  unfold longProfile
  simp only [Nat.cast_zero, Int.cast_zero, zero_mul, zero_add] at this
  rw [this]
  unfold slightlyLess
  push_cast
  norm_num
  ring

theorem long_argMax (a b : Nat) : argMax (longProfile (a + 1) b) = 0 := by
  have hhead : longProfile (a + 1) b = 1 :: longProfile a b := by
    unfold longProfile; rw [List.replicate_succ]; rfl
  obtain ⟨a1, _, a3⟩ := argMax_spec (longProfile (a + 1) b) (by rw [hhead]; simp)
  by_contra hc
  have h1 := a3 0 (by omega)
  have h0 : (longProfile (a + 1) b).getD 0 0 = 1 := by rw [hhead]; rfl
  rw [h0, List.getD_eq_getElem _ _ a1] at h1
  rcases List.mem_append.mp (show (longProfile (a + 1) b)[argMax (longProfile (a + 1) b)] ∈
    List.replicate (a + 1) 1 ++ List.replicate b slightlyLess from List.getElem_mem a1) with h | h
  · rw [List.eq_of_mem_replicate h] at h1; linarith
  · rw [List.eq_of_mem_replicate h] at h1
    unfold slightlyLess at h1
    norm_num at h1

/-- the levels `0, 1, …, n - 1` -/
def upTo (n : Nat) : List Int := (List.range n).map (fun i : Nat => (i : Int))

theorem long_filter (vols : List ℚ) (x : ℚ) :
    (((upTo (vols.length + 1)).zip (x :: vols)).filter (fun x => decide ((0 : Int) < x.1))).map Prod.snd = vols := by
  unfold upTo
  rw [List.range_succ_eq_map, List.map_cons, List.zip_cons_cons, List.filter_cons_of_neg (by simp),
    List.filter_eq_self.mpr, List.map_snd_zip]
  · simp
  · intro x hx
    have := (List.of_mem_zip hx).1
    simp only [List.mem_map, List.mem_range] at this
    obtain ⟨y, ⟨z, _, rfl⟩, h⟩ := this
    rw [← h]
    simp only [decide_eq_true_eq]
    omega

theorem long_share (a b : Nat) (ha : a + 1 = 8192) (hb : b ≤ 2060) :
    pctAbovePoc32 (upTo ((longProfile a b).length + 1)) (longProfile (a + 1) b)
        (compPocHvaLva32 (upTo ((longProfile a b).length + 1)) (longProfile (a + 1) b) 70).1
      = if (a : ℚ) + b * slightlyLess ≤ 0 then 0 else
          f32 (f64 ((a + b * slightlyLess) / (8192 + b * (1 - 1 / 2 ^ 10)))) := by
  have hhead : longProfile (a + 1) b = 1 :: longProfile a b := by
    unfold longProfile; rw [List.replicate_succ]; rfl
  have hpoc : (compPocHvaLva32 (upTo ((longProfile a b).length + 1)) (longProfile (a + 1) b) 70).1 = 0 := by
    show (upTo ((longProfile a b).length + 1)).getD (argMax (longProfile (a + 1) b)) 0 = 0
    rw [long_argMax]
    unfold upTo
    rw [List.range_succ_eq_map]; rfl
  have ht : (0 : ℚ) < 8192 + b * (1 - 1 / 2 ^ 10) := by
    have : (0 : ℚ) ≤ b * (1 - 1 / 2 ^ 10) := mul_nonneg (by positivity) (by norm_num)
    linarith
  rw [hpoc]
  unfold pctAbovePoc32
  simp only []
  rw [above_fold, long_total (a + 1) b ha hb, if_neg (not_le.mpr ht)]
  rw [show (upTo ((longProfile a b).length + 1)).zip (longProfile (a + 1) b)
    = (upTo ((longProfile a b).length + 1)).zip (1 :: longProfile a b) by rw [hhead], long_filter, long_above a b (by omega)]

/-- With many levels the share above the point of control can exceed 1: the total is accumulated in float32, the volume above
in float64. -/
theorem C124_share_above_one : ∃ (levels : List Int) (vols : List ℚ), levels.length = vols.length ∧
    levels.Pairwise (· < ·) ∧ (∀ x ∈ vols, 0 < x) ∧ AllF32 vols ∧
    1 < pctAbovePoc32 levels vols (compPocHvaLva32 levels vols 70).1 := by
  obtain ⟨a, ha⟩ : ∃ a : Nat, a = 8191 := ⟨_, rfl⟩
  obtain ⟨b, hb⟩ : ∃ b : Nat, b = 2060 := ⟨_, rfl⟩
  refine ⟨upTo ((longProfile a b).length + 1), longProfile (a + 1) b, ?_, ?_, ?_, ?_, ?_⟩
  · simp [upTo, longProfile]; omega
  · unfold upTo
    rw [List.pairwise_map]
    exact List.pairwise_lt_range.imp (fun h => by exact_mod_cast h)
  · intro x hx
    rcases List.mem_append.mp hx with h | h
    · rw [List.eq_of_mem_replicate h]; norm_num
    · rw [List.eq_of_mem_replicate h]; unfold slightlyLess; norm_num
  · intro x hx
    rcases List.mem_append.mp hx with h | h
    · rw [List.eq_of_mem_replicate h]; decide +kernel
    · rw [List.eq_of_mem_replicate h]; decide +kernel
  · rw [long_share a b (by omega) (by omega)]
    have hq : ((a : ℚ) + b * slightlyLess) / (8192 + b * (1 - 1 / 2 ^ 10)) = (8191 + 2060 * slightlyLess) / (8192 + 2060 * (1 - 1 / 2 ^ 10)) := by
      rw [ha, hb]; norm_num
    have hp : ¬ ((a : ℚ) + b * slightlyLess ≤ 0) := by
      rw [ha, hb]; unfold slightlyLess; norm_num
    rw [if_neg hp, hq]
    decide +kernel

end FinML
