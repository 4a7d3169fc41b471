/-
C140: the time-decayed deviation in float64 arithmetic (`finmlkit/feature/core/volatility.py:139-219`).
-/
import Verif.Props.Ewm64
import Verif.Props.Mean064

set_option linter.unusedSectionVars false

namespace FinML

/-! ### One step -/

/-- A decayed sum: entry and decayed past each within `c + 3u` of the exact ones. -/
theorem ewmst_acc {t r a x k S B W c : ℚ} (ha : 0 ≤ a) (hk : 0 ≤ k) (hB : 0 ≤ B) (hW : 0 ≤ W) (hc0 : 0 ≤ c) (hc : c ≤ 1 / 100)
    (hx : |x| ≤ B) (hS : |S| ≤ B * W) (ht : |t - a * x| ≤ 3 / 2 ^ 53 * (a * B)) (hr : |r - k * S| ≤ (c + 3 / 2 ^ 53) * (k * (B * W))) :
    |f64 (t + r) - (a * x + k * S)| ≤ (c + 5 / 2 ^ 53) * (B * (a + k * W)) := by
  have hP : 0 ≤ B * (a + k * W) := by positivity
  have h1 : |t + r - (a * x + k * S)| ≤ (c + 3 / 2 ^ 53) * (B * (a + k * W)) := by
    have e : t + r - (a * x + k * S) = (t - a * x) + (r - k * S) := by ring
    rw [e]
    refine (abs_add_le _ _).trans ((add_le_add ht hr).trans ?_)
    have : 0 ≤ c * (a * B) := by positivity
    nlinarith
  have h2 : |a * x + k * S| ≤ B * (a + k * W) := by
    refine (abs_add_le _ _).trans ?_
    rw [abs_mul, abs_mul, abs_of_nonneg ha, abs_of_nonneg hk]
    have := mul_le_mul_of_nonneg_left hx ha
    have := mul_le_mul_of_nonneg_left hS hk
    linarith
  refine (f64_step h1 h2).trans ?_
  generalize B * (a + k * W) = P at *
  have : c * P ≤ 1 / 100 * P := mul_le_mul_of_nonneg_right hc hP
  have h3 : (P + (c + 3 / 2 ^ 53) * P) / 2 ^ 53 ≤ 2 / 2 ^ 53 * P := by
    rw [div_le_iff₀ (by positivity)]
    have e : 2 / 2 ^ 53 * P * 2 ^ 53 = 2 * P := by ring
    rw [e]
    have : (3 : ℚ) / 2 ^ 53 * P ≤ 1 / 100 * P := mul_le_mul_of_nonneg_right (by norm_num) hP
    linarith
  linarith

/-- The decayed past. -/
theorem ewmst_past {F S k B W c : ℚ} (hk : 0 ≤ k) (hB : 0 ≤ B) (hW : 0 ≤ W) (hc0 : 0 ≤ c) (hc : c ≤ 1 / 100)
    (hS : |S| ≤ B * W) (hF : |F - S| ≤ c * (B * W)) : |f64 (k * F) - k * S| ≤ (c + 3 / 2 ^ 53) * (k * (B * W)) := by
  have hP : 0 ≤ k * (B * W) := by positivity
  have h1 : |k * F - k * S| ≤ c * (k * (B * W)) := by
    rw [← mul_sub, abs_mul, abs_of_nonneg hk]
    have := mul_le_mul_of_nonneg_left hF hk
    linarith
  have h2 : |k * S| ≤ k * (B * W) := by
    rw [abs_mul, abs_of_nonneg hk]
    exact mul_le_mul_of_nonneg_left hS hk
  refine (f64_step h1 h2).trans ?_
  generalize k * (B * W) = P at *
  have : c * P ≤ 1 / 100 * P := mul_le_mul_of_nonneg_right hc hP
  have h3 : (P + c * P) / 2 ^ 53 ≤ 3 / 2 ^ 53 * P := by
    rw [div_le_iff₀ (by positivity)]
    have e : 3 / 2 ^ 53 * P * 2 ^ 53 = 3 * P := by ring
    rw [e]
    linarith
  linarith

/-- The decayed past for a rounded factor. -/
theorem ewmst_past' {F S k κ B W c : ℚ} (hk : 0 ≤ k) (hκ : |κ - k| ≤ k / 2 ^ 53) (hB : 0 ≤ B) (hW : 0 ≤ W) (hc0 : 0 ≤ c) (hc : c ≤ 1 / 100)
    (hS : |S| ≤ B * W) (hF : |F - S| ≤ c * (B * W)) : |f64 (κ * F) - k * S| ≤ (c + 3 / 2 ^ 53) * (k * (B * W)) := by
  have hP : 0 ≤ k * (B * W) := by positivity
  have hκ1 : |κ| ≤ k * (1 + 1 / 2 ^ 53) := by
    have e : κ = (κ - k) + k := by ring
    rw [e]
    refine (abs_add_le _ _).trans ?_
    rw [abs_of_nonneg hk]
    linarith
  have h1 : |κ * F - k * S| ≤ (c + (c + 1) / 2 ^ 53) * (k * (B * W)) := by
    have e : κ * F - k * S = κ * (F - S) + (κ - k) * S := by ring
    rw [e]
    refine (abs_add_le _ _).trans ?_
    rw [abs_mul, abs_mul]
    have a1 := mul_le_mul hκ1 hF (abs_nonneg _) (by positivity)
    have a2 := mul_le_mul hκ hS (abs_nonneg _) (by positivity)
    linarith
  have h2 : |k * S| ≤ k * (B * W) := by
    rw [abs_mul, abs_of_nonneg hk]
    exact mul_le_mul_of_nonneg_left hS hk
  refine (f64_step h1 h2).trans ?_
  generalize k * (B * W) = P at *
  have h4 : c * P ≤ 1 / 100 * P := mul_le_mul_of_nonneg_right hc hP
  have h5 : 0 ≤ c * P := by positivity
  have e1 : (c + (c + 1) / 2 ^ 53) * P = c * P + (c * P + P) / 2 ^ 53 := by ring
  rw [e1]
  have e2 : (c + 3 / 2 ^ 53) * P = c * P + 3 * P / 2 ^ 53 := by ring
  rw [e2]
  have h6 : (c * P + P) / 2 ^ 53 ≤ 1 / 100 * P := by
    rw [div_le_iff₀ (by positivity)]
    have : 1 / 100 * P * 2 ^ 53 = 2 ^ 53 / 100 * P := by ring
    rw [this]
    have : (2 : ℚ) * P ≤ 2 ^ 53 / 100 * P := mul_le_mul_of_nonneg_right (by norm_num) hP
    linarith
  have h7 : (c * P + P) / 2 ^ 53 + (P + (c * P + (c * P + P) / 2 ^ 53)) / 2 ^ 53 ≤ 3 * P / 2 ^ 53 := by
    rw [← add_div]
    apply div_le_div_of_nonneg_right _ (by positivity)
    linarith
  linarith

/-! ### The sums -/

/-- The exact sums: the weights lie between 0 and 1 and bound the other sums. -/
theorem ewmstState_bounds (decay : Int → ℚ) (hd : ∀ d, 0 ≤ decay d ∧ decay d ≤ 1) (ts : List Int) (y : List (Option ℚ)) (M : ℚ)
    (hM : ∀ v, some v ∈ y → |v| ≤ M) (hM0 : 0 ≤ M) (i : Nat) :
    0 ≤ (ewmstState decay ts y i).sw ∧ (ewmstState decay ts y i).sw ≤ 1 ∧
    0 ≤ (ewmstState decay ts y i).sw2 ∧ (ewmstState decay ts y i).sw2 ≤ (ewmstState decay ts y i).sw ^ 2 ∧
    |(ewmstState decay ts y i).sy| ≤ M * (ewmstState decay ts y i).sw ∧
    |(ewmstState decay ts y i).sy2| ≤ M ^ 2 * (ewmstState decay ts y i).sw := by
  induction i with
  | zero => simp [ewmstState]
  | succ i ih =>
    obtain ⟨i1, i2, i3, i4, i5, i6⟩ := ih
    obtain ⟨q0, q1⟩ := hd (ts.getD (i + 1) 0 - ts.getD (i + 1 - 1) 0)
    change 0 ≤ decayAt decay ts (i + 1) at q0
    change decayAt decay ts (i + 1) ≤ 1 at q1
    have hv : |orZero (y.getD (i + 1) none)| ≤ M ∧ |sqOrZero (y.getD (i + 1) none)| ≤ M ^ 2 := by
      cases hy : y.getD (i + 1) none with
      | none => simp only [orZero, sqOrZero, abs_zero]; exact ⟨hM0, by positivity⟩
      | some v =>
        have h := hM v (by
          rw [List.getD_eq_getElem?_getD] at hy
          cases he : y[i + 1]? with
          | none => rw [he] at hy; cases hy
          | some z => rw [he] at hy; simp only [Option.getD_some] at hy; rw [← hy]; exact List.mem_of_getElem? he)
        refine ⟨h, ?_⟩
        have h2 := mul_le_mul h h (abs_nonneg _) hM0
        rw [← abs_mul] at h2
        simp only [sqOrZero]
        first
          | (rw [sq M]; exact h2)
          | (rw [sq M, sq]; exact h2)
    rw [ewmstState]
    simp only
    generalize orZero (y.getD (i + 1) none) = x at *
    generalize sqOrZero (y.getD (i + 1) none) = z at *
    generalize decayAt decay ts (i + 1) = q at *
    generalize ewmstState decay ts y i = s at *
    have p0 : 0 ≤ 1 - q := by linarith
    have w1 := mul_le_mul_of_nonneg_left i2 q0
    refine ⟨add_nonneg p0 (mul_nonneg q0 i1), by linarith, by positivity, ?_, ?_, ?_⟩
    · have := mul_le_mul_of_nonneg_left i4 (mul_nonneg q0 q0)
      have : 0 ≤ (1 - q) * (q * s.sw) := by positivity
      nlinarith
    · refine (abs_add_le _ _).trans ?_
      rw [abs_mul, abs_mul, abs_of_nonneg p0, abs_of_nonneg q0]
      have := mul_le_mul_of_nonneg_left hv.1 p0
      have := mul_le_mul_of_nonneg_left i5 q0
      linarith
    · refine (abs_add_le _ _).trans ?_
      rw [abs_mul, abs_mul, abs_of_nonneg p0, abs_of_nonneg q0]
      have := mul_le_mul_of_nonneg_left hv.2 p0
      have := mul_le_mul_of_nonneg_left i6 q0
      linarith

/-- The observation at a position and its square are bounded. -/
theorem getD_obs_bounds (y : List (Option ℚ)) (M : ℚ) (hM : ∀ v, some v ∈ y → |v| ≤ M) (hM0 : 0 ≤ M) (j : Nat) :
    |orZero (y.getD j none)| ≤ M ∧ |sqOrZero (y.getD j none)| ≤ M ^ 2 := by
  cases hy : y.getD j none with
  | none => simp only [orZero, sqOrZero, abs_zero]; exact ⟨hM0, by positivity⟩
  | some v =>
    have h := hM v (by
      rw [List.getD_eq_getElem?_getD] at hy
      cases he : y[j]? with
      | none => rw [he] at hy; cases hy
      | some z => rw [he] at hy; simp only [Option.getD_some] at hy; rw [← hy]; exact List.mem_of_getElem? he)
    refine ⟨h, ?_⟩
    simp only [sqOrZero]
    rw [abs_pow]
    exact pow_le_pow_left₀ (abs_nonneg _) h 2

/-- **C140.** The four sums after `i` steps are within `5 i 2^-53`, relative to the weights, of the exact sums for the weights that are
used. -/
theorem C140_sums (decay : Int → ℚ) (hd : UnitDecay decay) (ts : List Int) (y : List (Option ℚ)) (M : ℚ)
    (hM : ∀ v, some v ∈ y → |v| ≤ M) (hM0 : 0 ≤ M) (i : Nat) (hi : i ≤ 2 ^ 40) :
    let E := ewmstState (fun d => mean0Keep64 (decay d)) ts y i
    let F := ewmstState64 decay ts y i
    |F.sw - E.sw| ≤ 5 * i / 2 ^ 53 * E.sw ∧ |F.sw2 - E.sw2| ≤ 5 * i / 2 ^ 53 * E.sw2 ∧
    |F.sy - E.sy| ≤ 5 * i / 2 ^ 53 * (M * E.sw) ∧ |F.sy2 - E.sy2| ≤ 5 * i / 2 ^ 53 * (M ^ 2 * E.sw) := by
  have hp : ∀ d, 0 ≤ mean0Keep64 (decay d) ∧ mean0Keep64 (decay d) ≤ 1 := fun d => by
    obtain ⟨e1, e2, e3⟩ := hd d
    exact ⟨(C138_weights _ e1 e2 e3).2.1, (C138_weights _ e1 e2 e3).2.2.1⟩
  induction i with
  | zero => simp [ewmstState, ewmstState64]
  | succ i ih =>
    obtain ⟨i1, i2, i3, i4⟩ := ih (by omega)
    obtain ⟨d1, d2, d3⟩ := hd (ts.getD (i + 1) 0 - ts.getD (i + 1 - 1) 0)
    obtain ⟨w1, w2, w3, -, -⟩ := C138_weights _ d1 d2 d3
    obtain ⟨b1, b2, b3, b4, b5, b6⟩ := ewmstState_bounds (fun d => mean0Keep64 (decay d)) hp ts y M hM hM0 i
    obtain ⟨o1, o2⟩ := getD_obs_bounds y M hM hM0 (i + 1)
    have hc0 : (0 : ℚ) ≤ 5 * i / 2 ^ 53 := by positivity
    have hc : (5 : ℚ) * i / 2 ^ 53 ≤ 1 / 100 := by
      have : (i : ℚ) ≤ 2 ^ 40 := by exact_mod_cast (by omega : i ≤ 2 ^ 40)
      rw [div_le_iff₀ (by positivity)]
      calc (5 : ℚ) * i ≤ 5 * 2 ^ 40 := by gcongr
        _ ≤ _ := by norm_num
    have hcc : (5 : ℚ) * ((i + 1 : Nat) : ℚ) / 2 ^ 53 = 5 * i / 2 ^ 53 + 5 / 2 ^ 53 := by push_cast; ring
    rw [hcc, ewmstState, ewmstState64]
    unfold ewmstStep64
    have ek : decayAt (fun d => mean0Keep64 (decay d)) ts (i + 1) = mean0Keep64 (decayAt decay ts (i + 1)) := rfl
    have ea : 1 - mean0Keep64 (decayAt decay ts (i + 1)) = f64 (1 - decayAt decay ts (i + 1)) := by
      have : mean0Alpha64 (decayAt decay ts (i + 1)) + mean0Keep64 (decayAt decay ts (i + 1)) = 1 := w1
      unfold mean0Alpha64 at this
      linarith
    have ek' : f64 (1 - f64 (1 - decayAt decay ts (i + 1))) = mean0Keep64 (decayAt decay ts (i + 1)) := rfl
    have k0 : 0 ≤ mean0Keep64 (decayAt decay ts (i + 1)) := w2
    have a0 : 0 ≤ f64 (1 - decayAt decay ts (i + 1)) := by
      have : mean0Keep64 (decayAt decay ts (i + 1)) ≤ 1 := w3
      linarith
    simp only [ek, ea, ek']
    generalize mean0Keep64 (decayAt decay ts (i + 1)) = k at *
    generalize f64 (1 - decayAt decay ts (i + 1)) = a at *
    generalize ewmstState (fun d => mean0Keep64 (decay d)) ts y i = E at *
    generalize ewmstState64 decay ts y i = F at *
    generalize (5 : ℚ) * i / 2 ^ 53 = c at *
    have A1 : |f64 (a + f64 (k * F.sw)) - (a + k * E.sw)| ≤ (c + 5 / 2 ^ 53) * (a + k * E.sw) := by
      have h := ewmst_acc (t := a) (x := 1) (B := 1) (S := E.sw) (W := E.sw) a0 k0 zero_le_one b1 hc0 hc (by simp) (by rw [one_mul, abs_of_nonneg b1])
        (by rw [mul_one, sub_self, abs_zero]; positivity)
        (ewmst_past (F := F.sw) k0 zero_le_one b1 hc0 hc (by rw [one_mul, abs_of_nonneg b1]) (by rw [one_mul]; exact i1))
      rwa [mul_one, one_mul] at h
    have A2 : |f64 (f64 (a * a) + f64 (f64 (k * k) * F.sw2)) - (a * a + k * k * E.sw2)| ≤ (c + 5 / 2 ^ 53) * (a * a + k * k * E.sw2) := by
      have hkk : |f64 (k * k) - k * k| ≤ k * k / 2 ^ 53 := by
        have := f64_relErr (k * k)
        rwa [abs_of_nonneg (mul_self_nonneg k)] at this
      have haa : |f64 (a * a) - a * a * 1| ≤ 3 / 2 ^ 53 * (a * a * 1) := by
        have := f64_relErr (a * a)
        rw [abs_of_nonneg (mul_self_nonneg a)] at this
        rw [mul_one]
        have := mul_self_nonneg a
        linarith
      have h := ewmst_acc (t := f64 (a * a)) (a := a * a) (k := k * k) (x := 1) (B := 1) (S := E.sw2) (W := E.sw2) (mul_self_nonneg a) (mul_self_nonneg k)
        zero_le_one b3 hc0 hc (by simp) (by rw [one_mul, abs_of_nonneg b3]) haa
        (ewmst_past' (F := F.sw2) (mul_self_nonneg k) hkk zero_le_one b3 hc0 hc (by rw [one_mul, abs_of_nonneg b3]) (by rw [one_mul]; exact i2))
      rwa [mul_one, one_mul] at h
    have P1 := ewmst_past (F := F.sy) k0 hM0 b1 hc0 hc b5 i3
    have P2 := ewmst_past (F := F.sy2) k0 (by positivity : 0 ≤ M ^ 2) b1 hc0 hc b6 i4
    cases hy : y.getD (i + 1) none with
    | none =>
      simp only [orZero, sqOrZero]
      refine ⟨A1, A2, ?_, ?_⟩
      · have h := ewmst_acc (t := 0) (x := 0) a0 k0 hM0 b1 hc0 hc (by simpa using hM0) b5 (by simp; positivity) P1
        rwa [zero_add, f64_idem] at h
      · have h := ewmst_acc (t := 0) (x := 0) a0 k0 (by positivity : 0 ≤ M ^ 2) b1 hc0 hc (by simp; positivity) b6 (by simp; positivity) P2
        rwa [zero_add, f64_idem] at h
    | some v =>
      rw [hy] at o1 o2
      simp only [orZero, sqOrZero] at o1 o2 ⊢
      have hav : |a * v| ≤ a * M := by
        rw [abs_mul, abs_of_nonneg a0]
        exact mul_le_mul_of_nonneg_left o1 a0
      have haM : 0 ≤ a * M := mul_nonneg a0 hM0
      have T1 := f64_relErr (a * v)
      refine ⟨A1, A2, ewmst_acc a0 k0 hM0 b1 hc0 hc o1 b5 ?_ P1, ewmst_acc a0 k0 (by positivity) b1 hc0 hc o2 b6 ?_ P2⟩
      · refine T1.trans ?_
        linarith
      · have hm : |f64 (a * v) * v - a * v ^ 2| ≤ a * M ^ 2 / 2 ^ 53 := by
          have e : f64 (a * v) * v - a * v ^ 2 = (f64 (a * v) - a * v) * v := by ring
          rw [e, abs_mul]
          have := mul_le_mul T1 o1 (abs_nonneg _) (by positivity)
          have h3 : |a * v| / 2 ^ 53 * M ≤ a * M / 2 ^ 53 * M := by gcongr
          calc _ ≤ _ := this
            _ ≤ _ := h3
            _ = _ := by ring
        have hb : |a * v ^ 2| ≤ a * M ^ 2 := by
          rw [abs_mul, abs_of_nonneg a0]
          exact mul_le_mul_of_nonneg_left o2 a0
        refine (f64_step hm hb).trans ?_
        have : 0 ≤ a * M ^ 2 := by positivity
        generalize a * M ^ 2 = P at *
        have e : 3 / 2 ^ 53 * P = P / 2 ^ 53 + 2 * P / 2 ^ 53 := by ring
        rw [e]
        gcongr
        have : P / 2 ^ 53 ≤ P := div_le_self this (by norm_num)
        linarith

example : (ewmstState64 (fun _ => f64 (9 / 10)) [0, 1, 2] [none, some 3, some 1] 2).sy2 ≠
    (ewmstState (fun _ => f64 (9 / 10)) [0, 1, 2] [none, some 3, some 1] 2).sy2 := by decide +kernel

/-- **C140.** The weights that are used change the exact sums by at most `2^-51`, in units of one for the two
sums of weights, of `M` and of `M^2` for the sums of observations and of squares. -/
theorem C140_weights_effect (decay : Int → ℚ) (hd : UnitDecay decay) (ts : List Int) (y : List (Option ℚ)) (M : ℚ)
    (hM : ∀ v, some v ∈ y → |v| ≤ M) (hM0 : 0 ≤ M) (i : Nat) :
    let E' := ewmstState (fun d => mean0Keep64 (decay d)) ts y i
    let E := ewmstState decay ts y i
    |E'.sw - E.sw| ≤ 4 / 2 ^ 53 ∧ |E'.sw2 - E.sw2| ≤ 4 / 2 ^ 53 ∧ |E'.sy - E.sy| ≤ 4 / 2 ^ 53 * M ∧ |E'.sy2 - E.sy2| ≤ 4 / 2 ^ 53 * M ^ 2 := by
  have hp : ∀ d, 0 ≤ mean0Keep64 (decay d) ∧ mean0Keep64 (decay d) ≤ 1 := fun d => by
    obtain ⟨e1, e2, e3⟩ := hd d
    exact ⟨(C138_weights _ e1 e2 e3).2.1, (C138_weights _ e1 e2 e3).2.2.1⟩
  have step : ∀ (q k u' u x B : ℚ), 0 ≤ q → q ≤ 1 → (1 / 2 ≤ q → k = q) → |k - q| ≤ 1 / 2 ^ 53 → |u'| ≤ B → |x| ≤ B → |u' - u| ≤ 4 / 2 ^ 53 * B →
      |((1 - k) * x + k * u') - ((1 - q) * x + q * u)| ≤ 4 / 2 ^ 53 * B := by
    intro q k u' u x B q0 q1 hk hkq hu hx hD
    have e : ((1 - k) * x + k * u') - ((1 - q) * x + q * u) = (k - q) * (u' - x) + q * (u' - u) := by ring
    rw [e]
    rcases le_or_gt (1 / 2) q with h | h
    · rw [hk h, sub_self, zero_mul, zero_add, abs_mul, abs_of_nonneg q0]
      calc q * |u' - u| ≤ 1 * |u' - u| := by gcongr
        _ ≤ _ := by linarith
    · have hux : |u' - x| ≤ 2 * B := (abs_sub _ _).trans (by linarith)
      calc |(k - q) * (u' - x) + q * (u' - u)| ≤ |(k - q) * (u' - x)| + |q * (u' - u)| := abs_add_le _ _
        _ = |k - q| * |u' - x| + q * |u' - u| := by rw [abs_mul, abs_mul, abs_of_nonneg q0]
        _ ≤ 1 / 2 ^ 53 * (2 * B) + 1 / 2 * (4 / 2 ^ 53 * B) := by gcongr
        _ = _ := by ring
  induction i with
  | zero => simp only [ewmstState, sub_self, abs_zero]; exact ⟨by positivity, by positivity, by positivity, by positivity⟩
  | succ i ih =>
    obtain ⟨i1, i2, i3, i4⟩ := ih
    obtain ⟨d1, d2, d3⟩ := hd (ts.getD (i + 1) 0 - ts.getD (i + 1 - 1) 0)
    obtain ⟨-, w2, w3, w4, w5⟩ := C138_weights _ d1 d2 d3
    obtain ⟨b1, b2, b3, b4, b5, b6⟩ := ewmstState_bounds (fun d => mean0Keep64 (decay d)) hp ts y M hM hM0 i
    obtain ⟨o1, o2⟩ := getD_obs_bounds y M hM hM0 (i + 1)
    have ek : decayAt (fun d => mean0Keep64 (decay d)) ts (i + 1) = mean0Keep64 (decayAt decay ts (i + 1)) := rfl
    rw [ewmstState, ewmstState]
    simp only [ek]
    change 0 ≤ decayAt decay ts (i + 1) at d2
    change decayAt decay ts (i + 1) ≤ 1 at d3
    change 0 ≤ mean0Keep64 (decayAt decay ts (i + 1)) at w2
    change mean0Keep64 (decayAt decay ts (i + 1)) ≤ 1 at w3
    change 1 / 2 ≤ decayAt decay ts (i + 1) → mean0Keep64 (decayAt decay ts (i + 1)) = decayAt decay ts (i + 1) at w4
    change |mean0Keep64 (decayAt decay ts (i + 1)) - decayAt decay ts (i + 1)| ≤ _ at w5
    generalize mean0Keep64 (decayAt decay ts (i + 1)) = k at *
    generalize decayAt decay ts (i + 1) = q at *
    generalize ewmstState (fun d => mean0Keep64 (decay d)) ts y i = E' at *
    generalize ewmstState decay ts y i = E at *
    have l2 : E'.sw2 ≤ 1 := b4.trans (by nlinarith)
    have l5 : |E'.sy| ≤ M := b5.trans (by nlinarith)
    have l6 : |E'.sy2| ≤ M ^ 2 := b6.trans (by nlinarith [sq_nonneg M])
    have s1 := step q k _ _ 1 1 d2 d3 w4 w5 (by rw [abs_of_nonneg b1]; exact b2) (by simp) (by rw [mul_one]; exact i1)
    rw [mul_one, mul_one, mul_one] at s1
    refine ⟨s1, ?_, step q k _ _ _ M d2 d3 w4 w5 l5 o1 i3, step q k _ _ _ (M ^ 2) d2 d3 w4 w5 l6 o2 i4⟩
    have e : (1 - k) * (1 - k) + k * k * E'.sw2 - ((1 - q) * (1 - q) + q * q * E.sw2) =
      (k - q) * ((k + q) * (1 + E'.sw2) - 2) + q * q * (E'.sw2 - E.sw2) := by ring
    rw [e]
    rcases le_or_gt (1 / 2) q with h | h
    · rw [w4 h, sub_self, zero_mul, zero_add, abs_mul, abs_of_nonneg (mul_self_nonneg q)]
      calc q * q * |E'.sw2 - E.sw2| ≤ 1 * 1 * |E'.sw2 - E.sw2| := by gcongr
        _ ≤ _ := by linarith
    · have hs : |(k + q) * (1 + E'.sw2) - 2| ≤ 2 := by
        have t0 : 0 ≤ (k + q) * (1 + E'.sw2) := by positivity
        have t1 : (k + q) * (1 + E'.sw2) ≤ 2 * 2 := by
          apply mul_le_mul <;> linarith
        exact abs_le.mpr ⟨by linarith, by linarith⟩
      calc _ ≤ |(k - q) * ((k + q) * (1 + E'.sw2) - 2)| + |q * q * (E'.sw2 - E.sw2)| := abs_add_le _ _
        _ = |k - q| * |(k + q) * (1 + E'.sw2) - 2| + q * q * |E'.sw2 - E.sw2| := by
          rw [abs_mul, abs_mul (q * q), abs_of_nonneg (mul_self_nonneg q)]
        _ ≤ 1 / 2 ^ 53 * 2 + 1 / 2 * (1 / 2) * (4 / 2 ^ 53) := by gcongr
        _ ≤ _ := by norm_num

example : UnitDecay (fun _ => 1 / 2) ∧ ∀ v, some v ∈ ([none, some 3, some 1] : List (Option ℚ)) → |v| ≤ 3 := by
  refine ⟨fun d => ⟨show f64 (1 / 2) = 1 / 2 by decide +kernel, by norm_num, by norm_num⟩, fun v hv => ?_⟩
  simp only [List.mem_cons, Option.some.injEq, List.not_mem_nil, or_false, reduceCtorEq, false_or] at hv
  rcases hv with rfl | rfl <;> norm_num

/-! ### The variance -/

/-- The weighted sum of squares about any centre is not negative. -/
theorem ewmstState_sq (decay : Int → ℚ) (hd : ∀ d, 0 ≤ decay d ∧ decay d ≤ 1) (ts : List Int) (y : List (Option ℚ)) (x : ℚ) (i : Nat) :
    0 ≤ (ewmstState decay ts y i).sy2 - 2 * x * (ewmstState decay ts y i).sy + x ^ 2 * (ewmstState decay ts y i).sw := by
  induction i with
  | zero => simp [ewmstState]
  | succ i ih =>
    obtain ⟨q0, q1⟩ := hd (ts.getD (i + 1) 0 - ts.getD (i + 1 - 1) 0)
    change 0 ≤ decayAt decay ts (i + 1) at q0
    change decayAt decay ts (i + 1) ≤ 1 at q1
    rw [ewmstState]
    simp only
    have h := mul_nonneg q0 ih
    have hs : sqOrZero (y.getD (i + 1) none) = orZero (y.getD (i + 1) none) ^ 2 := by
      cases y.getD (i + 1) none with
      | none => simp [sqOrZero, orZero]
      | some v => rfl
    rw [hs]
    have h2 := mul_nonneg (by linarith : 0 ≤ 1 - decayAt decay ts (i + 1)) (sq_nonneg (orZero (y.getD (i + 1) none) - x))
    nlinarith

/-- The variance from sums that are near the exact ones. -/
theorem ewmstVar_near (E F : EwmAcc ℚ) (M e : ℚ) (hM : 0 ≤ M) (he : 1 / 2 ^ 50 ≤ e) (he1 : e ≤ 1 / 100)
    (hW : 0 < E.sw) (hV0 : 0 ≤ E.sw2) (hD : 3 / 8 * E.sw ^ 2 ≤ E.sw ^ 2 - E.sw2)
    (hw : |F.sw - E.sw| ≤ e * E.sw) (hv : |F.sw2 - E.sw2| ≤ e * E.sw ^ 2)
    (hy0 : |E.sy| ≤ M * E.sw) (hy : |F.sy - E.sy| ≤ e * (M * E.sw))
    (hz0 : |E.sy2| ≤ M ^ 2 * E.sw) (hz : |F.sy2 - E.sy2| ≤ e * (M ^ 2 * E.sw))
    (hnn : 0 ≤ E.sy2 / E.sw - (E.sy / E.sw) ^ 2) :
    ∃ v, ewmstVar64 F = some v ∧ 0 ≤ v ∧
      |v - (E.sy2 / E.sw - (E.sy / E.sw) ^ 2) * (E.sw / (E.sw - E.sw2 / E.sw))| ≤ 100 * e * M ^ 2 := by
  have hM2 : 0 ≤ M ^ 2 := sq_nonneg _
  have hw1 := abs_le.mp hw
  have heW : e * E.sw ≤ 1 / 100 * E.sw := mul_le_mul_of_nonneg_right he1 hW.le
  have hwpos : 99 / 100 * E.sw ≤ F.sw := by linarith [hw1.1]
  have hwp : 0 < F.sw := lt_of_lt_of_le (by linarith) hwpos
  obtain ⟨m0, m1⟩ := div_near hW hM he he1 hy0 hy hw
  obtain ⟨r0, r1⟩ := div_near hW hM2 he he1 hz0 hz hw
  have hV1 : E.sw2 ≤ E.sw * E.sw := by linarith [sq_nonneg E.sw]
  obtain ⟨d0, d1⟩ := div_near hW hW.le he he1 (by rw [abs_of_nonneg hV0]; exact hV1)
    (by rw [← sq]; exact hv) hw
  obtain ⟨m, hm⟩ : ∃ m, m = f64 (F.sy / F.sw) := ⟨_, rfl⟩
  obtain ⟨r, hr⟩ : ∃ r, r = f64 (F.sy2 / F.sw) := ⟨_, rfl⟩
  obtain ⟨c, hc⟩ : ∃ c, c = f64 (F.sw2 / F.sw) := ⟨_, rfl⟩
  rw [← hm] at m1
  rw [← hr] at r1
  rw [← hc] at d1
  have hκD : E.sw2 / E.sw ≤ 5 / 8 * E.sw := by
    rw [div_le_iff₀ hW]; linarith
  have hκ0 : 0 ≤ E.sw2 / E.sw := by positivity
  obtain ⟨μ, hμ⟩ : ∃ μ, μ = E.sy / E.sw := ⟨_, rfl⟩
  obtain ⟨ρ, hρ⟩ : ∃ ρ, ρ = E.sy2 / E.sw := ⟨_, rfl⟩
  obtain ⟨κ, hκ⟩ : ∃ κ, κ = E.sw2 / E.sw := ⟨_, rfl⟩
  rw [← hμ] at m0 m1 hnn ⊢
  rw [← hρ] at r0 r1 hnn ⊢
  rw [← hκ] at d0 d1 hκD hκ0 ⊢
  have heM2 : e * M ^ 2 ≤ 1 / 100 * M ^ 2 := mul_le_mul_of_nonneg_right he1 hM2
  have huM2 : M ^ 2 / 2 ^ 50 ≤ e * M ^ 2 := by
    rw [div_eq_mul_one_div, mul_comm]
    exact mul_le_mul_of_nonneg_right he hM2
  have huW : E.sw / 2 ^ 50 ≤ e * E.sw := by
    rw [div_eq_mul_one_div, mul_comm]
    exact mul_le_mul_of_nonneg_right he hW.le
  have he0 : 0 < e := lt_of_lt_of_le (by norm_num) he
  have q1 : |m * m - μ ^ 2| ≤ 61 / 10 * e * M ^ 2 := by
    have e1 : m * m - μ ^ 2 = (m - μ) * (m - μ) + 2 * μ * (m - μ) := by ring
    rw [e1]
    refine le_trans (abs_add_le _ _) ?_
    rw [abs_mul, abs_mul, abs_mul, abs_of_pos (by norm_num : (0 : ℚ) < 2)]
    have a1 : |m - μ| * |m - μ| ≤ (3 * e * M) * (3 * e * M) := mul_le_mul m1 m1 (abs_nonneg _) (by positivity)
    have a2 : |μ| * |m - μ| ≤ M * (3 * e * M) := mul_le_mul m0 m1 (abs_nonneg _) hM
    have a3 : e * (e * M ^ 2) ≤ 1 / 100 * (e * M ^ 2) := mul_le_mul_of_nonneg_right he1 (by positivity)
    linarith
  have hμ2 : |μ ^ 2| ≤ M ^ 2 := by rw [abs_pow]; exact pow_le_pow_left₀ (abs_nonneg _) m0 2
  have q2 : |f64 (m * m) - μ ^ 2| ≤ 7 * e * M ^ 2 := by
    refine le_trans (f64_step q1 hμ2) ?_
    linarith
  have hA1 : ρ - μ ^ 2 ≤ M ^ 2 := by
    have := abs_le.mp r0
    linarith [sq_nonneg μ]
  have q3 : |r - f64 (m * m) - (ρ - μ ^ 2)| ≤ 10 * e * M ^ 2 := by
    have e1 : r - f64 (m * m) - (ρ - μ ^ 2) = (r - ρ) - (f64 (m * m) - μ ^ 2) := by ring
    rw [e1]
    refine le_trans (abs_sub _ _) ?_
    linarith
  have q4 : |f64 (r - f64 (m * m)) - (ρ - μ ^ 2)| ≤ 11 * e * M ^ 2 := by
    refine le_trans (f64_step q3 (B := M ^ 2) (by rw [abs_of_nonneg hnn]; exact hA1)) ?_
    linarith
  have p1 : |F.sw - c - (E.sw - κ)| ≤ 4 * e * E.sw := by
    have e1 : F.sw - c - (E.sw - κ) = (F.sw - E.sw) - (c - κ) := by ring
    rw [e1]
    refine le_trans (abs_sub _ _) ?_
    linarith
  have p2 : |f64 (F.sw - c) - (E.sw - κ)| ≤ 5 * e * E.sw := by
    refine le_trans (f64_step p1 (B := E.sw) (by rw [abs_of_nonneg (by linarith)]; linarith)) ?_
    linarith
  obtain ⟨d, hd⟩ : ∃ d, d = f64 (F.sw - c) := ⟨_, rfl⟩
  obtain ⟨w, hwd⟩ : ∃ w, w = f64 (r - f64 (m * m)) := ⟨_, rfl⟩
  rw [← hd] at p2
  rw [← hwd] at q4
  have hdW : 325 / 1000 * E.sw ≤ d := by
    have := (abs_le.mp p2).1
    linarith
  have hdp : 0 < d := lt_of_lt_of_le (by linarith) hdW
  have hDW : 3 / 8 * E.sw ≤ E.sw - κ := by linarith
  have hDp : 0 < E.sw - κ := by linarith
  -- the correction factor
  have hG : |E.sw / (E.sw - κ)| ≤ 8 / 3 := by
    rw [abs_div, abs_of_pos hW, abs_of_pos hDp, div_le_iff₀ hDp]
    linarith
  have g1 : |F.sw / d - E.sw / (E.sw - κ)| ≤ 45 * e := by
    have e1 : F.sw / d - E.sw / (E.sw - κ) = ((F.sw - E.sw) - E.sw / (E.sw - κ) * (d - (E.sw - κ))) / d := by
      field_simp; ring
    rw [e1, abs_div, abs_of_pos hdp, div_le_iff₀ hdp]
    refine le_trans (abs_sub _ _) ?_
    rw [abs_mul]
    have a1 := mul_le_mul hG p2 (abs_nonneg _) (by positivity)
    have a2 : 45 * e * (325 / 1000 * E.sw) ≤ 45 * e * d := mul_le_mul_of_nonneg_left hdW (by positivity)
    have a3 : 0 ≤ e * E.sw := by positivity
    linarith
  have g2 : |f64 (F.sw / d) - E.sw / (E.sw - κ)| ≤ 46 * e := by
    refine le_trans (f64_step g1 hG) ?_
    linarith
  obtain ⟨g, hg⟩ : ∃ g, g = f64 (F.sw / d) := ⟨_, rfl⟩
  obtain ⟨G, hGd⟩ : ∃ G, G = E.sw / (E.sw - κ) := ⟨_, rfl⟩
  rw [← hg] at g2
  rw [← hGd] at g2 hG ⊢
  have hG0 : 0 ≤ G := by rw [hGd]; positivity
  rw [abs_of_nonneg hG0] at hG
  -- the product
  have hVb : |(ρ - μ ^ 2) * G| ≤ 8 / 3 * M ^ 2 := by
    rw [abs_mul, abs_of_nonneg hnn, abs_of_nonneg hG0]
    have := mul_le_mul hA1 hG hG0 hM2
    linarith
  have q7 : |w * g - (ρ - μ ^ 2) * G| ≤ 82 * e * M ^ 2 := by
    have e1 : w * g - (ρ - μ ^ 2) * G = (w - (ρ - μ ^ 2)) * (g - G) + (w - (ρ - μ ^ 2)) * G + (ρ - μ ^ 2) * (g - G) := by ring
    rw [e1]
    refine le_trans (abs_add_le _ _) (le_trans (add_le_add_left (abs_add_le _ _) _) ?_)
    rw [abs_mul, abs_mul, abs_mul, abs_of_nonneg hG0, abs_of_nonneg hnn]
    have a1 := mul_le_mul q4 g2 (abs_nonneg _) (by positivity)
    have a2 := mul_le_mul q4 hG hG0 (by positivity)
    have a3 := mul_le_mul hA1 g2 (abs_nonneg _) hM2
    have a4 : e * (e * M ^ 2) ≤ 1 / 100 * (e * M ^ 2) := mul_le_mul_of_nonneg_right he1 (by positivity)
    have a5 : 0 ≤ e * M ^ 2 := by positivity
    linarith
  have q8 : |f64 (w * g) - (ρ - μ ^ 2) * G| ≤ 100 * e * M ^ 2 := by
    refine le_trans (f64_step q7 hVb) ?_
    linarith
  have hVnn : 0 ≤ (ρ - μ ^ 2) * G := mul_nonneg hnn hG0
  have hform : ewmstVar64 F = some (if d > 0 ∧ w > 0 then f64 (w * g) else 0) := by
    unfold ewmstVar64
    rw [if_pos hwp]
    simp only [← hm, ← hr, ← hc, ← hd, ← hwd, ← hg]
  refine ⟨_, hform, ?_, ?_⟩
  · split_ifs with h
    · refine f64_nonneg (mul_nonneg h.2.le ?_)
      rw [hg]
      exact f64_nonneg (div_nonneg hwp.le hdp.le)
    · exact le_rfl
  · split_ifs with h
    · exact q8
    · have hw0 : w ≤ 0 := not_lt.mp (fun h' => h ⟨hdp, h'⟩)
      have hg0 : 0 ≤ g := by rw [hg]; exact f64_nonneg (div_nonneg hwp.le hdp.le)
      have hwg : w * g ≤ 0 := mul_nonpos_of_nonpos_of_nonneg hw0 hg0
      refine le_trans ?_ (q7.trans (by have : 0 ≤ e * M ^ 2 := by positivity
                                       linarith))
      rw [abs_of_nonpos (by linarith), abs_of_nonpos (by linarith)]
      linarith

/-- An error in units of the weights used plus an absolute one, relative to the exact weights. -/
theorem ewmst_rel {B x w W c δ : ℚ} (hc0 : 0 ≤ c) (hc : c ≤ 1 / 1000) (hB : 0 ≤ B) (hx : x ≤ c * (B * w) + 4 / 2 ^ 53 * B) (hw : w ≤ W + 4 / 2 ^ 53)
    (hd : 8 / 2 ^ 53 ≤ δ * W) : x ≤ (c + δ) * (B * W) := by
  have h1 : c * (B * w) ≤ c * (B * (W + 4 / 2 ^ 53)) := by gcongr
  have h2 : c * (B * (4 / 2 ^ 53)) ≤ 1 / 1000 * (B * (4 / 2 ^ 53)) := by gcongr
  have h3 := mul_le_mul_of_nonneg_left hd hB
  have h4 : 0 ≤ B * (1 / 2 ^ 53) := by positivity
  linarith

/-- **C140.** Accuracy: at a position where the exact weights sum to `W ≥ 2^-20` and the effective number of observations `W^2 / W2` is at
least 8/5, there is a float64 variance, it is not negative, and it is within `100 (5 i + 8 / W^2) 2^-53 M^2` of the exact one, for
observations up to `M` in size. -/
theorem C140_accuracy (decay : Int → ℚ) (hd : UnitDecay decay) (ts : List Int) (y : List (Option ℚ)) (M : ℚ)
    (hM : ∀ v, some v ∈ y → |v| ≤ M) (hM0 : 0 ≤ M) (i : Nat) (hi : i ≤ 2 ^ 40)
    (hW : 1 / 2 ^ 20 ≤ (ewmstState decay ts y i).sw)
    (hN : 8 * (ewmstState decay ts y i).sw2 ≤ 5 * (ewmstState decay ts y i).sw ^ 2) :
    ∃ v V, ewmstVar64 (ewmstState64 decay ts y i) = some v ∧ ewmstVal (fun x => x) 0 (ewmstState decay ts y i) = some V ∧ 0 ≤ v ∧
      |v - V| ≤ 100 * ((5 * i + 8 / (ewmstState decay ts y i).sw ^ 2) / 2 ^ 53) * M ^ 2 := by
  obtain ⟨c1, c2, c3, c4, c5, c6⟩ := ewmstState_bounds decay (fun d => (hd d).2) ts y M hM hM0 i
  have hp : ∀ d, 0 ≤ mean0Keep64 (decay d) ∧ mean0Keep64 (decay d) ≤ 1 := fun d => by
    obtain ⟨e1, e2, e3⟩ := hd d
    exact ⟨(C138_weights _ e1 e2 e3).2.1, (C138_weights _ e1 e2 e3).2.2.1⟩
  obtain ⟨b1, b2, b3, b4, b5, b6⟩ := ewmstState_bounds (fun d => mean0Keep64 (decay d)) hp ts y M hM hM0 i
  obtain ⟨s1, s2, s3, s4⟩ := C140_sums decay hd ts y M hM hM0 i hi
  obtain ⟨p1, p2, p3, p4⟩ := C140_weights_effect decay hd ts y M hM hM0 i
  have hsq := fun x => ewmstState_sq decay (fun d => (hd d).2) ts y x i
  have hc0 : (0 : ℚ) ≤ 5 * i / 2 ^ 53 := by positivity
  have hi' : (i : ℚ) ≤ 2 ^ 40 := by exact_mod_cast hi
  have hc : (5 : ℚ) * i / 2 ^ 53 ≤ 1 / 1000 := by
    rw [div_le_iff₀ (by positivity)]
    calc (5 : ℚ) * i ≤ 5 * 2 ^ 40 := by gcongr
      _ ≤ _ := by norm_num
  generalize ewmstState decay ts y i = E at *
  generalize ewmstState (fun d => mean0Keep64 (decay d)) ts y i = E' at *
  generalize ewmstState64 decay ts y i = F at *
  have hW0 : 0 < E.sw := lt_of_lt_of_le (by positivity) hW
  have hW2 : 0 < E.sw ^ 2 := by positivity
  have hW1 : E.sw ^ 2 ≤ E.sw := by nlinarith
  have hM2 : 0 ≤ M ^ 2 := sq_nonneg M
  rw [add_div]
  generalize (5 : ℚ) * i / 2 ^ 53 = c at *
  obtain ⟨δ, hδ⟩ : ∃ δ, δ = 8 / E.sw ^ 2 / 2 ^ 53 := ⟨_, rfl⟩
  rw [← hδ]
  have hδW2 : δ * E.sw ^ 2 = 8 / 2 ^ 53 := by rw [hδ]; field_simp
  have hδ0 : 0 < δ := by rw [hδ]; positivity
  have hδW : 8 / 2 ^ 53 ≤ δ * E.sw := by rw [← hδW2]; exact mul_le_mul_of_nonneg_left hW1 hδ0.le
  have hδ1 : 8 / 2 ^ 53 ≤ δ := hδW.trans (by nlinarith)
  have hδ2 : δ ≤ 1 / 1000 := by
    rw [hδ, div_div, div_le_iff₀ (by positivity)]
    have : (1 / 2 ^ 20 : ℚ) ^ 2 ≤ E.sw ^ 2 := pow_le_pow_left₀ (by positivity) hW 2
    calc (8 : ℚ) ≤ 1 / 1000 * ((1 / 2 ^ 20) ^ 2 * 2 ^ 53) := by norm_num
      _ ≤ _ := by gcongr
  have hu : (0 : ℚ) < 1 / 2 ^ 53 := by positivity
  have tri : ∀ (f g h B w : ℚ), 0 ≤ B → |f - g| ≤ c * (B * w) → |g - h| ≤ 4 / 2 ^ 53 * B → |f - h| ≤ c * (B * w) + 4 / 2 ^ 53 * B := by
    intro f g h B w _ h1 h2
    have e : f - h = (f - g) + (g - h) := by ring
    rw [e]
    exact (abs_add_le _ _).trans (add_le_add h1 h2)
  have hsw : E'.sw ≤ E.sw + 4 / 2 ^ 53 := by linarith [(abs_le.mp p1).2]
  have hsw2 : E'.sw2 ≤ E.sw ^ 2 + 4 / 2 ^ 53 := by linarith [(abs_le.mp p2).2]
  -- a sum relative to the weights
  have fin := fun (B x w W : ℚ) => ewmst_rel (c := c) (δ := δ) (B := B) (x := x) (w := w) (W := W) hc0 hc
  have f1 := fin 1 _ E'.sw E.sw zero_le_one (tri _ _ _ 1 _ zero_le_one (by rw [one_mul]; exact s1) (by rw [mul_one]; exact p1)) hsw hδW
  have f2 := fin 1 _ E'.sw2 (E.sw ^ 2) zero_le_one (tri _ _ _ 1 _ zero_le_one (by rw [one_mul]; exact s2) (by rw [mul_one]; exact p2)) hsw2 hδW2.ge
  have f3 := fin M _ E'.sw E.sw hM0 (tri _ _ _ M _ hM0 s3 p3) hsw hδW
  have f4 := fin (M ^ 2) _ E'.sw E.sw hM2 (tri _ _ _ (M ^ 2) _ hM2 s4 p4) hsw hδW
  rw [one_mul] at f1 f2
  have hnn : 0 ≤ E.sy2 / E.sw - (E.sy / E.sw) ^ 2 := by
    have h := hsq (E.sy / E.sw)
    have e1 : E.sy2 - 2 * (E.sy / E.sw) * E.sy + (E.sy / E.sw) ^ 2 * E.sw = (E.sy2 / E.sw - (E.sy / E.sw) ^ 2) * E.sw := by
      field_simp; ring
    rw [e1] at h
    exact nonneg_of_mul_nonneg_left h hW0
  obtain ⟨v, v1, v2, v3⟩ := ewmstVar_near E F M (c + δ) hM0 (le_trans (by norm_num) (hδ1.trans (by linarith : δ ≤ c + δ))) (by linarith) hW0 c3
    (by linarith) f1 f2 c5 f3 c6 f4 hnn
  have hden : 0 < E.sw - E.sw2 / E.sw := by
    rw [sub_pos, div_lt_iff₀ hW0, ← sq]
    linarith
  refine ⟨v, _, v1, ?_, v2, v3⟩
  unfold ewmstVal
  rw [if_pos hW0]
  simp only
  have ev : (if E.sw - E.sw2 / E.sw > 0 ∧ E.sy2 / E.sw - E.sy / E.sw * (E.sy / E.sw) > 0 then
      (E.sy2 / E.sw - E.sy / E.sw * (E.sy / E.sw)) * (E.sw / (E.sw - E.sw2 / E.sw)) else 0) =
      (E.sy2 / E.sw - (E.sy / E.sw) ^ 2) * (E.sw / (E.sw - E.sw2 / E.sw)) := by
    rw [← sq]
    split_ifs with h
    · rfl
    · have : E.sy2 / E.sw - (E.sy / E.sw) ^ 2 = 0 := le_antisymm (not_lt.mp (fun h' => h ⟨hden, h'⟩)) hnn
      rw [this, zero_mul]
  rw [ev, if_neg (not_lt.mpr (mul_nonneg hnn (div_nonneg hW0.le hden.le)))]

example : let E := ewmstState (fun _ => 1 / 2) [0, 1, 2] [none, some (3 : ℚ), some 1] 2
    1 / 2 ^ 20 ≤ E.sw ∧ 8 * E.sw2 ≤ 5 * E.sw ^ 2 ∧ ewmstVal (fun x => x) 0 E = some 2 ∧
    ewmstVar64 (ewmstState64 (fun _ => 1 / 2) [0, 1, 2] [none, some 3, some 1] 2) ≠ none := by decide +kernel

/-- **C140.** The column: nothing at the first position, and a value elsewhere is the root of the variance from the sums, raised to the floor. -/
theorem C140_column (sqrt64 : ℚ → ℚ) (decay : Int → ℚ) (floor : ℚ) (ts : List Int) (y : List (Option ℚ)) (i : Nat) (hi : i < y.length) :
    (i = 0 → (ewmst64 sqrt64 decay floor ts y)[i]? = some none) ∧
    (0 < i → ∀ v, ewmstVar64 (ewmstState64 decay ts y i) = some v →
      (ewmst64 sqrt64 decay floor ts y)[i]? = some (some (max (sqrt64 v) floor))) ∧
    (0 < i → ewmstVar64 (ewmstState64 decay ts y i) = none → (ewmst64 sqrt64 decay floor ts y)[i]? = some none) := by
  unfold ewmst64
  rw [tabulate_get?, if_pos hi]
  refine ⟨fun h => by rw [if_pos h], fun h v hv => ?_, fun h hv => ?_⟩
  · rw [if_neg (by omega), hv, Option.map_some]
    split_ifs with hf
    · rw [max_eq_right hf.le]
    · rw [max_eq_left (not_lt.mp hf)]
  · rw [if_neg (by omega), hv, Option.map_none]

example : ewmst64 (fun x => x) (fun _ => 1 / 2) (1 / 8) [0, 1, 2] [none, some 3, some 3] = [none, some (1 / 8), some (1 / 8)] := by decide +kernel

/-- **C140.** With no time between the samples from the start on the weights stay 0 and there is no value. -/
theorem C140_no_time (sqrt64 : ℚ → ℚ) (decay : Int → ℚ) (floor : ℚ) (ts : List Int) (y : List (Option ℚ)) (i : Nat)
    (hd : ∀ j, j < i → decayAt decay ts (j + 1) = 1) (hi : i < y.length) : (ewmst64 sqrt64 decay floor ts y)[i]? = some none := by
  have hs : ∀ j, j ≤ i → (ewmstState64 decay ts y j).sw = 0 := by
    intro j
    induction j with
    | zero => intro _; rfl
    | succ j ih =>
      intro hj
      have e0 : f64 (1 - 1) = 0 := by decide +kernel
      rw [ewmstState64, hd j (by omega)]
      unfold ewmstStep64
      cases y.getD (j + 1) none <;> simp only [ih (by omega), e0, mul_zero, f64_zero, add_zero]
  rcases Nat.eq_zero_or_pos i with h | h
  · exact (C140_column sqrt64 decay floor ts y i hi).1 h
  · refine (C140_column sqrt64 decay floor ts y i hi).2.2 h ?_
    unfold ewmstVar64
    rw [hs i le_rfl, if_neg (lt_irrefl _)]

example : ewmst64 (fun x => x) (fun d => if d = 0 then 1 else 1 / 2) 0 [5, 5, 5] [some 1, some 2, some 7] = [none, none, none] := by decide +kernel

/-- **C140, violation.** A long gap erases the estimate: whatever the sums before, if the exponential of the gap is at most `2^-54` then the
variance at the sample after it is exactly 0, so that the deviation is the floor. -/
theorem C140_gap_collapse (s : EwmAcc ℚ) (q : ℚ) (h0 : 0 ≤ q) (hq : q ≤ 1 / 2 ^ 54) (v : Option ℚ) (hv : ∀ x, v = some x → f64 x = x) :
    ewmstVar64 (ewmstStep64 s q v) = some 0 := by
  have e1 : f64 (1 - q) = 1 := by
    apply le_antisymm
    · calc f64 (1 - q) ≤ f64 1 := f64_mono (by linarith)
        _ = 1 := by decide +kernel
    · calc (1 : ℚ) = f64 (1 - 1 / 2 ^ 54) := by decide +kernel
        _ ≤ f64 (1 - q) := f64_mono (by linarith)
  have e2 : f64 (1 - 1) = 0 := by decide +kernel
  have e3 : f64 1 = 1 := by decide +kernel
  have e4 : f64 0 = 0 := f64_zero
  unfold ewmstStep64 ewmstVar64
  cases v with
  | none =>
    simp only [e1, e2, e3, e4, zero_mul, mul_zero, add_zero, mul_one, div_one, zero_div, sub_zero, sub_self]
    norm_num
  | some x =>
    have hx := hv x rfl
    simp only [e1, e2, e3, e4, zero_mul, mul_zero, add_zero, mul_one, one_mul, div_one, sub_self, f64_idem, hx]
    norm_num

example : ewmstVar64 (ewmstStep64 ⟨3 / 4, 5 / 16, 5 / 4, 11 / 4⟩ (1 / 2 ^ 60) (some 7)) = some 0 := by decide +kernel

/-- **C140, violation.** After the gap the exact deviation does not collapse, and a shorter gap makes up a deviation: with an exponential of
`2^-54` for the gap the exact variance of 3, 1, 2 stays at one half and the float64 one is 0; with `2^-53` the float64 variance of a series
that is constantly 1.1 is one. -/
theorem C140_gap_noise :
    let decay : ℚ → Int → ℚ := fun g d => if d = 1 then 1 / 2 else g
    (ewmstVar64 (ewmstState64 (decay (1 / 2 ^ 54)) [0, 1, 2, 100] [none, some 3, some 1, some 2] 3) = some 0 ∧
      ∃ V, ewmstVal (fun x => x) 0 (ewmstState (decay (1 / 2 ^ 54)) [0, 1, 2, 100] [none, some 3, some 1, some 2] 3) = some V ∧ 49 / 100 < V) ∧
    (ewmstVar64 (ewmstState64 (decay (1 / 2 ^ 53)) [0, 1, 2, 100] [none, some (f64 (11 / 10)), some (f64 (11 / 10)), some (f64 (11 / 10))] 3) = some 1 ∧
      ewmstVal (fun x => x) 0
        (ewmstState (decay (1 / 2 ^ 53)) [0, 1, 2, 100] [none, some (f64 (11 / 10)), some (f64 (11 / 10)), some (f64 (11 / 10))] 3) = some 0) := by
  exact ⟨⟨by decide +kernel, 54043195528445951 / 108086391056891899, by decide +kernel, by norm_num⟩, by decide +kernel, by decide +kernel⟩

end FinML
