/-
C138: the zero-mean time-decayed deviation in float64 arithmetic (`finmlkit/feature/core/volatility.py:72-136`).
-/
import Verif.Model.Float64Mean0
import Verif.Props.Break64
import Verif.Props.Oscillators64
import Verif.Props.TripleBarrier64
import Verif.Props.Volatility

set_option linter.unusedSectionVars false

namespace FinML

/-! ### Weights -/

/-- **C138.** For a float64 exponential `q` between 0 and 1 the two weights `alpha` and `1 - alpha` add up to exactly one and lie between 0
and 1; for `q ≥ 1/2` the weight of the past is `q` itself, otherwise it is within `2^-53` of it. -/
theorem C138_weights (q : ℚ) (hq : f64 q = q) (h0 : 0 ≤ q) (h1 : q ≤ 1) :
    mean0Alpha64 q + mean0Keep64 q = 1 ∧ 0 ≤ mean0Keep64 q ∧ mean0Keep64 q ≤ 1 ∧ (1 / 2 ≤ q → mean0Keep64 q = q) ∧
      |mean0Keep64 q - q| ≤ 1 / 2 ^ 53 := by
  have f1 : f64 1 = 1 := by decide +kernel
  rcases le_or_gt (1 / 2) q with h | h
  · have ea : mean0Alpha64 q = 1 - q := f64_sub_exact 1 q f1 hq (by linarith) (by linarith)
    have ek : mean0Keep64 q = q := by
      unfold mean0Keep64
      rw [ea, sub_sub_cancel, hq]
    rw [ea, ek]
    refine ⟨by ring, h0, h1, fun _ => rfl, by rw [sub_self, abs_zero]; positivity⟩
  · have a1 : mean0Alpha64 q ≤ 1 := by
      rw [← f1]; exact f64_mono (by linarith)
    have a2 : 1 / 2 ≤ mean0Alpha64 q := by
      rw [show (1 / 2 : ℚ) = f64 (1 / 2) by decide +kernel]
      exact f64_mono (by linarith)
    have ek : mean0Keep64 q = 1 - mean0Alpha64 q := f64_sub_exact 1 _ f1 (f64_idem _) (by linarith) (by linarith)
    have r := f64_relErr (1 - q)
    rw [abs_of_nonneg (by linarith : (0 : ℚ) ≤ 1 - q)] at r
    rw [ek]
    refine ⟨by ring, by linarith, by linarith, fun h' => by linarith, ?_⟩
    rw [show 1 - mean0Alpha64 q - q = -(f64 (1 - q) - (1 - q)) by unfold mean0Alpha64; ring, abs_neg]
    refine r.trans ?_
    gcongr
    linarith

example : mean0Alpha64 (f64 (9 / 10)) + mean0Keep64 (f64 (9 / 10)) = 1 ∧ mean0Keep64 (1 / 2 ^ 60) = 0 := by decide +kernel

/-- A decay whose values are float64 numbers between 0 and 1. -/
def UnitDecay (decay : Int → ℚ) : Prop := ∀ d, f64 (decay d) = decay d ∧ 0 ≤ decay d ∧ decay d ≤ 1

/-- The exact sums: weights between 0 and 1, and the sum of squares at most `M` times the weight if every square is at most `M`. -/
theorem ewmst0_bounds (decay : Int → ℚ) (hd : ∀ d, 0 ≤ decay d ∧ decay d ≤ 1) (ts : List Int) (y : List (Option ℚ)) (M : ℚ)
    (hM : ∀ v, some v ∈ y → v * v ≤ M) (hM0 : 0 ≤ M) (i : Nat) :
    0 ≤ (ewmst0State decay ts y i).1 ∧ (ewmst0State decay ts y i).1 ≤ M * (ewmst0State decay ts y i).2 ∧
      0 ≤ (ewmst0State decay ts y i).2 ∧ (ewmst0State decay ts y i).2 ≤ 1 := by
  induction i with
  | zero => simp [ewmst0State]
  | succ i ih =>
    obtain ⟨u0, u1, v0, v1⟩ := ih
    obtain ⟨q0, q1⟩ := hd (ts.getD (i + 1) 0 - ts.getD (i + 1 - 1) 0)
    change 0 ≤ decayAt decay ts (i + 1) at q0
    change decayAt decay ts (i + 1) ≤ 1 at q1
    have k1 := mul_le_mul_of_nonneg_left u1 q0
    have k2 := mul_le_mul_of_nonneg_left v1 q0
    rw [ewmst0State]
    cases hy : y.getD (i + 1) none with
    | none =>
      simp only
      exact ⟨mul_nonneg q0 u0, by linarith, mul_nonneg q0 v0, by linarith⟩
    | some v =>
      have hv : v * v ≤ M := hM v (by
        rw [List.getD_eq_getElem?_getD] at hy
        cases he : y[i + 1]? with
        | none => rw [he] at hy; cases hy
        | some z => rw [he] at hy; simp only [Option.getD_some] at hy; rw [← hy]; exact List.mem_of_getElem? he)
      have k3 := mul_le_mul_of_nonneg_left hv (by linarith : 0 ≤ 1 - decayAt decay ts (i + 1))
      simp only
      exact ⟨add_nonneg (mul_nonneg (by linarith) (mul_self_nonneg v)) (mul_nonneg q0 u0), by linarith,
        add_nonneg (by linarith) (mul_nonneg q0 v0), by linarith⟩

/-- **C138.** The two sums are within `2 i + 1` and `2 i` roundings of the exact sums for the weights that are used. -/
theorem C138_sums (decay : Int → ℚ) (hd : UnitDecay decay) (ts : List Int) (y : List (Option ℚ)) (i : Nat) :
    Rounds (2 * i + 1) (ewmst0State (fun d => mean0Keep64 (decay d)) ts y i).1 (mean0State64 decay ts y i).1 ∧
    Rounds (2 * i) (ewmst0State (fun d => mean0Keep64 (decay d)) ts y i).2 (mean0State64 decay ts y i).2 := by
  induction i with
  | zero => simp [ewmst0State, mean0State64, Rounds]
  | succ i ih =>
    obtain ⟨ih1, ih2⟩ := ih
    obtain ⟨d1, d2, d3⟩ := hd (ts.getD (i + 1) 0 - ts.getD (i + 1 - 1) 0)
    obtain ⟨w1, w2, w3, -, -⟩ := C138_weights _ d1 d2 d3
    have hU : 0 ≤ (ewmst0State (fun d => mean0Keep64 (decay d)) ts y i).1 ∧ 0 ≤ (ewmst0State (fun d => mean0Keep64 (decay d)) ts y i).2 := by
      have hp : ∀ d, 0 ≤ mean0Keep64 (decay d) ∧ mean0Keep64 (decay d) ≤ 1 := fun d => by
        obtain ⟨e1, e2, e3⟩ := hd d
        exact ⟨(C138_weights _ e1 e2 e3).2.1, (C138_weights _ e1 e2 e3).2.2.1⟩
      clear ih1 ih2
      induction i with
      | zero => simp [ewmst0State]
      | succ i ih =>
        obtain ⟨e1, e2, e3⟩ := hd (ts.getD (i + 1) 0 - ts.getD (i + 1 - 1) 0)
        obtain ⟨i1, i2⟩ := ih e1 e2 e3 (C138_weights _ e1 e2 e3).1 (C138_weights _ e1 e2 e3).2.1 (C138_weights _ e1 e2 e3).2.2.1
        have q0 : 0 ≤ decayAt (fun d => mean0Keep64 (decay d)) ts (i + 1) := (hp _).1
        have q1 : decayAt (fun d => mean0Keep64 (decay d)) ts (i + 1) ≤ 1 := (hp _).2
        rw [ewmst0State]
        cases y.getD (i + 1) none with
        | none => exact ⟨mul_nonneg q0 i1, mul_nonneg q0 i2⟩
        | some v => exact ⟨add_nonneg (mul_nonneg (by linarith) (mul_self_nonneg v)) (mul_nonneg q0 i1), add_nonneg (by linarith) (mul_nonneg q0 i2)⟩
    obtain ⟨hU, hV⟩ := hU
    rw [ewmst0State, mean0State64]
    have ek : decayAt (fun d => mean0Keep64 (decay d)) ts (i + 1) = mean0Keep64 (decayAt decay ts (i + 1)) := rfl
    have ea : 1 - mean0Keep64 (decayAt decay ts (i + 1)) = mean0Alpha64 (decayAt decay ts (i + 1)) := by
      have : mean0Alpha64 (decayAt decay ts (i + 1)) + mean0Keep64 (decayAt decay ts (i + 1)) = 1 := w1
      linarith
    have k0 : 0 ≤ mean0Keep64 (decayAt decay ts (i + 1)) := w2
    have a0 : 0 ≤ mean0Alpha64 (decayAt decay ts (i + 1)) := by
      have : mean0Keep64 (decayAt decay ts (i + 1)) ≤ 1 := w3
      linarith
    simp only [ek, ea]
    generalize mean0Keep64 (decayAt decay ts (i + 1)) = k at *
    generalize mean0Alpha64 (decayAt decay ts (i + 1)) = a at *
    have r1 := (ih1.mul_left k0).f64 (mul_nonneg k0 hU)
    have r2 := (ih2.mul_left k0).f64 (mul_nonneg k0 hV)
    cases y.getD (i + 1) none with
    | none =>
      exact ⟨r1.mono (mul_nonneg k0 hU) (by omega), r2.mono (mul_nonneg k0 hV) (by omega)⟩
    | some v =>
      have vv := mul_self_nonneg v
      have r3 := ((((Rounds.refl (v * v)).f64 vv).mul_left a0).f64 (mul_nonneg a0 vv)).mono (mul_nonneg a0 vv) (show 0 + 1 + 1 ≤ 2 * i + 1 + 1 by omega)
      have r4 := (r3.add r1).f64 (add_nonneg (mul_nonneg a0 vv) (mul_nonneg k0 hU))
      have r5 := (((Rounds.refl a).mono a0 (Nat.zero_le (2 * i + 1))).add r2).f64 (add_nonneg a0 (mul_nonneg k0 hV))
      exact ⟨r4.mono (add_nonneg (mul_nonneg a0 vv) (mul_nonneg k0 hU)) (by omega), r5.mono (add_nonneg a0 (mul_nonneg k0 hV)) (by omega)⟩

example : mean0State64 (fun _ => 1 / 2) [0, 1, 2] [none, some 3, some 1] 2 = (11 / 4, 3 / 4) := by decide +kernel

/-- **C138.** The weights that are used change the exact sums by at most `2^-52 M` and `2^-52`, at every position: a weight of the past that
is not exact is below one half, so that earlier errors are halved. -/
theorem C138_weights_effect (decay : Int → ℚ) (hd : UnitDecay decay) (ts : List Int) (y : List (Option ℚ)) (M : ℚ)
    (hM : ∀ v, some v ∈ y → v * v ≤ M) (hM0 : 0 ≤ M) (i : Nat) :
    |(ewmst0State (fun d => mean0Keep64 (decay d)) ts y i).1 - (ewmst0State decay ts y i).1| ≤ M / 2 ^ 52 ∧
    |(ewmst0State (fun d => mean0Keep64 (decay d)) ts y i).2 - (ewmst0State decay ts y i).2| ≤ 1 / 2 ^ 52 := by
  have hp : ∀ d, 0 ≤ mean0Keep64 (decay d) ∧ mean0Keep64 (decay d) ≤ 1 := fun d => by
    obtain ⟨e1, e2, e3⟩ := hd d
    exact ⟨(C138_weights _ e1 e2 e3).2.1, (C138_weights _ e1 e2 e3).2.2.1⟩
  -- one step for a sum with new entry `x` between 0 and `B`
  have step : ∀ (q k u' u x B : ℚ), 0 ≤ q → q ≤ 1 → (1 / 2 ≤ q → k = q) → |k - q| ≤ 1 / 2 ^ 53 → 0 ≤ u' → u' ≤ B → 0 ≤ x → x ≤ B → |u' - u| ≤ B / 2 ^ 52 →
      |((1 - k) * x + k * u') - ((1 - q) * x + q * u)| ≤ B / 2 ^ 52 := by
    intro q k u' u x B q0 q1 hk hkq hu0 huB hx0 hxB hD
    have e : ((1 - k) * x + k * u') - ((1 - q) * x + q * u) = (k - q) * (u' - x) + q * (u' - u) := by ring
    rw [e]
    have hB : 0 ≤ B := hx0.trans hxB
    have hDB := abs_nonneg (u' - u)
    rcases le_or_gt (1 / 2) q with h | h
    · rw [hk h, sub_self, zero_mul, zero_add, abs_mul, abs_of_nonneg q0]
      calc q * |u' - u| ≤ 1 * |u' - u| := by gcongr
        _ ≤ _ := by linarith
    · have hux : |u' - x| ≤ B := abs_le.mpr ⟨by linarith, by linarith⟩
      calc |(k - q) * (u' - x) + q * (u' - u)| ≤ |(k - q) * (u' - x)| + |q * (u' - u)| := abs_add_le _ _
        _ = |k - q| * |u' - x| + q * |u' - u| := by rw [abs_mul, abs_mul, abs_of_nonneg q0]
        _ ≤ 1 / 2 ^ 53 * B + 1 / 2 * (B / 2 ^ 52) := by gcongr
        _ = B / 2 ^ 52 := by ring
  induction i with
  | zero => simp [ewmst0State]; exact div_nonneg hM0 (by positivity)
  | succ i ih =>
    obtain ⟨ih1, ih2⟩ := ih
    obtain ⟨d1, d2, d3⟩ := hd (ts.getD (i + 1) 0 - ts.getD (i + 1 - 1) 0)
    obtain ⟨-, -, -, w4, w5⟩ := C138_weights _ d1 d2 d3
    obtain ⟨b0, b1, b2, b3⟩ := ewmst0_bounds (fun d => mean0Keep64 (decay d)) hp ts y M hM hM0 i
    have b1' : (ewmst0State (fun d => mean0Keep64 (decay d)) ts y i).1 ≤ M := b1.trans (by nlinarith)
    have ek : decayAt (fun d => mean0Keep64 (decay d)) ts (i + 1) = mean0Keep64 (decayAt decay ts (i + 1)) := rfl
    rw [ewmst0State, ewmst0State]
    simp only [ek]
    change 0 ≤ decayAt decay ts (i + 1) at d2
    change decayAt decay ts (i + 1) ≤ 1 at d3
    change 1 / 2 ≤ decayAt decay ts (i + 1) → mean0Keep64 (decayAt decay ts (i + 1)) = decayAt decay ts (i + 1) at w4
    change |mean0Keep64 (decayAt decay ts (i + 1)) - decayAt decay ts (i + 1)| ≤ _ at w5
    generalize mean0Keep64 (decayAt decay ts (i + 1)) = k at *
    generalize decayAt decay ts (i + 1) = q at *
    cases hy : y.getD (i + 1) none with
    | none =>
      have s1 := step q k _ _ 0 M d2 d3 w4 w5 b0 b1' le_rfl hM0 ih1
      have s2 := step q k _ _ 0 1 d2 d3 w4 w5 b2 b3 le_rfl zero_le_one ih2
      simp only [mul_zero, zero_add] at s1 s2
      exact ⟨s1, s2⟩
    | some v =>
      have hv : v * v ≤ M := hM v (by
        rw [List.getD_eq_getElem?_getD] at hy
        cases he : y[i + 1]? with
        | none => rw [he] at hy; cases hy
        | some z => rw [he] at hy; simp only [Option.getD_some] at hy; rw [← hy]; exact List.mem_of_getElem? he)
      have s1 := step q k _ _ (v * v) M d2 d3 w4 w5 b0 b1' (mul_self_nonneg v) hv ih1
      have s2 := step q k _ _ 1 1 d2 d3 w4 w5 b2 b3 zero_le_one le_rfl ih2
      simp only [mul_one] at s2
      exact ⟨s1, s2⟩

example : UnitDecay (fun _ => 1 / 2) ∧ ∀ v, some v ∈ ([none, some 3, some 1] : List (Option ℚ)) → v * v ≤ 9 := by
  refine ⟨fun d => ⟨show f64 (1 / 2) = 1 / 2 by decide +kernel, by norm_num, by norm_num⟩, fun v hv => ?_⟩
  simp only [List.mem_cons, Option.some.injEq, List.not_mem_nil, or_false, reduceCtorEq, false_or] at hv
  rcases hv with rfl | rfl <;> norm_num

/-- **C138.** Accuracy: where the exact weights sum to `V ≥ 2^-51`, there is a float64 variance and it is within
`M (8 i + 3 + 8 / V) 2^-53` of the exact one, for observations with squares up to `M`. -/
theorem C138_accuracy (decay : Int → ℚ) (hd : UnitDecay decay) (ts : List Int) (y : List (Option ℚ)) (M : ℚ)
    (hM : ∀ v, some v ∈ y → v * v ≤ M) (hM0 : 0 ≤ M) (i : Nat) (hi : i ≤ 2 ^ 40) (hV : 1 / 2 ^ 51 ≤ (ewmst0State decay ts y i).2) :
    ∃ x, mean0Var64 (mean0State64 decay ts y i) = some x ∧
      |x - (ewmst0State decay ts y i).1 / (ewmst0State decay ts y i).2| ≤ M * (8 * i + 3 + 8 / (ewmst0State decay ts y i).2) / 2 ^ 53 := by
  have hp : ∀ d, 0 ≤ mean0Keep64 (decay d) ∧ mean0Keep64 (decay d) ≤ 1 := fun d => by
    obtain ⟨e1, e2, e3⟩ := hd d
    exact ⟨(C138_weights _ e1 e2 e3).2.1, (C138_weights _ e1 e2 e3).2.2.1⟩
  obtain ⟨b0, b1, b2, b3⟩ := ewmst0_bounds (fun d => mean0Keep64 (decay d)) hp ts y M hM hM0 i
  obtain ⟨c0, c1, c2, c3⟩ := ewmst0_bounds decay (fun d => (hd d).2) ts y M hM hM0 i
  obtain ⟨r1, r2⟩ := C138_sums decay hd ts y i
  obtain ⟨p1, p2⟩ := C138_weights_effect decay hd ts y M hM hM0 i
  generalize (ewmst0State decay ts y i).1 = U at *
  generalize (ewmst0State decay ts y i).2 = V at *
  generalize (ewmst0State (fun d => mean0Keep64 (decay d)) ts y i).1 = U' at *
  generalize (ewmst0State (fun d => mean0Keep64 (decay d)) ts y i).2 = V' at *
  generalize mean0State64 decay ts y i = s at *
  have hV0 : 0 < V := lt_of_lt_of_le (by positivity) hV
  have hV' : V / 2 ≤ V' := by
    have := (abs_le.mp p2).1
    have e : (1 : ℚ) / 2 ^ 51 = 2 * (1 / 2 ^ 52) := by norm_num
    rw [e] at hV
    linarith
  have hV'0 : 0 < V' := by linarith
  have hs : 0 < s.2 := (r2.pos_iff hV'0.le).mpr hV'0
  refine ⟨f64 (s.1 / s.2), by unfold mean0Var64; rw [if_pos hs], ?_⟩
  have rq := (Rounds.quot b0 hV'0 r1 r2).f64 (div_nonneg b0 hV'0.le)
  have err := rq.absErr (div_nonneg b0 hV'0.le) (by omega)
  have hq : U' / V' ≤ M := by rw [div_le_iff₀ hV'0]; exact b1
  have hiq : (0 : ℚ) ≤ i := by positivity
  have e1 : |f64 (s.1 / s.2) - U' / V'| ≤ M * ((8 * i + 3) / 2 ^ 53) := by
    refine err.trans ?_
    have hU'V' := div_nonneg b0 hV'0.le
    apply mul_le_mul hq _ (by positivity) hM0
    push_cast
    gcongr
    linarith
  have e2 : |U' / V' - U / V| ≤ M * (8 / V / 2 ^ 53) := by
    have e : U' / V' - U / V = ((U' - U) * V + U * (V - V')) / (V' * V) := by field_simp; ring
    rw [e, abs_div, abs_of_pos (mul_pos hV'0 hV0), div_le_iff₀ (mul_pos hV'0 hV0)]
    have n1 : |(U' - U) * V + U * (V - V')| ≤ M / 2 ^ 52 * V + M * V * (1 / 2 ^ 52) := by
      refine (abs_add_le _ _).trans ?_
      rw [abs_mul, abs_mul, abs_of_pos hV0, abs_of_nonneg c0, abs_sub_comm V V']
      gcongr
    refine n1.trans ?_
    calc M / 2 ^ 52 * V + M * V * (1 / 2 ^ 52) = M * (8 / V / 2 ^ 53) * (V / 2 * V) := by field_simp; ring
      _ ≤ M * (8 / V / 2 ^ 53) * (V' * V) := by gcongr
  calc |f64 (s.1 / s.2) - U / V| = |(f64 (s.1 / s.2) - U' / V') + (U' / V' - U / V)| := by congr 1; ring
    _ ≤ _ := abs_add_le _ _
    _ ≤ M * ((8 * i + 3) / 2 ^ 53) + M * (8 / V / 2 ^ 53) := add_le_add e1 e2
    _ = _ := by ring

example : (1 : ℚ) / 2 ^ 51 ≤ (ewmst0State (fun _ => 1 / 2) [0, 1, 2] [none, some (3 : ℚ), some 1] 2).2 ∧ f64 (1 / 2) = 1 / 2 ∧
    mean0Var64 (mean0State64 (fun _ => 1 / 2) [0, 1, 2] [none, some 3, some 1] 2) = some (f64 (11 / 3)) := by decide +kernel

/-- **C138.** The deviation is missing wherever the exact weights sum to 0, and every value is at least the floor. -/
theorem C138_missing (sqrt64 : ℚ → ℚ) (decay : Int → ℚ) (hd : UnitDecay decay) (floor : ℚ) (ts : List Int) (y : List (Option ℚ)) (i : Nat)
    (hi : i < y.length) :
    ((ewmst0State decay ts y i).2 = 0 → (ewmstMean064 sqrt64 decay floor ts y)[i]? = some none) ∧
    (∀ x, (ewmstMean064 sqrt64 decay floor ts y)[i]? = some (some x) → floor ≤ x) := by
  have hk0 : mean0Keep64 0 = 0 := by decide +kernel
  have hk1 : mean0Keep64 1 = 1 := by decide +kernel
  have ha1 : mean0Alpha64 1 = 0 := by decide +kernel
  have zero : ∀ i, (ewmst0State decay ts y i).2 = 0 → (mean0State64 decay ts y i).2 = 0 := by
    intro i
    induction i with
    | zero => intro _; rfl
    | succ i ih =>
      obtain ⟨d1, d2, d3⟩ := hd (ts.getD (i + 1) 0 - ts.getD (i + 1 - 1) 0)
      change 0 ≤ decayAt decay ts (i + 1) at d2
      change decayAt decay ts (i + 1) ≤ 1 at d3
      have hv := (ewmst0_bounds decay (fun d => (hd d).2) ts (y.map (fun _ => none)) 0 (by simp) le_rfl i).2.2.1
      have hV : 0 ≤ (ewmst0State decay ts y i).2 := by
        clear ih
        induction i with
        | zero => simp [ewmst0State]
        | succ i ih =>
          obtain ⟨e1, e2, e3⟩ := hd (ts.getD (i + 1) 0 - ts.getD (i + 1 - 1) 0)
          change 0 ≤ decayAt decay ts (i + 1) at e2
          change decayAt decay ts (i + 1) ≤ 1 at e3
          have := ih e1 e2 e3 (ewmst0_bounds decay (fun d => (hd d).2) ts (y.map (fun _ => none)) 0 (by simp) le_rfl i).2.2.1
          rw [ewmst0State]
          cases y.getD (i + 1) none with
          | none => exact mul_nonneg e2 this
          | some v => exact add_nonneg (by linarith) (mul_nonneg e2 this)
      rw [ewmst0State, mean0State64]
      generalize decayAt decay ts (i + 1) = q at *
      cases y.getD (i + 1) none with
      | none =>
        simp only [mul_eq_zero]
        rintro (h | h)
        · rw [h, hk0, zero_mul, f64_zero]
        · rw [ih h, mul_zero, f64_zero]
      | some v =>
        simp only
        intro h
        have hq : q * (ewmst0State decay ts y i).2 = 0 := by linarith [mul_nonneg d2 hV]
        have h1 : q = 1 := by linarith
        rw [h1, one_mul] at hq
        rw [h1, ha1, ih hq, mul_zero, f64_zero, add_zero, f64_zero]
  unfold ewmstMean064
  rw [tabulate_get?, if_pos hi]
  constructor
  · intro h
    split
    · rfl
    · unfold mean0Var64
      rw [zero i h, if_neg (lt_irrefl _)]
      rfl
  · intro x hx
    split at hx
    · cases hx
    · unfold mean0Var64 at hx
      split at hx
      · simp only [Option.map_some, Option.some.injEq] at hx
        rw [← hx]
        unfold floorStd
        simp only
        generalize (if f64 ((mean0State64 decay ts y i).1 / (mean0State64 decay ts y i).2) < 0 then 0
          else f64 ((mean0State64 decay ts y i).1 / (mean0State64 decay ts y i).2)) = v
        split_ifs with h
        · exact le_rfl
        · exact not_lt.mp h
      · cases hx

example : (ewmst0State (fun _ => 1) [0, 0] [none, some (3 : ℚ)] 1).2 = 0 ∧
    ewmstMean064 (fun x => x) (fun _ => 1) 0 [0, 0] [none, some 3] = [none, none] := by decide +kernel

/-- **C138, violation.** A long gap followed by a missing observation erases the estimate: with an exponential of `2^-60` for the gap the
exact deviation stays at that of the observation before (the decay alone changes nothing), the float64 one is missing. -/
theorem C138_gap_forgotten :
    let decay : Int → ℚ := fun d => if d = 1 then 1 / 2 else 1 / 2 ^ 60
    ewmstMean0 (fun x => x) decay (1 / 10 ^ 12) [0, 1, 61] [none, some 1, none] = [none, some 1, some 1] ∧
    ewmstMean064 (fun x => x) decay (1 / 10 ^ 12) [0, 1, 61] [none, some 1, none] = [none, some 1, none] := by
  decide +kernel

end FinML
