/-
C141: the column of lagged returns in float64 arithmetic (`finmlkit/feature/core/utils.py:12-64`).
-/
import Verif.Props.LaggedReturns
import Verif.Props.Parkinson64
import Verif.Props.Search64

set_option linter.unusedSectionVars false

namespace FinML

/-- **C141.** On sorted microsecond timestamps and a window of whole seconds the float64 column has the returns of the exact column: at every
position both are missing, or both are the return of the price there against the same earlier price. -/
theorem C141_column (log log64 : ℚ → ℚ) (ts : List Int) (close : List ℚ) (n : Int) (isLog : Bool) (hn : 0 < n) (hs : ts.Pairwise (· ≤ ·))
    (hlen : ts.length = close.length) (hts : ∀ t ∈ ts, InEra t ∧ 1000 ∣ t) (h1 : InEra (ts.headD 0 + n * 1000000000)) :
    ∃ out out64, laggedReturns log ts close (n * 1000000000) isLog = .ok out ∧ laggedReturns64 log64 ts close n isLog = .ok out64 ∧
      out.length = close.length ∧ out64.length = close.length ∧
      ∀ (i : Nat) (c : ℚ), close[i]? = some c → (out[i]? = some .nan ∧ out64[i]? = some .nan) ∨
        ∃ (j : Nat) (b : ℚ), j < i ∧ close[j]? = some b ∧ out[i]? = some (returnOf log isLog b c) ∧ out64[i]? = some (retOf64 log64 isLog b c) := by
  obtain ⟨out, e1, e2, e3⟩ := laggedReturns_get log ts close (n * 1000000000) isLog (by omega)
  refine ⟨out, _, e1, by unfold laggedReturns64; rw [if_neg (by push_cast; exact not_le.mpr (by exact_mod_cast hn))], e2, length_tabulate _ _, ?_⟩
  intro i c hc
  have hi : i < close.length := (List.getElem?_eq_some_iff.mp hc).1
  have hgc : close.getD i 0 = c := by rw [List.getD_eq_getElem?_getD, hc]; rfl
  have hit : i < ts.length := by omega
  rw [e3 i hi, tabulate_get?, if_pos hi]
  have h0 : ts.headD 0 = ts.getD 0 0 := by cases ts <;> rfl
  have hm0 : ts.headD 0 ∈ ts := by
    cases ts with
    | nil => simp at hit
    | cons a t => simp
  have hst : lagStart64 ts (n : ℚ) = searchLeft ts (ts.getD 0 0 + n * 1000000000) := by
    rw [C87_lag_start ts n hn.le hts (hts _ hm0).1 (hts _ hm0).2 h1, h0]
  rw [hst]
  by_cases hlt : i < searchLeft ts (ts.getD 0 0 + n * 1000000000)
  · left
    rw [if_pos hlt, if_pos hlt]
    exact ⟨rfl, rfl⟩
  rw [if_neg hlt, if_neg hlt]
  have hgi : ts.getD i 0 = ts[i] := List.getD_eq_getElem _ _ _
  have hge : ts.getD 0 0 + n * 1000000000 ≤ ts[i] := by
    rw [lt_searchLeft hs _ i hit] at hlt
    omega
  have hE := hts _ (List.getElem_mem hit)
  have hE0 := (hts _ hm0).1
  rw [h0] at hE0
  have hEl : InEra (ts[i] - n * 1000000000) := ⟨by have := hE0.1; omega, by have := hE.1.2; omega⟩
  have hlag : lagIdx64 ts ts[i] (n : ℚ) = (searchRight ts (ts[i] - n * 1000000000) : Int) - 1 := by
    have h64 := C87_lag_spec ts ts[i] n hn.le hs hts hE.1 hE.2 hEl
    have hx : ∀ j, (hj : j < ts.length) → ((j : Int) ≤ lagIdx64 ts ts[i] n ↔ j < searchRight ts (ts[i] - n * 1000000000)) := by
      intro j hj
      rw [h64 j hj, lt_searchRight hs _ j hj]
    have l1 : searchRight64 ts (f64 (f64 (ts[i] : ℚ) - f64 ((n : ℚ) * 1000000000))) ≤ ts.length := by
      unfold searchRight64
      exact (List.takeWhile_sublist _).length_le
    have l2 := searchRight_le_length ts (ts[i] - n * 1000000000)
    have hd : lagIdx64 ts ts[i] n = (searchRight64 ts (f64 (f64 (ts[i] : ℚ) - f64 ((n : ℚ) * 1000000000))) : Int) - 1 := rfl
    rw [hd] at hx ⊢
    generalize searchRight64 ts (f64 (f64 (ts[i] : ℚ) - f64 ((n : ℚ) * 1000000000))) = a at *
    generalize searchRight ts (ts[i] - n * 1000000000) = b at *
    have : a = b := by
      rcases lt_trichotomy a b with h | h | h
      · have := (hx a (by omega)).mpr h; omega
      · exact h
      · have := (hx b (by omega)).mp (by omega); omega
    rw [this]
  rw [hgi, hlag, hgc]
  simp only
  by_cases hr : 0 ≤ (searchRight ts (ts[i] - n * 1000000000) : Int) - 1 ∧ (searchRight ts (ts[i] - n * 1000000000) : Int) - 1 < (i : Int)
  · right
    rw [if_pos hr, if_pos hr]
    obtain ⟨j, hj⟩ : ∃ j : Nat, (searchRight ts (ts[i] - n * 1000000000) : Int) - 1 = (j : Int) := ⟨_, (Int.toNat_of_nonneg hr.1).symm⟩
    rw [hj] at hr ⊢
    have hji : j < i := by omega
    have hb : close[j]? = some (close.getD j 0) := by
      rw [List.getD_eq_getElem?_getD, List.getElem?_eq_getElem (by omega)]
      rfl
    exact ⟨j, _, hji, hb, by rw [Int.toNat_natCast], by rw [Int.toNat_natCast]⟩
  · left
    rw [if_neg hr, if_neg hr]
    exact ⟨rfl, rfl⟩

example : ([1700000000000000000, 1700000003000000000, 1700000004000000000] : List Int).Pairwise (· ≤ ·) ∧
    laggedReturns64 (fun x => x) [1700000000000000000, 1700000003000000000, 1700000004000000000] [4, 5, 6] 3 false =
      .ok [.nan, .fin (1 / 4), .fin (1 / 2)] := by decide +kernel

/-- **C141.** A simple return of positive prices has the sign of the price change and is within `3 (c / b + 1) 2^-53` of the exact one. -/
theorem C141_simple (log log64 : ℚ → ℚ) (b c : ℚ) (hb : f64 b = b) (hc : f64 c = c) (hb0 : 0 < b) (hc0 : 0 < c) :
    ∃ r r64, returnOf log false b c = .fin r ∧ retOf64 log64 false b c = .fin r64 ∧ |r64 - r| ≤ 3 / 2 ^ 53 * (c / b + 1) ∧
      (r64 < 0 ↔ c < b) ∧ (r64 = 0 ↔ c = b) ∧ (0 < r64 ↔ b < c) := by
  refine ⟨c / b - 1, ratioRet64 c b, by unfold returnOf; rw [if_pos hb0.ne']; rfl, by unfold retOf64; rw [if_pos hb0.ne']; rfl,
    C133_ratio_error c b hc0.le hb0, ?_⟩
  have := C133_ratio_sign c b hc hb hc0 hb0
  tauto

example : retOf64 (fun x => x) false 3 4 = .fin (f64 (f64 (4 / 3) - 1)) ∧ f64 3 = 3 ∧ f64 4 = 4 := by decide +kernel

/-- **C141.** A log return of positive prices has the sign of the price change and is within `(|log (c / b)| + 2) 2^-52` of the exact one, for
every logarithm that is accurate to `2^-52`. -/
theorem C141_log (log64 : ℚ → ℚ) (hl : LogAccurate log64) (b c : ℚ) (hb : f64 b = b) (hc : f64 c = c) (hb0 : 0 < b) (hc0 : 0 < c) :
    ∃ r64, retOf64 log64 true b c = .fin r64 ∧ |(r64 : ℝ) - Real.log ((c : ℝ) / b)| ≤ (|Real.log ((c : ℝ) / b)| + 2) / 2 ^ 52 ∧
      (r64 < 0 ↔ c < b) ∧ (r64 = 0 ↔ c = b) ∧ (0 < r64 ↔ b < c) := by
  have hq : 0 < c / b := div_pos hc0 hb0
  refine ⟨log64 (f64 (c / b)), by unfold retOf64; rw [if_pos hb0.ne']; rfl, ?_, ?_⟩
  · have := ret64_err log64 hl (c / b) hq _ le_rfl
    push_cast at this
    exact this
  have hz := logAccurate_zero log64 hl (f64 (c / b)) (f64_pos' hq)
  rw [f64_div_eq_one c b hc hb hc0 hb0] at hz
  have hacc := hl (f64 (c / b)) (f64_pos' hq)
  have f1 : f64 1 = 1 := by decide +kernel
  have hne := f64_div_eq_one c b hc hb hc0 hb0
  have up : b < c → 0 < log64 (f64 (c / b)) := by
    intro h
    have h1 : 1 < f64 (c / b) := lt_of_le_of_ne (by rw [← f1]; exact f64_mono (by rw [le_div_iff₀ hb0]; linarith)) (fun h' => h.ne' (hne.mp h'.symm))
    have h2 : 0 < Real.log (f64 (c / b) : ℚ) := Real.log_pos (by exact_mod_cast h1)
    rw [abs_of_pos h2] at hacc
    have h3 := (abs_le.mp hacc).1
    have h4 : Real.log (f64 (c / b) : ℚ) / 2 ^ 52 < Real.log (f64 (c / b) : ℚ) := div_lt_self h2 (by norm_num)
    have : (0 : ℝ) < log64 (f64 (c / b)) := by linarith
    exact_mod_cast this
  have down : c < b → log64 (f64 (c / b)) < 0 := by
    intro h
    have h1 : f64 (c / b) < 1 := lt_of_le_of_ne (by rw [← f1]; exact f64_mono (by rw [div_le_iff₀ hb0]; linarith)) (fun h' => h.ne (hne.mp h'))
    have h2 : Real.log (f64 (c / b) : ℚ) < 0 := Real.log_neg (by exact_mod_cast f64_pos' hq) (by exact_mod_cast h1)
    rw [abs_of_neg h2] at hacc
    have h3 := (abs_le.mp hacc).2
    have h4 : -Real.log (f64 (c / b) : ℚ) / 2 ^ 52 < -Real.log (f64 (c / b) : ℚ) := div_lt_self (by linarith) (by norm_num)
    have : (log64 (f64 (c / b)) : ℝ) < 0 := by linarith
    exact_mod_cast this
  generalize log64 (f64 (c / b)) = r at *
  refine ⟨⟨fun h => ?_, down⟩, hz, ⟨fun h => ?_, up⟩⟩
  · rcases lt_trichotomy c b with h' | h' | h'
    · exact h'
    · linarith [hz.mpr h']
    · linarith [up h']
  · rcases lt_trichotomy c b with h' | h' | h'
    · linarith [down h']
    · linarith [hz.mpr h']
    · exact h'

example : ∃ log64, LogAccurate log64 ∧ f64 (401 / 4) = 401 / 4 ∧ f64 100 = 100 :=
  logAccurate_exists.imp fun _ h => ⟨h, by decide +kernel, by decide +kernel⟩

/-- **C141.** A base price of zero gives infinity in both columns. -/
theorem C141_zero_base (log log64 : ℚ → ℚ) (isLog : Bool) (c : ℚ) : returnOf log isLog 0 c = .pinf ∧ retOf64 log64 isLog 0 c = .pinf := by
  unfold returnOf retOf64
  simp

/-- **C141, violation.** With a window that is not a whole number of seconds the column may differ from the exact one: a bar exactly half a
second after the first has an exact return but no float64 return. -/
theorem C141_half_second :
    laggedReturns (fun x => x) [1700000040006000000, 1700000040506000000] [(4 : ℚ), 5] 500000000 false = .ok [.nan, .fin (1 / 4)] ∧
    laggedReturns64 (fun x => x) [1700000040006000000, 1700000040506000000] [4, 5] (1 / 2) false = .ok [.nan, .nan] := by
  decide +kernel

end FinML
