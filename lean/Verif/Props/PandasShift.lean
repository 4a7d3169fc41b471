import Verif.Model.PandasFeatures
import Verif.Lemmas.Indicators
import Verif.Props.Ewma
import Mathlib.Tactic.Positivity

/-!
# C69: lags, returns and bar durations
-/

set_option linter.unusedSectionVars false

namespace FinML

variable {K : Type} [Field K] [LinearOrder K] [IsStrictOrderedRing K]

theorem getD_eq_none_of_le {α : Type} (xs : List (Option α)) (i : Nat) (h : xs.length ≤ i) : xs.getD i none = none := by
  rw [List.getD_eq_getElem?_getD, List.getElem?_eq_none h]; rfl

/-- A non-negative lag of `p` bars: entry `i` is the value `p` bars earlier, missing for the first `p` bars. -/
theorem C69_lag (p : Nat) (xs : List (Option K)) (i : Nat) (hi : i < xs.length) :
    (pdShift (p : Int) xs)[i]? = some (if i < p then none else xs.getD (i - p) none) := by
  unfold pdShift
  rw [tabulate_get?, if_pos hi]
  congr 1
  by_cases h : i < p
  · rw [if_pos h, if_pos (by omega)]
  · rw [if_neg h, if_neg (by omega)]
    congr 1; omega

example : pdShift 1 ([some 1, none, some 3] : List (Option ℚ)) = [none, some 1, none] := by decide +kernel

/-- Lags compose by adding. -/
theorem C69_lag_compose (p q : Nat) (xs : List (Option K)) : pdShift (p : Int) (pdShift (q : Int) xs) = pdShift ((p + q : Nat) : Int) xs := by
  apply List.ext_getElem?
  intro i
  have hl : ∀ r : Int, (pdShift r xs).length = xs.length := fun r => length_tabulate _ _
  by_cases hi : i < xs.length
  · rw [C69_lag p _ i (by rw [hl]; exact hi), C69_lag (p + q) xs i hi]
    congr 1
    by_cases h : i < p
    · rw [if_pos h, if_pos (by omega)]
    · rw [if_neg h, List.getD_eq_getElem?_getD, C69_lag q xs (i - p) (by omega)]
      by_cases h2 : i - p < q
      · rw [if_pos h2, if_pos (by omega)]; rfl
      · rw [if_neg h2, if_neg (by omega)]
        simp only [Option.getD_some]
        congr 1; omega
  · rw [List.getElem?_eq_none (by unfold pdShift; rw [length_tabulate, length_tabulate]; omega), List.getElem?_eq_none (by rw [hl]; omega)]

/-- A non-negative lag uses no later value. -/
theorem C69_lag_causal (p : Nat) (xs : List (Option K)) (k : Nat) : pdShift (p : Int) (xs.take k) = (pdShift (p : Int) xs).take k := by
  unfold pdShift
  rw [List.length_take]
  apply tabulate_causal
  intro i hk hn
  by_cases h : (i : Int) - p < 0
  · rw [if_pos h, if_pos h]
  · rw [if_neg h, if_neg h, getD_take_lt _ _ _ _ (by omega)]

/-- Violation: the sign of the lag is not checked, and a negative lag returns future values. -/
theorem C69_negative_lag_looks_ahead (k : Nat) (xs : List (Option K)) (i : Nat) (hi : i < xs.length) :
    (pdShift (-(k : Int)) xs)[i]? = some (xs.getD (i + k) none) := by
  unfold pdShift
  rw [tabulate_get?, if_pos hi, if_neg (by omega)]
  congr 2; omega

example : pdShift (-1) ([some 1, some 2, some 3] : List (Option ℚ)) = [some 2, some 3, none] := by decide +kernel

/-- Simple and logarithmic returns over `p` bars. -/
theorem C69_return (log : K → K) (p : Nat) (isLog : Bool) (xs : List (Option K)) (i : Nat) (x y : K)
    (hp : p ≤ i) (hx : xs[i]? = some (some x)) (hy : xs[i - p]? = some (some y)) :
    (pdReturn log (p : Int) isLog xs)[i]? = some (some (if isLog then log (x / y) else x / y - 1)) := by
  have hi : i < xs.length := (List.getElem?_eq_some_iff.mp hx).1
  unfold pdReturn
  rw [List.getElem?_zipWith, hx, C69_lag p xs i hi, if_neg (by omega), List.getD_eq_getElem?_getD, hy]
  rfl

example : ([some 2, some 3, some 6] : List (Option ℚ))[2]? = some (some 6) ∧ ([some 2, some 3, some 6] : List (Option ℚ))[2 - 2]? = some (some 2) ∧
    (pdReturn id 2 false ([some 2, some 3, some 6] : List (Option ℚ)))[2]? = some (some 2) := by decide +kernel

/-- The first `p` returns, and returns with a missing end, are missing. -/
theorem C69_return_missing (log : K → K) (p : Nat) (isLog : Bool) (xs : List (Option K)) (i : Nat) (hi : i < xs.length)
    (h : i < p ∨ xs[i]? = some none ∨ xs[i - p]? = some none) :
    (pdReturn log (p : Int) isLog xs)[i]? = some none := by
  unfold pdReturn
  rw [List.getElem?_zipWith, C69_lag p xs i hi]
  obtain ⟨v, hv⟩ : ∃ v, xs[i]? = some v := ⟨xs[i], List.getElem?_eq_getElem hi⟩
  rw [hv]
  by_cases hp : i < p
  · rw [if_pos hp]; cases v <;> rfl
  · rw [if_neg hp]
    rcases h with h | h | h
    · exact absurd h hp
    · rw [hv] at h; cases h; rfl
    · rw [List.getD_eq_getElem?_getD, h]; cases v <;> rfl

example : ([some 2, none, some 6] : List (Option ℚ))[2 - 1]? = some none ∧
    pdReturn id 1 false ([some 2, none, some 6] : List (Option ℚ)) = [none, none, none] := by decide +kernel

/-- Simple returns compound: one plus the return over `p + q` bars is the product of one plus the return over the
last `p` bars and one plus the return over the `q` bars before. -/
theorem C69_return_compounds (log : K → K) (p q : Nat) (xs : List (Option K)) (i : Nat) (x y z : K) (hp : p + q ≤ i)
    (hx : xs[i]? = some (some x)) (hy : xs[i - p]? = some (some y)) (hz : xs[i - p - q]? = some (some z)) (hy0 : y ≠ 0) :
    ∃ r1 r2 r : K, (pdReturn log (p : Int) false xs)[i]? = some (some r1) ∧
      (pdReturn log (q : Int) false xs)[i - p]? = some (some r2) ∧
      (pdReturn log ((p + q : Nat) : Int) false xs)[i]? = some (some r) ∧ 1 + r = (1 + r1) * (1 + r2) := by
  refine ⟨x / y - 1, y / z - 1, x / z - 1, ?_, ?_, ?_, ?_⟩
  · rw [C69_return log p false xs i x y (by omega) hx hy]; rfl
  · rw [C69_return log q false xs (i - p) y z (by omega) hy hz]; rfl
  · rw [C69_return log (p + q) false xs i x z hp hx (by rw [← Nat.sub_sub]; exact hz)]; rfl
  · by_cases h : z = 0
    · subst h; simp
    · field_simp
      ring

example : pdReturn id 1 false ([some 2, some 3, some 6] : List (Option ℚ)) = [none, some (1/2), some 1] ∧
    pdReturn id 2 false ([some 2, some 3, some 6] : List (Option ℚ)) = [none, none, some 2] := by decide +kernel

/-- Logarithmic returns add up (for a logarithm turning products of positive numbers into sums). -/
theorem C69_log_return_adds (log : K → K) (hlog : ∀ a b : K, 0 < a → 0 < b → log (a * b) = log a + log b) (p q : Nat)
    (xs : List (Option K)) (i : Nat) (x y z : K) (hp : p + q ≤ i) (hx : xs[i]? = some (some x))
    (hy : xs[i - p]? = some (some y)) (hz : xs[i - p - q]? = some (some z)) (hx0 : 0 < x) (hy0 : 0 < y) (hz0 : 0 < z) :
    ∃ r1 r2 : K, (pdReturn log (p : Int) true xs)[i]? = some (some r1) ∧
      (pdReturn log (q : Int) true xs)[i - p]? = some (some r2) ∧
      (pdReturn log ((p + q : Nat) : Int) true xs)[i]? = some (some (r1 + r2)) := by
  refine ⟨log (x / y), log (y / z), ?_, ?_, ?_⟩
  · rw [C69_return log p true xs i x y (by omega) hx hy]; rfl
  · rw [C69_return log q true xs (i - p) y z (by omega) hy hz]; rfl
  · rw [C69_return log (p + q) true xs i x z hp hx (by rw [← Nat.sub_sub]; exact hz), ← hlog _ _ (by positivity) (by positivity),
      div_mul_div_cancel₀ hy0.ne']
    rfl

example : let xs : List (Option ℚ) := [some 2, some 3, some 6]
    1 + 1 ≤ 2 ∧ xs[2]? = some (some 6) ∧ xs[2 - 1]? = some (some 3) ∧ xs[2 - 1 - 1]? = some (some 2) := by decide +kernel

/-- Returns over a non-negative number of bars use no later price. -/
theorem C69_return_causal (log : K → K) (p : Nat) (isLog : Bool) (xs : List (Option K)) (k : Nat) :
    pdReturn log (p : Int) isLog (xs.take k) = (pdReturn log (p : Int) isLog xs).take k := by
  unfold pdReturn
  rw [C69_lag_causal, ← List.take_zipWith]

/-- Violation: simple and logarithmic returns of the same length have the same output name, and so does the
one-sample time-based return. -/
theorem C69_return_name_collision (p : Nat) : returnName p true = returnName p false ∧ returnName 1 false = returnTName :=
  ⟨rfl, by decide⟩

/-- The duration over `p` bars in seconds. -/
theorem C69_duration (p : Nat) (ts : List Int) (i : Nat) (a b : Int) (hp : p ≤ i) (ha : ts[i]? = some a) (hb : ts[i - p]? = some b) :
    (barDuration p ts : List (Option K))[i]? = some (some (((a - b : Int) : K) / 1000000000)) := by
  have hi : i < ts.length := (List.getElem?_eq_some_iff.mp ha).1
  unfold barDuration
  rw [tabulate_get?, if_pos hi, if_neg (by omega)]
  simp only [List.getD_eq_getElem?_getD, ha, hb, Option.getD_some]

example : ([0, 500000000, 3000000000] : List Int)[2]? = some 3000000000 ∧ ([0, 500000000, 3000000000] : List Int)[2 - 1]? = some 500000000 ∧
    (barDuration 1 [0, 500000000, 3000000000] : List (Option ℚ)) = [none, some (1 / 2), some (5 / 2)] := by decide +kernel

/-- Durations are missing for the first `p` bars and non-negative on ordered timestamps. -/
theorem C69_duration_nonneg (p : Nat) (ts : List Int) (hs : ts.Pairwise (· ≤ ·)) (i : Nat) (hi : i < ts.length) :
    (i < p → (barDuration p ts : List (Option K))[i]? = some none) ∧
    (p ≤ i → ∃ d : K, (barDuration p ts : List (Option K))[i]? = some (some d) ∧ 0 ≤ d) := by
  constructor
  · intro h
    unfold barDuration
    rw [tabulate_get?, if_pos hi, if_pos h]
  · intro h
    refine ⟨_, C69_duration p ts i _ _ h (List.getElem?_eq_getElem hi) (List.getElem?_eq_getElem (by omega)), ?_⟩
    have h2 : ts[i - p]'(by omega) ≤ ts[i] := by
      rcases Nat.eq_or_lt_of_le (Nat.sub_le i p) with e | e
      · simp only [e, le_refl]
      · exact (List.pairwise_iff_getElem.mp hs) _ _ _ hi e
    have h3 : (0 : K) ≤ ((ts[i] - ts[i - p]'(by omega) : Int) : K) := by exact_mod_cast sub_nonneg.mpr h2
    positivity

example : ([0, 500000000, 500000000] : List Int).Pairwise (· ≤ ·) ∧
    (barDuration 1 [0, 500000000, 500000000] : List (Option ℚ)) = [none, some (1 / 2), some 0] := by decide +kernel

/-- Durations add up. -/
theorem C69_duration_adds (p q : Nat) (ts : List Int) (i : Nat) (hi : i < ts.length) (hp : p + q ≤ i) :
    ∃ d e : K, (barDuration p ts : List (Option K))[i]? = some (some d) ∧ (barDuration q ts : List (Option K))[i - p]? = some (some e) ∧
      (barDuration (p + q) ts : List (Option K))[i]? = some (some (d + e)) := by
  refine ⟨_, _, C69_duration p ts i _ _ (by omega) (List.getElem?_eq_getElem hi) (List.getElem?_eq_getElem (by omega)),
    C69_duration q ts (i - p) _ _ (by omega) (List.getElem?_eq_getElem (by omega)) (List.getElem?_eq_getElem (by omega)), ?_⟩
  rw [C69_duration (p + q) ts i _ (ts[i - p - q]'(by omega)) hp (List.getElem?_eq_getElem hi) (by rw [← Nat.sub_sub]; exact List.getElem?_eq_getElem (by omega))]
  congr 2
  push_cast
  ring

example : (barDuration 1 [0, 1000000000, 3000000000] : List (Option ℚ)) = [none, some 1, some 2] := by decide +kernel

/-- The smoothed duration is missing at the first bar; afterwards it is the weighted mean of all durations so far,
the weight falling by the factor `1 - 2 / (span + 1)` per bar. -/
theorem C69_duration_ewma (span : Nat) (hs : 1 ≤ span) (ts : List Int) (i : Nat) (hi : i + 1 < ts.length) :
    ∃ out : List (Option K), barDurationEwma span ts = .ok out ∧ out.length = ts.length ∧ out[0]? = some none ∧
      out[i + 1]? = some (some
        (((List.range (i + 1)).map (fun j => (1 - 2 / ((span : K) + 1)) ^ j * (((ts.getD (i - j + 1) 0 - ts.getD (i - j) 0 : Int) : K) / 1000000000))).sum
          / ((List.range (i + 1)).map (fun j => (1 - 2 / ((span : K) + 1)) ^ j)).sum)) := by
  obtain ⟨t0, rest, rfl⟩ : ∃ t0 rest, ts = t0 :: rest := by
    cases ts with
    | nil => simp at hi
    | cons a l => exact ⟨a, l, rfl⟩
  set ts := t0 :: rest with hts
  have hlen : ((barDuration 1 ts : List (Option K)).tail.map (fun d => d.getD 0)).length = rest.length := by
    rw [List.length_map, List.length_tail]
    unfold barDuration
    rw [length_tabulate, hts]; simp
  have hget : ∀ j, j < rest.length → ((barDuration 1 ts : List (Option K)).tail.map (fun d => d.getD 0)).getD j 0 =
      ((ts.getD (j + 1) 0 - ts.getD j 0 : Int) : K) / 1000000000 := by
    intro j hj
    have h2 : j + 1 < ts.length := by rw [hts]; simp; omega
    rw [List.getD_eq_getElem?_getD, List.getElem?_map, List.getElem?_tail]
    unfold barDuration
    rw [tabulate_get?, if_pos h2, if_neg (by omega)]
    simp
  obtain ⟨out, ho, hol, hv⟩ := C32_ewma_closed_form ((barDuration 1 ts : List (Option K)).tail.map (fun d => d.getD 0)) span hs
  have hr : rest.length + 1 = ts.length := by rw [hts]; simp
  refine ⟨none :: out.map some, ?_, ?_, rfl, ?_⟩
  · show (ewma _ span).map _ = _
    rw [ho]; rfl
  · rw [List.length_cons, List.length_map, hol, hlen, hr]
  · rw [List.getElem?_cons_succ, List.getElem?_map, hv i (by rw [hlen]; omega), Option.map_some]
    congr 3
    congr 1
    apply List.map_congr_left
    intro j hj
    rw [hget (i - j) (by omega)]

example : (barDurationEwma 3 [0, 1000000000, 3000000000] : Except String (List (Option ℚ))) = .ok [none, some 1, some (5/3)] := by
  decide +kernel

/-- The smoothed duration lies between any bounds of the durations so far. -/
theorem C69_duration_ewma_bounds (span : Nat) (ts : List Int) (i : Nat) (hi : i + 1 < ts.length) (out : List (Option K)) (x lo hi' : K)
    (h : barDurationEwma span ts = .ok out) (hx : out[i + 1]? = some (some x))
    (hlo : ∀ j, j ≤ i → lo ≤ ((ts.getD (j + 1) 0 - ts.getD j 0 : Int) : K) / 1000000000)
    (hhi : ∀ j, j ≤ i → ((ts.getD (j + 1) 0 - ts.getD j 0 : Int) : K) / 1000000000 ≤ hi') : lo ≤ x ∧ x ≤ hi' := by
  obtain ⟨t0, rest, rfl⟩ : ∃ t0 rest, ts = t0 :: rest := by
    cases ts with
    | nil => simp at hi
    | cons a l => exact ⟨a, l, rfl⟩
  have hget : ∀ j, j < rest.length → ((barDuration 1 (t0 :: rest) : List (Option K)).tail.map (fun d => d.getD 0)).getD j 0 =
      (((t0 :: rest).getD (j + 1) 0 - (t0 :: rest).getD j 0 : Int) : K) / 1000000000 := by
    intro j hj
    have h2 : j + 1 < (t0 :: rest).length := by simp; omega
    rw [List.getD_eq_getElem?_getD, List.getElem?_map, List.getElem?_tail]
    unfold barDuration
    rw [tabulate_get?, if_pos h2, if_neg (by omega)]
    simp
  have hlen : ((barDuration 1 (t0 :: rest) : List (Option K)).tail.map (fun d => d.getD 0)).length = rest.length := by
    rw [List.length_map, List.length_tail]
    unfold barDuration
    rw [length_tabulate]; simp
  have hi2 : i < rest.length := by simpa using hi
  change (ewma _ span).map _ = _ at h
  cases he : ewma ((barDuration 1 (t0 :: rest) : List (Option K)).tail.map (fun d => d.getD 0)) span with
  | error e => rw [he] at h; cases h
  | ok l =>
    rw [he] at h
    injection h with h
    subst h
    rw [List.getElem?_cons_succ, List.getElem?_map] at hx
    have := C32_ewma_within_history _ span l he i (by rw [hlen]; exact hi2) lo hi'
      (fun j hj => by rw [hget j (by omega)]; exact hlo j hj) (fun j hj => by rw [hget j (by omega)]; exact hhi j hj)
    cases hl : l[i]? with
    | none => rw [hl] at hx; simp at hx
    | some y =>
      rw [hl] at hx
      simp only [Option.map_some, Option.some.injEq] at hx
      rw [List.getD_eq_getElem?_getD, hl, Option.getD_some, hx] at this
      exact this

example : barDurationEwma 3 [0, 1000000000, 4000000000] = .ok [none, some (1 : ℚ), some (7 / 3)] := by decide +kernel

end FinML
