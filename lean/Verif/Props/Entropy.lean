/-
C120: rolling approximate entropy (`/repo/finmlkit/feature/transforms.py:1400-1457`).
-/
import Verif.Model.Entropy
import Verif.Props.PandasRolling
import Verif.Props.Causal
import Mathlib.Analysis.SpecialFunctions.Log.Basic
import Mathlib.Tactic.Linarith
import Mathlib.Tactic.Ring
import Mathlib.Tactic.FieldSimp
import Mathlib.Tactic.Positivity

set_option linter.unusedSectionVars false

namespace FinML

variable {K : Type} [Field K] [LinearOrder K] [IsStrictOrderedRing K]

/-! ## Which rows have a value, and errors -/

/-- **C120 (rows).**  With the package installed and templates that fit (`2 ≤ m < w`) no input raises, and a row has a value exactly if
its window of `w` rows is complete and has no missing entry; the value is that of the window. -/
theorem C120_rows (log sqrt : K → K) (w m : Nat) (tol : K) (xs : List (Option K)) (hm : 2 ≤ m) (hw : m < w) :
    ∃ out, approxEntropy true log sqrt w m tol xs = .ok out ∧ out.length = xs.length ∧
      ∀ i v, i < xs.length → (out[i]? = some (some v) ↔
        w ≤ i + 1 ∧ ∃ l, window xs w i = l.map some ∧ v = apenWin log sqrt m tol l) := by
  refine ⟨pdRolling xs w (fun l => some (apenWin log sqrt m tol l)), ?_, ?_, ?_⟩
  · unfold approxEntropy
    rw [if_neg (by simp), if_neg (by omega)]
  · unfold pdRolling rolling
    exact length_tabulate _ _
  · intro i v hi
    unfold pdRolling rolling
    rw [tabulate_get?, if_pos hi, Option.some_inj]
    split
    · constructor
      · intro h; cases h
      · rintro ⟨h, _⟩; omega
    · rw [Option.bind_eq_some_iff]
      constructor
      · rintro ⟨l, h1, h2⟩
        exact ⟨by omega, l, (allSome_eq_some _ _).1 h1, (Option.some_inj.1 h2).symm⟩
      · rintro ⟨_, l, h1, h2⟩
        exact ⟨l, (allSome_eq_some _ _).2 h1, by rw [h2]⟩

example : 2 ≤ 2 ∧ 2 < 4 ∧ (approxEntropy true id id 4 2 (1 / 5) ([some 1, some 2, none, some 1] : List (Option ℚ))).toOption =
    some [none, none, none, none] := by decide +kernel

/-- **C120 (errors).**  Without the package every call raises; with it a call raises exactly if the templates are too short or do not
fit into the window and the column has a complete window without missing entries. -/
theorem C120_errors (log sqrt : K → K) (w m : Nat) (tol : K) (xs : List (Option K)) :
    approxEntropy false log sqrt w m tol xs = .error "ImportError" ∧
    ((∃ e, approxEntropy true log sqrt w m tol xs = .error e) ↔
      (m < 2 ∨ w ≤ m) ∧ ∃ i < xs.length, w ≤ i + 1 ∧ ∃ l : List K, window xs w i = l.map some) := by
  refine ⟨rfl, ?_⟩
  have hany : (pdRolling xs w (fun l => some l)).any Option.isSome = true ↔
      ∃ i < xs.length, w ≤ i + 1 ∧ ∃ l : List K, window xs w i = l.map some := by
    unfold pdRolling rolling tabulate
    rw [List.any_map, List.any_eq_true]
    constructor
    · rintro ⟨i, hi, h⟩
      rw [List.mem_range] at hi
      simp only [Function.comp_apply] at h
      split at h
      · cases h
      · refine ⟨i, hi, by omega, ?_⟩
        cases hs : allSome (window xs w i) with
        | none => rw [hs] at h; cases h
        | some l => exact ⟨l, (allSome_eq_some _ _).1 hs⟩
    · rintro ⟨i, hi, hw, l, hl⟩
      refine ⟨i, List.mem_range.2 hi, ?_⟩
      simp only [Function.comp_apply]
      rw [if_neg (by omega), (allSome_eq_some _ _).2 hl]
      rfl
  unfold approxEntropy
  rw [if_neg (by simp)]
  by_cases h : (m < 2 ∨ w < m + 1) ∧ (pdRolling xs w (fun l => some l)).any Option.isSome = true
  · rw [if_pos h]
    refine iff_of_true ⟨_, rfl⟩ ⟨?_, hany.1 h.2⟩
    rcases h.1 with h | h
    · exact Or.inl h
    · exact Or.inr (by omega)
  · rw [if_neg h]
    refine iff_of_false (by simp) ?_
    rintro ⟨h1, h2⟩
    refine h ⟨?_, hany.2 h2⟩
    rcases h1 with h1 | h1
    · exact Or.inl h1
    · exact Or.inr (by omega)

/-! ## Units -/

theorem templates_map (m : Nat) (f : K → K) (l : List K) : templates m (l.map f) = (templates m l).map (List.map f) := by
  simp only [templates, List.length_map, List.map_map]
  apply List.map_congr_left
  intro i _
  simp [List.map_drop, List.map_take]

theorem withinR_affine (a b r : K) (ha : a ≠ 0) (u v : List K) :
    withinR (|a| * r) (u.map (fun x => a * x + b)) (v.map (fun x => a * x + b)) = withinR r u v := by
  unfold withinR
  rw [List.zip_map, List.all_map]
  congr 1
  funext p
  simp only [Function.comp_apply, Prod.map_fst, Prod.map_snd]
  congr 1
  rw [show a * p.1 + b - (a * p.2 + b) = a * (p.1 - p.2) by ring, abs_mul]
  exact propext (mul_le_mul_iff_right₀ (abs_pos.2 ha))

theorem apPhi_affine (log : K → K) (a b r : K) (ha : a ≠ 0) (m : Nat) (l : List K) :
    apPhi log (|a| * r) m (l.map (fun x => a * x + b)) = apPhi log r m l := by
  simp only [apPhi, templates_map, List.length_map, List.map_map]
  congr 2
  apply List.map_congr_left
  intro u _
  simp only [Function.comp_apply, matchCount, List.countP_map]
  congr 3
  congr 1
  funext v
  exact withinR_affine a b r ha u v

theorem popStd_affine (sqrt : K → K) (hs : ∀ c v, 0 ≤ v → sqrt (c ^ 2 * v) = |c| * sqrt v) (a b : K) (l : List K) :
    popStd sqrt (l.map (fun x => a * x + b)) = |a| * popStd sqrt l := by
  by_cases hl : l = []
  · subst hl
    simp only [popStd, List.map_nil, List.sum_nil, zero_div]
    have := hs a 0 (le_refl _)
    rwa [mul_zero] at this
  have hn : (l.length : K) ≠ 0 := by
    have := List.length_pos_of_ne_nil hl
    positivity
  have hsum : (l.map (fun x => a * x + b)).sum = a * l.sum + b * l.length := by
    induction l with
    | nil => simp
    | cons x l ih =>
      by_cases hl' : l = []
      · subst hl'; simp
      · have := ih hl' (by have := List.length_pos_of_ne_nil hl'; positivity)
        simp only [List.map_cons, List.sum_cons, this, List.length_cons]
        push_cast
        ring
  have hmean : (l.map (fun x => a * x + b)).sum / ((l.map (fun x => a * x + b)).length : K) = a * (l.sum / l.length) + b := by
    rw [hsum, List.length_map]
    field_simp
  unfold popStd
  rw [hmean, List.map_map, List.length_map, ← hs]
  · congr 1
    rw [← mul_div_assoc (a ^ 2)]
    congr 1
    rw [← List.sum_map_mul_left]
    congr 1
    apply List.map_congr_left
    intro x _
    simp only [Function.comp_apply]
    ring
  · apply div_nonneg
    · apply List.sum_nonneg
      intro x hx
      obtain ⟨y, _, rfl⟩ := List.mem_map.1 hx
      exact sq_nonneg _
    · positivity

/-- **C120 (units).**  The entropy does not depend on unit, sign or origin of the column: replacing every value `x` by `a x + b`,
`a ≠ 0`, changes nothing. -/
theorem C120_affine (installed : Bool) (log sqrt : K → K) (hs : ∀ c v, 0 ≤ v → sqrt (c ^ 2 * v) = |c| * sqrt v) (w m : Nat)
    (tol a b : K) (ha : a ≠ 0) (xs : List (Option K)) :
    approxEntropy installed log sqrt w m tol (xs.map (Option.map (fun x => a * x + b))) =
      approxEntropy installed log sqrt w m tol xs := by
  have hall (l : List (Option K)) : allSome (l.map (Option.map (fun x => a * x + b))) = (allSome l).map (List.map (fun x => a * x + b)) := by
    induction l with
    | nil => rfl
    | cons x l ih =>
      cases x with
      | none => rfl
      | some x =>
        simp only [List.map_cons, Option.map_some, allSome, ih, Option.map_map]
        cases allSome l <;> rfl
  have hroll {β : Type} (f g : List K → β) (hfg : ∀ l, f (l.map (fun x => a * x + b)) = g l) :
      pdRolling (xs.map (Option.map (fun x => a * x + b))) w (fun l => some (f l)) = pdRolling xs w (fun l => some (g l)) := by
    unfold pdRolling rolling
    rw [List.length_map]
    unfold tabulate
    apply List.map_congr_left
    intro i _
    split
    · rfl
    · rw [window_map]
      simp only [hall]
      cases allSome (window xs w i) with
      | none => rfl
      | some l => simp [hfg]
  have hval : ∀ l : List K, apenWin log sqrt m tol (l.map (fun x => a * x + b)) = apenWin log sqrt m tol l := by
    intro l
    unfold apenWin apEn
    rw [popStd_affine sqrt hs, show tol * (|a| * popStd sqrt l) = |a| * (tol * popStd sqrt l) by ring, apPhi_affine _ _ _ _ ha,
      apPhi_affine _ _ _ _ ha]
  have hany : (pdRolling (xs.map (Option.map (fun x => a * x + b))) w (fun l => some l)).any Option.isSome =
      (pdRolling xs w (fun l => some l)).any Option.isSome := by
    have h1 := hroll (fun _ => ()) (fun _ => ()) (fun _ => rfl)
    have h2 (ys : List (Option K)) : (pdRolling ys w (fun l => some l)).any Option.isSome =
        (pdRolling ys w (fun _ => some ())).any Option.isSome := by
      unfold pdRolling rolling tabulate
      rw [List.any_map, List.any_map]
      congr 1
      funext i
      simp only [Function.comp_apply]
      split
      · rfl
      · cases allSome (window ys w i) <;> rfl
    rw [h2, h2, h1]
  unfold approxEntropy
  rw [hany, hroll _ _ hval]

example : ∀ c v : ℝ, 0 ≤ v → Real.sqrt (c ^ 2 * v) = |c| * Real.sqrt v := fun c v _ => by
  rw [Real.sqrt_mul (sq_nonneg c), Real.sqrt_sq_eq_abs]

/-! ## Constant windows -/

theorem templates_length (m : Nat) (l : List K) : (templates m l).length = l.length + 1 - m := by simp [templates]

/-- **C120 (constant).**  A window of equal values has entropy zero. -/
theorem C120_constant (log sqrt : K → K) (hlog : log 1 = 0) (hs : sqrt 0 = 0) (m n : Nat) (tol c : K) (hmn : m < n) :
    apenWin log sqrt m tol (List.replicate n c) = 0 := by
  have hn : (n : K) ≠ 0 := by
    have : 0 < n := by omega
    positivity
  have hstd : popStd sqrt (List.replicate n c) = 0 := by
    unfold popStd
    simp only [List.map_replicate, List.sum_replicate, List.length_replicate, nsmul_eq_mul]
    rw [mul_div_cancel_left₀ _ hn, mul_div_cancel_left₀ _ hn, sub_self]
    simp [hs]
  have hphi (k : Nat) (hk : k ≤ n) : apPhi log 0 k (List.replicate n c) = 0 := by
    have hE : templates k (List.replicate n c) = List.replicate (n + 1 - k) (List.replicate k c) := by
      unfold templates
      rw [List.length_replicate, List.eq_replicate_iff]
      refine ⟨by simp, ?_⟩
      intro u hu
      obtain ⟨i, hi, rfl⟩ := List.mem_map.1 hu
      rw [List.mem_range] at hi
      rw [List.drop_replicate, List.take_replicate]
      congr 1
      omega
    have hw : withinR 0 (List.replicate k c) (List.replicate k c) = true := by
      unfold withinR
      rw [List.all_eq_true]
      intro p hp
      rw [List.zip_replicate, Nat.min_self] at hp
      rw [List.eq_of_mem_replicate hp]
      simp
    have hN : ((n + 1 - k : Nat) : K) ≠ 0 := by
      have : 0 < n + 1 - k := by omega
      positivity
    simp only [apPhi, hE, matchCount, List.map_replicate, List.length_replicate, List.countP_replicate, hw, if_true, List.sum_replicate]
    rw [div_self hN, hlog]
    simp
  unfold apenWin apEn
  rw [hstd, mul_zero, hphi m (by omega), hphi (m + 1) (by omega), sub_self]

example : Real.log 1 = 0 ∧ Real.sqrt 0 = 0 ∧ 2 < 5 := ⟨Real.log_one, Real.sqrt_zero, by norm_num⟩

/-! ## Range -/

theorem withinR_self (r : K) (hr : 0 ≤ r) (u : List K) : withinR r u u = true := by
  unfold withinR
  rw [List.all_eq_true]
  intro p hp
  have : p.1 = p.2 := by
    obtain ⟨i, hi, rfl⟩ := List.getElem_of_mem hp
    simp
  rw [this, sub_self, abs_zero]
  simpa using hr

theorem apPhi_range (r : ℝ) (hr : 0 ≤ r) (m : Nat) (l : List ℝ) (hm : m ≤ l.length) :
    -Real.log ((l.length + 1 - m : Nat) : ℝ) ≤ apPhi Real.log r m l ∧ apPhi Real.log r m l ≤ 0 := by
  have hN : 0 < (templates m l).length := by rw [templates_length]; omega
  have hN' : (0 : ℝ) < ((templates m l).length : ℝ) := by exact_mod_cast hN
  have hterm : ∀ u ∈ templates m l, -Real.log ((templates m l).length : ℝ) ≤
      Real.log ((matchCount r (templates m l) u : ℝ) / ((templates m l).length : ℝ)) ∧
      Real.log ((matchCount r (templates m l) u : ℝ) / ((templates m l).length : ℝ)) ≤ 0 := by
    intro u hu
    have h1 : 1 ≤ matchCount r (templates m l) u := List.countP_pos_iff.2 ⟨u, hu, withinR_self r hr u⟩
    have h2 : matchCount r (templates m l) u ≤ (templates m l).length := List.countP_le_length
    have h1' : (1 : ℝ) ≤ matchCount r (templates m l) u := by exact_mod_cast h1
    have h2' : (matchCount r (templates m l) u : ℝ) ≤ (templates m l).length := by exact_mod_cast h2
    constructor
    · rw [← Real.log_inv]
      apply Real.log_le_log (by positivity)
      rw [inv_eq_one_div]
      gcongr
    · apply Real.log_nonpos (by positivity)
      rw [div_le_one hN']
      exact h2'
  have hsum : ∀ E : List (List ℝ), (∀ u ∈ E, -Real.log ((templates m l).length : ℝ) ≤
      Real.log ((matchCount r (templates m l) u : ℝ) / ((templates m l).length : ℝ)) ∧
      Real.log ((matchCount r (templates m l) u : ℝ) / ((templates m l).length : ℝ)) ≤ 0) →
      -(E.length * Real.log ((templates m l).length : ℝ)) ≤
        (E.map (fun u => Real.log ((matchCount r (templates m l) u : ℝ) / ((templates m l).length : ℝ)))).sum ∧
      (E.map (fun u => Real.log ((matchCount r (templates m l) u : ℝ) / ((templates m l).length : ℝ)))).sum ≤ 0 := by
    intro E
    induction E with
    | nil => simp
    | cons u E ih =>
      intro h
      obtain ⟨i1, i2⟩ := ih (fun v hv => h v (List.mem_cons_of_mem _ hv))
      obtain ⟨t1, t2⟩ := h u List.mem_cons_self
      simp only [List.map_cons, List.sum_cons, List.length_cons]
      push_cast
      constructor <;> linarith
  obtain ⟨h1, h2⟩ := hsum _ hterm
  simp only [apPhi]
  rw [← templates_length m l]
  constructor
  · rw [le_div_iff₀ hN']
    linarith
  · exact div_nonpos_of_nonpos_of_nonneg h2 hN'.le

/-- **C120 (range).**  Over the reals with the true logarithm, a non-negative tolerance and templates that fit, the entropy of a window of
`w` values lies between `-log (w - m + 1)` and `log (w - m)`. -/
theorem C120_range (sqrt : ℝ → ℝ) (hs : ∀ x, 0 ≤ sqrt x) (m : Nat) (tol : ℝ) (ht : 0 ≤ tol) (l : List ℝ) (hm : m < l.length) :
    -Real.log ((l.length - m + 1 : Nat) : ℝ) ≤ apenWin Real.log sqrt m tol l ∧
      apenWin Real.log sqrt m tol l ≤ Real.log ((l.length - m : Nat) : ℝ) := by
  have hr : 0 ≤ tol * popStd sqrt l := mul_nonneg ht (hs _)
  obtain ⟨a1, a2⟩ := apPhi_range _ hr m l (by omega)
  obtain ⟨b1, b2⟩ := apPhi_range _ hr (m + 1) l (by omega)
  rw [show l.length + 1 - m = l.length - m + 1 by omega] at a1
  rw [show l.length + 1 - (m + 1) = l.length - m by omega] at b1
  unfold apenWin apEn
  constructor <;> linarith

example : (∀ x, 0 ≤ Real.sqrt x) ∧ (0 : ℝ) ≤ 1 / 5 ∧ 2 < ([1, 2, 1, 3] : List ℝ).length := ⟨Real.sqrt_nonneg, by norm_num, by simp⟩

/-- **C120: the entropy can be negative.**  On four equally spaced values with matches up to one step it is `2/3 log (2/3)`: the
documented reading "low means regular" has no floor at zero. -/
theorem C120_negative : apEn Real.log 1 2 [0, 1, 2, 3] = 2 / 3 * Real.log (2 / 3) ∧ apEn Real.log (1 : ℝ) 2 [0, 1, 2, 3] < 0 := by
  have h : apEn Real.log (1 : ℝ) 2 [0, 1, 2, 3] = 2 / 3 * Real.log (2 / 3) := by
    have t2 : templates 2 [(0 : ℝ), 1, 2, 3] = [[0, 1], [1, 2], [2, 3]] := rfl
    have t3 : templates 3 [(0 : ℝ), 1, 2, 3] = [[0, 1, 2], [1, 2, 3]] := rfl
    unfold apEn apPhi
    rw [t2, t3]
    simp only [List.map_cons, List.map_nil, matchCount, List.countP_cons, List.countP_nil, withinR, List.zip_cons_cons, List.zip_nil_left,
      List.all_cons, List.all_nil, Bool.and_true, List.length_cons, List.length_nil, List.sum_cons, List.sum_nil]
    norm_num
    ring
  refine ⟨h, ?_⟩
  rw [h]
  have : Real.log (2 / 3) < 0 := Real.log_neg (by norm_num) (by norm_num)
  linarith

/-- **C120 (causality).**  The rows of a prefix are the first rows of the whole column. -/
theorem C120_causal (log sqrt : K → K) (w m k : Nat) (tol : K) (xs : List (Option K)) (hm : 2 ≤ m) (hw : m < w) :
    approxEntropy true log sqrt w m tol (xs.take k) = (approxEntropy true log sqrt w m tol xs).map (List.take k) := by
  unfold approxEntropy
  rw [if_neg (by simp), if_neg (by omega), if_neg (by simp), if_neg (by omega), C70_rolling_causal]
  rfl

/-- Rows with a gap have no value, the others do (`log x = x - 1`, `sqrt x = x` for the example). -/
example : (approxEntropy true (fun x : ℚ => x - 1) (fun x => x) 3 2 1 [some 1, none, some 2, some 2, some 2, some 5]).toOption.map
    (List.map Option.isSome) = some [false, false, false, false, true, true] := by decide +kernel

/-- An example of `C120_errors`: templates of length three do not fit into a window of three. -/
example : (approxEntropy true (fun x : ℚ => x - 1) (fun x => x) 3 3 1 [some 1, some 2, some 2]).toOption = none := by decide +kernel

/-- The law of the square root used in `C120_affine` holds for the real one. -/
example : ∀ c v : ℝ, 0 ≤ v → Real.sqrt (c ^ 2 * v) = |c| * Real.sqrt v := fun c v _ => by
  rw [Real.sqrt_mul (sq_nonneg c), Real.sqrt_sq_eq_abs]

end FinML
