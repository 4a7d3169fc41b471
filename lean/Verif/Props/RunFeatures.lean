/-
C67 (structural break features) and C68 (directional run length).
-/
import Verif.Model.RunFeatures
import Verif.Lemmas.Indicators

set_option linter.unusedSectionVars false

namespace FinML

variable {K : Type} [Field K] [LinearOrder K] [IsStrictOrderedRing K]

/-! ### C67 -/

/-- The flag is set iff the statistic exceeds its critical value (missing values never flag). -/
theorem C67_flag_iff (s c : Option K) : flagOf (breakOf s c) = true ↔ ∃ a b, s = some a ∧ c = some b ∧ b < a := by
  cases s with
  | none => simp [breakOf, flagOf]
  | some a =>
    cases c with
    | none => simp [breakOf, flagOf]
    | some b => simp [breakOf, flagOf]

/-- The score lies in `[-10, 10]`, equals the excess when that is within the bounds, and is positive iff the
flag is set; it is missing iff statistic or critical value is. -/
theorem C67_score (s c : Option K) :
    (scoreOf (breakOf s c) = none ↔ s = none ∨ c = none) ∧
    (∀ v, scoreOf (breakOf s c) = some v → -10 ≤ v ∧ v ≤ 10 ∧ (0 < v ↔ flagOf (breakOf s c) = true)) ∧
    (∀ a b, s = some a → c = some b → -10 ≤ a - b → a - b ≤ 10 → scoreOf (breakOf s c) = some (a - b)) := by
  refine ⟨?_, ?_, ?_⟩
  · cases s <;> cases c <;> simp [breakOf, scoreOf]
  · intro v hv
    cases s with
    | none => simp [breakOf, scoreOf] at hv
    | some a =>
      cases c with
      | none => simp [breakOf, scoreOf] at hv
      | some b =>
        have hv : min 10 (max (-10) (a - b)) = v := by simpa [breakOf, scoreOf] using hv
        subst hv
        refine ⟨le_min (by norm_num) (le_max_left _ _), min_le_left _ _, ?_⟩
        simp only [breakOf, flagOf, decide_eq_true_eq, lt_min_iff, lt_max_iff]
        constructor
        · rintro ⟨_, h | h⟩
          · norm_num at h
          · exact h
        · intro h; exact ⟨by norm_num, Or.inr h⟩
  · rintro a b rfl rfl h1 h2
    simp only [breakOf, scoreOf, Option.map_some]
    rw [max_eq_right h1, min_eq_right h2]

theorem flagGroup_succ (f : List Bool) (i : Nat) (h : i + 1 < f.length) :
    flagGroup f (i + 1) = flagGroup f i + if f[i + 1] = true then 1 else 0 := by
  unfold flagGroup
  rw [List.take_add_one (i := i + 1), List.countP_append, List.getElem?_eq_getElem h]
  cases f[i + 1] <;> simp

theorem flagGroup_mono (f : List Bool) (i j : Nat) (hij : i ≤ j) : flagGroup f i ≤ flagGroup f j := by
  unfold flagGroup
  have : f.take (i + 1) = (f.take (j + 1)).take (i + 1) := by rw [List.take_take]; congr 1; omega
  rw [this]
  exact (List.take_sublist _ _).countP_le

/-- The groups of two rows agree iff no flag lies after the earlier one up to the later one. -/
theorem flagGroup_eq_iff (f : List Bool) (i j : Nat) (hij : i ≤ j) (hj : j < f.length) :
    flagGroup f i = flagGroup f j ↔ ∀ k (hk : k < f.length), i < k → k ≤ j → f[k] = false := by
  induction j, hij using Nat.le_induction with
  | base => simp; intro k hk h1 h2; omega
  | succ j hij ih =>
    have ih := ih (by omega)
    rw [flagGroup_succ f j hj]
    have hm := flagGroup_mono f i j hij
    constructor
    · intro h k hk h1 h2
      have hf : f[j + 1] = false := by
        by_contra hc
        have : f[j + 1] = true := by simpa using hc
        rw [if_pos this] at h
        omega
      rcases Nat.lt_or_eq_of_le h2 with h3 | h3
      · rw [hf] at h
        exact ih.mp (by simpa using h) k hk h1 (by omega)
      · subst h3; exact hf
    · intro h
      rw [h (j + 1) hj (by omega) (le_refl _)]
      simpa using ih.mpr (fun k hk h1 h2 => h k hk h1 (by omega))

theorem countP_range_ge (p : Nat → Bool) (j i : Nat) (hji : j ≤ i) (h : ∀ k, k < i → (p k = true ↔ j ≤ k)) :
    (List.range i).countP p = i - j := by
  have e : i = j + (i - j) := by omega
  conv_lhs => rw [e, List.range_add (n := j), List.countP_append]
  have h1 : (List.range j).countP p = 0 := by
    rw [List.countP_eq_zero]
    intro k hk
    have : k < j := List.mem_range.mp hk
    rw [h k (by omega)]
    omega
  have h2 : ((List.range (i - j)).map (fun x => j + x)).countP p = ((List.range (i - j)).map (fun x => j + x)).length := by
    rw [List.countP_eq_length]
    intro k hk
    obtain ⟨x, hx, rfl⟩ := List.mem_map.mp hk
    have : x < i - j := List.mem_range.mp hx
    rw [h _ (by omega)]
    omega
  rw [h1, h2]
  simp

/-- If the last flag at or before row `i` is at `j`, the counter is `i - j`. -/
theorem rawAge_since (f : List Bool) (i j : Nat) (hji : j ≤ i) (hi : i < f.length) (hj : f[j] = true)
    (hno : ∀ k (hk : k < f.length), j < k → k ≤ i → f[k] = false) : rawAge f i = i - j := by
  unfold rawAge
  apply countP_range_ge _ j i hji
  intro k hk
  rw [beq_iff_eq, flagGroup_eq_iff f k i (by omega) hi]
  constructor
  · intro h
    by_contra hc
    have := h j (by omega) (by omega) hji
    rw [hj] at this
    simp at this
  · intro h m hm h1 h2
    exact hno m hm (by omega) h2

theorem rawAge_start (f : List Bool) (i : Nat) (hi : i < f.length)
    (hno : ∀ k (hk : k < f.length), k ≤ i → f[k] = false) : rawAge f i = i := by
  unfold rawAge
  rw [countP_range_ge _ 0 i (by omega)]
  · omega
  · intro k hk
    rw [beq_iff_eq, flagGroup_eq_iff f k i (by omega) hi]
    exact ⟨fun _ => by omega, fun _ m hm _ h2 => hno m hm h2⟩

theorem breakAge_get (m : Nat) (f : List Bool) (i : Nat) (hi : i < f.length) :
    (breakAge m f)[i]? = some (min (rawAge f i) m % 256) := by
  unfold breakAge
  rw [tabulate_get?, if_pos hi]

/-- Ages, for a cap that fits in a byte: the number of bars since the last flag, capped.  Before any flag
the age counts from the start of the series. -/
theorem C67_age_partial (m : Nat) (hm : m ≤ 255) (f : List Bool) (i : Nat) (hi : i < f.length) :
    (∀ j (hj : j ≤ i), f[j] = true → (∀ k (hk : k < f.length), j < k → k ≤ i → f[k] = false) →
      (breakAge m f)[i]? = some (min (i - j) m)) ∧
    ((∀ k (hk : k < f.length), k ≤ i → f[k] = false) → (breakAge m f)[i]? = some (min i m)) := by
  constructor
  · intro j hj hfj hno
    rw [breakAge_get m f i hi, rawAge_since f i j hj hi hfj hno]
    congr 1; omega
  · intro hno
    rw [breakAge_get m f i hi, rawAge_start f i hi hno]
    congr 1; omega

example : breakAge 3 [false, true, false, false, false, false] = [0, 0, 1, 2, 3, 3] := by decide +kernel

/-- **C67 (exactly).** Ages for every cap: the capped number of bars since the last flag (since the start before any
flag), reduced modulo 256.  So the age is right if and only if it is at most 255. -/
theorem C67_age_exact (m : Nat) (f : List Bool) (i : Nat) (hi : i < f.length) :
    (∀ j (hj : j ≤ i), f[j] = true → (∀ k (hk : k < f.length), j < k → k ≤ i → f[k] = false) →
      (breakAge m f)[i]? = some (min (i - j) m % 256) ∧
      ((breakAge m f)[i]? = some (min (i - j) m) ↔ min (i - j) m ≤ 255)) ∧
    ((∀ k (hk : k < f.length), k ≤ i → f[k] = false) → (breakAge m f)[i]? = some (min i m % 256) ∧
      ((breakAge m f)[i]? = some (min i m) ↔ min i m ≤ 255)) := by
  constructor
  · intro j hj hfj hno
    rw [breakAge_get m f i hi, rawAge_since f i j hj hi hfj hno]
    refine ⟨rfl, ?_⟩
    rw [Option.some.injEq]
    generalize min (i - j) m = x
    omega
  · intro hno
    rw [breakAge_get m f i hi, rawAge_start f i hi hno]
    refine ⟨rfl, ?_⟩
    rw [Option.some.injEq]
    generalize min i m = x
    omega

example : (breakAge 300 (true :: List.replicate 259 false))[259]? = some 3 ∧ min (259 - 0) 300 % 256 = 3 := by decide +kernel

/-- For a cap between 1 and 255 an age of zero means a flag at that bar, except at the first bar. -/
theorem C67_age_zero_iff (m : Nat) (h1 : 1 ≤ m) (hm : m ≤ 255) (f : List Bool) (i : Nat) (hi : i < f.length)
    (h0 : i ≠ 0) : (breakAge m f)[i]? = some 0 ↔ f[i] = true := by
  by_cases hex : ∃ j, ∃ hj : j ≤ i, f[j] = true
  · -- last flag
    obtain ⟨j, ⟨hj, hfj⟩, hmax⟩ : ∃ j, (∃ hj : j ≤ i, f[j] = true) ∧ ∀ k, j < k → ¬ ∃ hk : k ≤ i, f[k] = true := by
      have key : ∀ n, ∀ j, (∃ hj : j ≤ i, f[j] = true) → i - j ≤ n →
          ∃ j, (∃ hj : j ≤ i, f[j] = true) ∧ ∀ k, j < k → ¬ ∃ hk : k ≤ i, f[k] = true := by
        intro n
        induction n with
        | zero =>
          rintro j ⟨hj, hfj⟩ hn
          exact ⟨j, ⟨hj, hfj⟩, fun k hk => by rintro ⟨h, _⟩; omega⟩
        | succ n ih =>
          rintro j ⟨hj, hfj⟩ hn
          by_cases hl : ∃ k, j < k ∧ ∃ hk : k ≤ i, f[k] = true
          · obtain ⟨k, hk, hki, hfk⟩ := hl
            exact ih k ⟨hki, hfk⟩ (by omega)
          · exact ⟨j, ⟨hj, hfj⟩, fun k hk h => hl ⟨k, hk, h⟩⟩
      obtain ⟨j, hj⟩ := hex
      exact key (i - j) j hj (le_refl _)
    have hno : ∀ k (hk : k < f.length), j < k → k ≤ i → f[k] = false := by
      intro k hk h1 h2
      by_contra hc
      exact hmax k h1 ⟨h2, by simpa using hc⟩
    rw [(C67_age_partial m hm f i hi).1 j hj hfj hno]
    constructor
    · intro h
      have h := Option.some.inj h
      have : j = i := by omega
      subst this; exact hfj
    · intro h
      have : j = i := by
        by_contra hc
        have := hno i hi (by omega) (le_refl _)
        rw [h] at this
        simp at this
      subst this
      simp
  · have hno : ∀ k (hk : k < f.length), k ≤ i → f[k] = false := by
      intro k hk h2
      by_contra hc
      exact hex ⟨k, h2, by simpa using hc⟩
    rw [(C67_age_partial m hm f i hi).2 hno, hno i hi (le_refl _)]
    constructor
    · intro h
      have h := Option.some.inj h
      omega
    · intro h; simp at h

example : 1 ≤ 3 ∧ 3 ≤ 255 ∧ (breakAge 3 [false, false, true])[2]? = some 0 ∧ (breakAge 3 [false, false, true])[1]? = some 1 := by decide +kernel

/-- Violation: a cap above 255 wraps around.  After 256 bars without a break the age reads zero, which stands for
"a break just fired". -/
theorem C67_age_wraps (m : Nat) (hm : 256 ≤ m) (f : List Bool) (hlen : 256 < f.length)
    (hno : ∀ k (hk : k < f.length), k ≤ 256 → f[k] = false) : (breakAge m f)[256]? = some 0 := by
  rw [breakAge_get m f 256 hlen, rawAge_start f 256 hlen hno]
  have : min 256 m = 256 := by omega
  rw [this]

example : ∀ k (hk : k < (List.replicate 300 false).length), k ≤ 256 → (List.replicate 300 false)[k] = false := by
  intro k hk _
  exact List.getElem_replicate hk

/-- Violation: the first bar has age zero although no break was detected. -/
theorem C67_first_bar_zero (m : Nat) (f : List Bool) (h : 0 < f.length) : (breakAge m f)[0]? = some 0 := by
  rw [breakAge_get m f 0 h]
  simp [rawAge]

/-- Flags, scores and ages use only the statistics up to their own bar. -/
theorem C67_causal (m : Nat) (f g : List Bool) (i : Nat) (hi : i < f.length) (h : f.take (i + 1) = g.take (i + 1)) :
    (breakAge m f)[i]? = (breakAge m g)[i]? := by
  have hg : i < g.length := by
    have := congrArg List.length h
    rw [List.length_take, List.length_take] at this
    omega
  rw [breakAge_get m f i hi, breakAge_get m g i hg]
  have hG : ∀ k, k ≤ i → flagGroup f k = flagGroup g k := by
    intro k hk
    unfold flagGroup
    have e : ∀ l : List Bool, l.take (k + 1) = (l.take (i + 1)).take (k + 1) := by
      intro l; rw [List.take_take]; congr 1; omega
    rw [e f, e g, h]
  have : rawAge f i = rawAge g i := by
    unfold rawAge
    apply List.countP_congr
    intro k hk
    have : k < i := List.mem_range.mp hk
    rw [hG k (by omega), hG i (le_refl _)]
  rw [this]

example : breakFeatures 3 ([none, some 1, some 5, some 1, some 1, some 1, some 1, some 30] : List (Option ℚ))
    [none, some 2, some 2, some 2, some 2, some 2, some 2, some 2] =
    ([none, some (-1), some 3, some (-1), some (-1), some (-1), some (-1), some 10],
      [false, false, true, false, false, false, false, true], [0, 1, 0, 1, 2, 3, 3, 0]) := by decide +kernel

/-! ### C68 -/

/-- Sign agreement of two returns: both present, not zero, on the same side of zero. -/
def SameSide (a b : Option K) : Prop := ∃ x y, a = some x ∧ b = some y ∧ ((0 < x ∧ 0 < y) ∨ (x < 0 ∧ y < 0))

theorem sameSign_iff (a b : Option K) : sameSign (signOf a) (signOf b) = true ↔ SameSide a b := by
  unfold SameSide
  cases a with
  | none => simp [signOf, sameSign]
  | some x =>
    cases b with
    | none => simp [signOf, sameSign]
    | some y =>
      simp only [signOf, sameSign, Bool.and_eq_true, decide_eq_true_eq, Option.some.injEq, exists_and_left, exists_eq_left']
      rcases lt_trichotomy x 0 with hx | hx | hx <;> rcases lt_trichotomy y 0 with hy | hy | hy <;>
        simp [hx, hy, not_lt_of_gt, le_of_lt]

theorem signOf_zero_iff (a : Option K) : signOf a = some 0 ↔ a = some 0 := by
  cases a with
  | none => simp [signOf]
  | some x =>
    simp only [signOf, Option.some.injEq]
    rcases lt_trichotomy x 0 with hx | hx | hx
    · simp [hx, hx.ne, not_lt_of_gt hx]
    · simp [hx]
    · simp [hx, hx.ne']

theorem runCount_succ (x : List (Option K)) (i : Nat) (hi : 1 ≤ i) :
    runCount x (i + 1) = if sameSign (signOf (x.getD (i + 1) none)) (signOf (x.getD i none)) then runCount x i + 1
      else if signOf (x.getD (i + 1) none) ≠ some 0 then 1 else 0 := by
  conv_lhs => rw [runCount]
  have h : ¬ i = 0 := by omega
  simp only [h, if_false]

theorem runCount_one (x : List (Option K)) :
    runCount x 1 = if x.getD 1 none = some 0 then 0 else 1 := by
  conv_lhs => rw [runCount]
  simp only [if_true]
  by_cases h0 : x.getD 1 none = some 0
  · have hs : signOf (x.getD 1 none) = some 0 := (signOf_zero_iff _).mpr h0
    have : sameSign (some 0) (some 0) = false := rfl
    rw [Nat.zero_add, hs, this, if_pos h0]
    simp
  · have hs : signOf (x.getD 1 none) ≠ some 0 := fun h => h0 ((signOf_zero_iff _).mp h)
    rw [if_neg h0]
    simp only [Nat.zero_add, runCount]
    rw [if_pos hs]
    split <;> rfl

/-- Before storage in a byte, the counter at row `i ≥ 1` is the length of the longest run of same-side
returns ending at (and including) row `i`, not reaching back to row 0.  It is 0 iff the return is zero; a missing
return counts as a run of length one. -/
theorem C68_run_length (x : List (Option K)) (i : Nat) (hi : 1 ≤ i) :
    (runCount x i = 0 ↔ x.getD i none = some 0) ∧ runCount x i ≤ i ∧
    (∀ k, k + 1 < runCount x i → SameSide (x.getD (i - k) none) (x.getD (i - k - 1) none)) ∧
    (0 < runCount x i → runCount x i < i →
      ¬ SameSide (x.getD (i - runCount x i + 1) none) (x.getD (i - runCount x i) none)) := by
  induction i, hi using Nat.le_induction with
  | base =>
    rw [runCount_one]
    split
    · rename_i h
      exact ⟨⟨fun _ => h, fun _ => rfl⟩, by omega, fun k hk => by omega, fun h => by omega⟩
    · rename_i h
      exact ⟨⟨fun h' => by omega, fun h' => absurd h' h⟩, by omega, fun k hk => by omega, fun _ h => by omega⟩
  | succ i hi ih =>
    obtain ⟨ih1, ih2, ih3, ih4⟩ := ih
    rw [runCount_succ x i hi]
    by_cases hs : sameSign (signOf (x.getD (i + 1) none)) (signOf (x.getD i none)) = true
    · have hside := (sameSign_iff _ _).mp hs
      rw [if_pos hs]
      have hne : x.getD (i + 1) none ≠ some 0 := by
        obtain ⟨a, b, ha, hb, h⟩ := hside
        rw [ha]
        intro h0
        have h0 := Option.some.inj h0
        rcases h with h | h
        · rw [h0] at h; exact lt_irrefl _ h.1
        · rw [h0] at h; exact lt_irrefl _ h.1
      have hne' : x.getD i none ≠ some 0 := by
        obtain ⟨a, b, ha, hb, h⟩ := hside
        rw [hb]
        intro h0
        have h0 := Option.some.inj h0
        rcases h with h | h
        · rw [h0] at h; exact lt_irrefl _ h.2
        · rw [h0] at h; exact lt_irrefl _ h.2
      have hpos : 0 < runCount x i := by
        rcases Nat.eq_zero_or_pos (runCount x i) with h | h
        · exact absurd (ih1.mp h) hne'
        · exact h
      refine ⟨⟨fun h' => by omega, fun h' => absurd h' hne⟩, by omega, ?_, ?_⟩
      · intro k hk
        cases k with
        | zero => simpa using hside
        | succ k =>
          have := ih3 k (by omega)
          have e1 : i + 1 - (k + 1) = i - k := by omega
          rw [e1]; exact this
      · intro _ hlt
        have := ih4 hpos (by omega)
        have e1 : i + 1 - (runCount x i + 1) = i - runCount x i := by omega
        rw [e1]; exact this
    · have hnside : ¬ SameSide (x.getD (i + 1) none) (x.getD i none) := fun h => hs ((sameSign_iff _ _).mpr h)
      rw [if_neg hs]
      by_cases h0 : signOf (x.getD (i + 1) none) = some 0
      · have := (signOf_zero_iff _).mp h0
        rw [if_neg (by simpa using h0)]
        exact ⟨⟨fun _ => this, fun _ => rfl⟩, by omega, fun k hk => by omega, fun h => by omega⟩
      · rw [if_pos h0]
        refine ⟨⟨fun h' => by omega, fun h' => absurd ((signOf_zero_iff _).mpr h') h0⟩, by omega, fun k hk => by omega, ?_⟩
        intro _ _
        simpa using hnside

example : let x : List (Option ℚ) := [none, some 1, some 2, some 4, some (-1)]
    runCount x 3 = 3 ∧ runCount x 4 = 1 ∧ runCount x 3 ≤ 3 := by decide +kernel

theorem dirRunLen_get (x : List (Option K)) (i : Nat) (hi : i < x.length) :
    (dirRunLen x)[i]? = some (toInt8 (runCount x i)) := by
  unfold dirRunLen
  rw [tabulate_get?, if_pos hi]

/-- While runs are shorter than 128 the output is the counter; row 0 is zero. -/
theorem C68_output_partial (x : List (Option K)) (i : Nat) (hi : i < x.length) (h : runCount x i ≤ 127) :
    (dirRunLen x)[i]? = some (runCount x i : Int) ∧ (dirRunLen x)[0]? = some 0 := by
  constructor
  · rw [dirRunLen_get x i hi]
    congr 1
    unfold toInt8
    omega
  · rw [dirRunLen_get x 0 (Nat.lt_of_le_of_lt (Nat.zero_le i) hi)]
    simp [toInt8, runCount]

example : let x : List (Option ℚ) := [none, some 1, some 2, some 4, some (-1)]
    3 < x.length ∧ runCount x 3 ≤ 127 ∧ (dirRunLen x)[3]? = some 3 := by decide +kernel

theorem runCount_all_up (x : List (Option K)) (h : ∀ i, i < x.length → ∃ v, x.getD i none = some v ∧ 0 < v)
    (i : Nat) (hi : i < x.length) : runCount x i = i := by
  induction i with
  | zero => rfl
  | succ i ih =>
    cases i with
    | zero =>
      rw [runCount_one]
      obtain ⟨v, hv, hp⟩ := h 1 hi
      rw [if_neg (by rw [hv]; intro h; exact hp.ne' (Option.some.inj h))]
    | succ i =>
      rw [runCount_succ x (i + 1) (by omega), ih (by omega), if_pos]
      rw [sameSign_iff]
      obtain ⟨v, hv, hp⟩ := h (i + 1 + 1) hi
      obtain ⟨w, hw, hq⟩ := h (i + 1) (by omega)
      exact ⟨v, w, hv, hw, Or.inl ⟨hp, hq⟩⟩

/-- **C68 (exactly).** The output is the counter reduced to a signed byte: the value between -128 and 127 that differs
from it by a multiple of 256.  So it is the counter if and only if the counter is at most 127. -/
theorem C68_output_exact (x : List (Option K)) (i : Nat) (hi : i < x.length) :
    ∃ v : Int, (dirRunLen x)[i]? = some v ∧ -128 ≤ v ∧ v ≤ 127 ∧ (256 : Int) ∣ (runCount x i : Int) - v ∧
      (v = runCount x i ↔ runCount x i ≤ 127) := by
  refine ⟨_, dirRunLen_get x i hi, ?_⟩
  unfold toInt8
  omega

/-- Violation: the counter is stored in a signed byte; the 128th consecutive rise is reported as -128. -/
theorem C68_run_wraps (x : List (Option K)) (h : ∀ i, i < x.length → ∃ v, x.getD i none = some v ∧ 0 < v)
    (hlen : 128 < x.length) : (dirRunLen x)[128]? = some (-128) := by
  rw [dirRunLen_get x 128 hlen, runCount_all_up x h 128 hlen]
  rfl

example : ∀ i, i < (List.replicate 200 (some (1 : ℚ))).length → ∃ v, (List.replicate 200 (some (1 : ℚ))).getD i none = some v ∧ 0 < v := by
  intro i hi
  refine ⟨1, ?_, by norm_num⟩
  rw [List.getD_eq_getElem _ _ hi, List.getElem_replicate]

/-- Violation: documented to stop just before the current bar, the count includes it: changing only the
current return changes the output. -/
theorem C68_includes_current :
    dirRunLen ([none, some 1, some 1] : List (Option ℚ)) = [0, 1, 2] ∧
    dirRunLen ([none, some 1, some (-1)] : List (Option ℚ)) = [0, 1, 1] := by decide +kernel

/-- Violation: a missing return counts as a run of length one. -/
theorem C68_missing_counts (x : List (Option K)) (i : Nat) (hi : 1 ≤ i) (hlen : i < x.length)
    (h : x.getD i none = none) : (dirRunLen x)[i]? = some 1 := by
  rw [dirRunLen_get x i hlen]
  have : runCount x i = 1 := by
    obtain ⟨j, rfl⟩ := Nat.exists_eq_add_of_le hi
    cases j with
    | zero => rw [runCount_one, if_neg (by rw [h]; simp)]
    | succ j =>
      have e : 1 + (j + 1) = (1 + j) + 1 := by omega
      rw [e] at h ⊢
      rw [runCount_succ x (1 + j) (by omega), h]
      rfl
  rw [this]; rfl

example : dirRunLen ([none, some 1, some 2, some 0, some (-1), some (-3), none, some 1] : List (Option ℚ)) =
    [0, 1, 2, 0, 1, 2, 1, 1] := by decide +kernel

example : ∃ x : List (Option ℚ), 128 < x.length ∧ ∀ i, i < x.length → ∃ v, x.getD i none = some v ∧ 0 < v := by
  refine ⟨List.replicate 130 (some 1), by simp, ?_⟩
  intro i hi
  rw [List.length_replicate] at hi
  exact ⟨1, by rw [List.getD_eq_getElem?_getD, List.getElem?_replicate, if_pos hi]; rfl, by norm_num⟩

end FinML
