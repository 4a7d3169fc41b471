/-
C63 (daily gap), C64 (opening range breakout), C65 (bar rate), C66 (candle shape).
-/
import Verif.Model.DayFeatures
import Mathlib.Algebra.Order.Group.Abs
import Mathlib.Data.List.GetD

set_option linter.unusedSectionVars false

namespace FinML

variable {K : Type} [Field K] [LinearOrder K] [IsStrictOrderedRing K]

/-! ### C63 -/

theorem shiftRows_append (p : Option K) (a b : List (Int × K)) :
    shiftRows p (a ++ b) = shiftRows p a ++ shiftRows ((a.getLast?.map (·.2)).or p) b := by
  induction a generalizing p with
  | nil => simp [shiftRows]
  | cons r a ih =>
    rw [List.cons_append, shiftRows, ih, shiftRows, List.cons_append]
    cases a with
    | nil => simp
    | cons q a => rw [List.getLast?_cons_cons]; cases h : (q :: a).getLast? with
      | none => simp at h
      | some z => rfl

theorem shiftRows_days (p : Option K) (a : List (Int × K)) (d : Int) (h : ∀ r ∈ a, r.1 / dayNs ≠ d) :
    (shiftRows p a).filterMap (fun r => if r.1 / dayNs = d then r.2 else none) = [] := by
  induction a generalizing p with
  | nil => rfl
  | cons r a ih =>
    rw [shiftRows, List.filterMap_cons]
    have := h r (by simp)
    simp only [this, if_false]
    exact ih _ (fun q hq => h q (by simp [hq]))

/-- The "previous close" used for day `d` is the value just before the *last* bar of that day. -/
theorem lastShifted_eq (a b : List (Int × K)) (s t d : Int) (u y : K) (ht : t / dayNs = d)
    (hb : ∀ r ∈ b, r.1 / dayNs ≠ d) : lastShifted (a ++ (s, u) :: (t, y) :: b) d = some u := by
  unfold lastShifted
  have e : a ++ (s, u) :: (t, y) :: b = (a ++ [(s, u)]) ++ (t, y) :: b := by simp
  rw [e, shiftRows_append, List.filterMap_append, shiftRows, List.filterMap_cons]
  simp only [ht, if_true, List.getLast?_append, List.getLast?_singleton, Option.map_some, Option.or_some, Option.some_or]
  simp [shiftRows_days _ b d hb]

theorem firstOfDay_eq (a b : List (Int × K)) (m : Int) (x : K) (ha : ∀ r ∈ a, r.1 / dayNs ≠ m / dayNs) :
    firstOfDay (a ++ (m, x) :: b) (m / dayNs) = some x := by
  unfold firstOfDay
  rw [List.find?_append, List.find?_eq_none.mpr (by intro r hr; simpa using ha r hr)]
  simp

theorem before_midnight (a b : List (Int × K)) (m : Int) (x : K) (hm : m % dayNs = 0)
    (hs : (a ++ (m, x) :: b).Pairwise (fun p q => p.1 < q.1)) : ∀ r ∈ a, r.1 / dayNs ≠ m / dayNs := by
  intro r hr
  have h := (List.pairwise_append.mp hs).2.2 r hr (m, x) (by simp)
  have h : r.1 < m := h
  unfold dayNs at *
  omega

theorem dailyGap_at (a b : List (Int × K)) (m : Int) (x : K) (hm : m % dayNs = 0) :
    (dailyGap (a ++ (m, x) :: b))[a.length]? = some (gapOfDay (a ++ (m, x) :: b) (m / dayNs)) := by
  unfold dailyGap
  rw [List.getElem?_map, List.getElem?_append_right (le_refl _)]
  simp [hm]

/-- A value appears only on bars stamped exactly midnight. -/
theorem C63_only_midnight (rows : List (Int × K)) (i : Nat) (r : Int × K) (h : rows[i]? = some r)
    (hm : r.1 % dayNs ≠ 0) : (dailyGap rows)[i]? = some none := by
  unfold dailyGap
  rw [List.getElem?_map, h]
  simp [hm]

example : let rows : List (Int × ℚ) := [(dayNs - 900, 10), (dayNs, 11)]
    rows[0]? = some (dayNs - 900, 10) ∧ (dayNs - 900) % dayNs ≠ 0 ∧ dailyGap rows = [none, some (1/10)] := by decide +kernel

/-- What is computed: with `m` the midnight bar and `t` the last bar of its day, the gap is taken against
the bar just before `t` (`u`), which is a bar of the *same* day. -/
theorem C63_gap_formula (a c b : List (Int × K)) (m t : Int) (x u y : K) (s : Int) (hm : m % dayNs = 0)
    (hs : (a ++ (m, x) :: (c ++ (t, y) :: b)).Pairwise (fun p q => p.1 < q.1))
    (ht : t / dayNs = m / dayNs) (hb : ∀ r ∈ b, r.1 / dayNs ≠ m / dayNs)
    (hu : ((m, x) :: c).getLast? = some (s, u)) (hu0 : u ≠ 0) :
    (dailyGap (a ++ (m, x) :: (c ++ (t, y) :: b)))[a.length]? = some (some ((x - u) / u)) := by
  rw [dailyGap_at _ _ _ _ hm]
  unfold gapOfDay
  rw [firstOfDay_eq _ _ _ _ (before_midnight _ _ _ _ hm hs)]
  obtain ⟨l, hl⟩ : ∃ l, (m, x) :: c = l ++ [(s, u)] := by
    rw [List.getLast?_eq_some_iff] at hu
    exact hu
  have e : a ++ (m, x) :: (c ++ (t, y) :: b) = (a ++ l) ++ (s, u) :: (t, y) :: b := by
    have : (m, x) :: (c ++ (t, y) :: b) = ((m, x) :: c) ++ (t, y) :: b := rfl
    rw [this, hl]; simp
  rw [e, lastShifted_eq _ _ _ _ _ _ _ ht hb]
  simp [hu0]

example : let rows : List (Int × ℚ) := [(dayNs - 900, 10)] ++ (dayNs, 12) :: ([(dayNs + 5, 8)] ++ (dayNs + 9, 9) :: [(2 * dayNs, 7)])
    dayNs % dayNs = 0 ∧ rows.Pairwise (fun p q => p.1 < q.1) ∧ (dayNs + 9) / dayNs = dayNs / dayNs ∧ (2 * dayNs) / dayNs ≠ dayNs / dayNs ∧
    ([(dayNs, 12), (dayNs + 5, 8)] : List (Int × ℚ)).getLast? = some (dayNs + 5, 8) ∧ (dailyGap rows)[1]? = some (some ((12 - 8) / 8)) := by
  decide +kernel

/-- The documented gap (midnight close against the last close of the previous day) is obtained when the
midnight bar is the only bar of its day.  Partial: see the violations for days with more bars. -/
theorem C63_gap_single_bar_partial (a b : List (Int × K)) (s m : Int) (u x : K) (hm : m % dayNs = 0)
    (hs : ((a ++ [(s, u)]) ++ (m, x) :: b).Pairwise (fun p q => p.1 < q.1))
    (hb : ∀ r ∈ b, r.1 / dayNs ≠ m / dayNs) (hu0 : u ≠ 0) :
    (dailyGap ((a ++ [(s, u)]) ++ (m, x) :: b))[a.length + 1]? = some (some ((x - u) / u)) := by
  have h := dailyGap_at (a ++ [(s, u)]) b m x hm
  rw [List.length_append, List.length_singleton] at h
  rw [h]
  unfold gapOfDay
  rw [firstOfDay_eq _ _ _ _ (before_midnight _ _ _ _ hm hs)]
  have e : (a ++ [(s, u)]) ++ (m, x) :: b = a ++ (s, u) :: (m, x) :: b := by simp
  rw [e, lastShifted_eq _ _ _ _ _ _ _ rfl hb]
  simp [hu0]

example : let rows : List (Int × ℚ) := ([] ++ [(dayNs - 900, 10)]) ++ (dayNs, 11) :: [(2 * dayNs, 7)]
    dayNs % dayNs = 0 ∧ rows.Pairwise (fun p q => p.1 < q.1) ∧ (2 * dayNs) / dayNs ≠ dayNs / dayNs ∧
    (dailyGap rows)[1]? = some (some (1 / 10)) := by decide +kernel

/-- Violation: on a day with exactly two bars the gap is always zero. -/
theorem C63_two_bars_zero (a b : List (Int × K)) (m t : Int) (x y : K) (hm : m % dayNs = 0)
    (hs : (a ++ (m, x) :: (t, y) :: b).Pairwise (fun p q => p.1 < q.1))
    (ht : t / dayNs = m / dayNs) (hb : ∀ r ∈ b, r.1 / dayNs ≠ m / dayNs) (hx : x ≠ 0) :
    (dailyGap (a ++ (m, x) :: (t, y) :: b))[a.length]? = some (some 0) := by
  have := C63_gap_formula a [] b m t x x y m hm hs ht hb rfl hx
  simpa using this

example : let rows : List (Int × ℚ) := [(dayNs - 900, 10)] ++ (dayNs, 12) :: (dayNs + 5, 8) :: [(2 * dayNs, 7)]
    dayNs % dayNs = 0 ∧ rows.Pairwise (fun p q => p.1 < q.1) ∧ (dayNs + 5) / dayNs = dayNs / dayNs ∧
    (2 * dayNs) / dayNs ≠ dayNs / dayNs ∧ (dailyGap rows)[1]? = some (some 0) := by decide +kernel

/-- Violation: the midnight value uses bars that come after it.  Two inputs that agree up to and including
the midnight bar give different midnight values. -/
theorem C63_look_ahead :
    ∃ (a b : List (Int × ℚ)) (i : Nat), a.take (i + 1) = b.take (i + 1) ∧ (∃ r, a[i]? = some r ∧ r.1 % dayNs = 0) ∧
      (dailyGap a)[i]? ≠ (dailyGap b)[i]? :=
  ⟨[(dayNs - 900, 10), (dayNs, 11), (dayNs + 900, 12), (dayNs + 1800, 13)],
    [(dayNs - 900, 10), (dayNs, 11), (dayNs + 900, 22), (dayNs + 1800, 13)], 1, by decide, ⟨(dayNs, 11), by decide, by decide⟩,
    by decide +kernel⟩

/-- Violation: it is not the documented gap. -/
theorem C63_not_documented_gap :
    (dailyGap ([(dayNs - 900, 10), (dayNs, 11), (dayNs + 900, 12), (dayNs + 1800, 13)] : List (Int × ℚ)))[1]? ≠
      some (some ((11 - 10) / 10)) := by
  decide +kernel

example : (dailyGap ([(dayNs - 900, 10), (dayNs, 11)] : List (Int × ℚ))) = [none, some (1/10)] := by decide +kernel

/-! ### C64 -/

theorem foldl_max_lt (l : List K) (a c : K) : l.foldl max a < c ↔ a < c ∧ ∀ x ∈ l, x < c := by
  induction l generalizing a with
  | nil => simp
  | cons b l ih => rw [List.foldl_cons, ih, max_lt_iff, List.forall_mem_cons, and_assoc]

theorem lt_foldl_min (l : List K) (a c : K) : c < l.foldl min a ↔ c < a ∧ ∀ x ∈ l, c < x := by
  induction l generalizing a with
  | nil => simp
  | cons b l ih => rw [List.foldl_cons, ih, lt_min_iff, List.forall_mem_cons, and_assoc]

theorem filter_take4 {α : Type} (p : α → Bool) (l : List α) (i : Nat) (h : 4 ≤ (l.take i).countP p) :
    (l.filter p).take 4 = ((l.take i).filter p).take 4 := by
  conv_lhs => rw [← List.take_append_drop i l, List.filter_append]
  rw [List.take_append_of_le_length (by rw [← List.countP_eq_length_filter]; exact h)]

theorem orbAt_some (rows : List (OrbBar K)) (i : Nat) (r : OrbBar K) (h : rows[i]? = some r) :
    orbAt rows i = (match (rows.filter (fun q => decide (q.ts / dayNs = r.ts / dayNs))).take 4 with
      | [] => (false, false)
      | f :: rest =>
        if inFirstMinute f.ts && decide (4 ≤ (rows.take i).countP (fun q => decide (q.ts / dayNs = r.ts / dayNs))) then
          (decide ((rest.map (·.high)).foldl max f.high < r.close), decide (r.close < (rest.map (·.low)).foldl min f.low))
        else (false, false)) := by
  unfold orbAt
  rw [h]
  dsimp only
  cases (rows.filter (fun q => decide (q.ts / dayNs = r.ts / dayNs))).take 4 <;> rfl

/-- The conditions tested for a bar use only that bar and earlier ones. -/
theorem C64_causal (a b : List (OrbBar K)) (i : Nat) (h : a.take (i + 1) = b.take (i + 1)) :
    orbAt a i = orbAt b i := by
  have hi : a[i]? = b[i]? := by
    rw [← List.getElem?_take_of_lt (Nat.lt_succ_self i), h, List.getElem?_take_of_lt (Nat.lt_succ_self i)]
  have ht : a.take i = b.take i := by
    have h1 := congrArg (List.take i) h
    simpa [List.take_take] using h1
  cases hr : a[i]? with
  | none =>
    have hr' : b[i]? = none := by rw [← hi, hr]
    unfold orbAt
    rw [hr, hr']
  | some r =>
    rw [orbAt_some a i r hr, orbAt_some b i r (by rw [← hi, hr])]
    by_cases hp : 4 ≤ (a.take i).countP (fun q => decide (q.ts / dayNs = r.ts / dayNs))
    · rw [filter_take4 _ a i hp, filter_take4 _ b i (by rw [← ht]; exact hp), ht]
    · have hp' : ¬ 4 ≤ (b.take i).countP (fun q => decide (q.ts / dayNs = r.ts / dayNs)) := by rw [← ht]; exact hp
      simp only [hp, hp', decide_false, Bool.and_false, Bool.false_eq_true, if_false]
      split <;> split <;> rfl

/-- With the bars in time order and `f` the position of the first bar of the day of bar `i`: the long (short)
signal at `i` is set iff at least four bars of the day precede `i`, the first of them starts in the first
minute of the day, and the close of `i` is above (below) the highs (lows) of the first four bars. -/
theorem C64_signal_iff (rows : List (OrbBar K)) (hs : rows.Pairwise (fun a b => a.ts ≤ b.ts)) (f i : Nat)
    (hf : f ≤ i) (hi : i < rows.length) (hday : rows[f].ts / dayNs = rows[i].ts / dayNs)
    (hfirst : ∀ k (hk : k < f), rows[k].ts / dayNs ≠ rows[i].ts / dayNs) :
    ((orbAt rows i).1 = true ↔ f + 4 ≤ i ∧ rows[f].ts % dayNs < 60000000000 ∧
      ∀ k (hk : k < rows.length), f ≤ k → k < f + 4 → rows[k].high < rows[i].close) ∧
    ((orbAt rows i).2 = true ↔ f + 4 ≤ i ∧ rows[f].ts % dayNs < 60000000000 ∧
      ∀ k (hk : k < rows.length), f ≤ k → k < f + 4 → rows[i].close < rows[k].low) := by
  have hmono : ∀ (a b : Nat) (ha : a < rows.length) (hb : b < rows.length), a ≤ b → rows[a].ts ≤ rows[b].ts := by
    intro a b ha hb hab
    rcases Nat.lt_or_eq_of_le hab with h | h
    · exact List.pairwise_iff_getElem.mp hs a b ha hb h
    · subst h; exact le_refl _
  -- positions f..i are on the day, those before are not
  have hsame : ∀ k (hk : k < rows.length), f ≤ k → k ≤ i → rows[k].ts / dayNs = rows[i].ts / dayNs := by
    intro k hk h1 h2
    have a1 := hmono f k (by omega) hk h1
    have a2 := hmono k i hk hi h2
    unfold dayNs at *
    omega
  obtain ⟨p, hp⟩ : ∃ p : OrbBar K → Bool, p = (fun q => decide (q.ts / dayNs = rows[i].ts / dayNs)) := ⟨_, rfl⟩
  have hpre : (rows.take f).filter p = [] := by
    rw [List.filter_eq_nil_iff]
    intro q hq
    obtain ⟨k, hk, rfl⟩ := List.mem_take_iff_getElem.mp hq
    have := hfirst k (by omega)
    simp [hp, this]
  have hmid : ((rows.take i).drop f).filter p = (rows.take i).drop f := by
    rw [List.filter_eq_self]
    intro q hq
    obtain ⟨k, hk, rfl⟩ := List.mem_drop_iff_getElem.mp hq
    rw [List.length_take] at hk
    rw [List.getElem_take]
    have := hsame (f + k) (by omega) (by omega) (by omega)
    simp [hp, this]
  have hfil : (rows.take i).filter p = (rows.take i).drop f := by
    have e : rows.take i = rows.take f ++ (rows.take i).drop f := by
      conv_lhs => rw [← List.take_append_drop f (rows.take i)]
      rw [List.take_take, Nat.min_eq_left hf]
    conv_lhs => rw [e, List.filter_append, hpre, hmid, List.nil_append]
  have hcount : (rows.take i).countP p = i - f := by
    rw [List.countP_eq_length_filter, hfil, List.length_drop, List.length_take]
    omega
  have horb := orbAt_some rows i rows[i] (List.getElem?_eq_getElem hi)
  rw [← hp, hcount] at horb
  by_cases h4 : f + 4 ≤ i
  · have hopen : (rows.filter p).take 4 = [rows[f], rows[f + 1], rows[f + 2], rows[f + 3]] := by
      rw [filter_take4 p rows i (by rw [hcount]; omega), hfil]
      apply List.ext_getElem
      · simp; omega
      · intro k h1 h2
        have hk : k < 4 := by simpa using h2
        rw [List.getElem_take, List.getElem_drop, List.getElem_take]
        match k, hk with
        | 0, _ => rfl
        | 1, _ => rfl
        | 2, _ => rfl
        | 3, _ => rfl
    rw [hopen] at horb
    have hall : ∀ Q : OrbBar K → Prop, (∀ k (hk : k < rows.length), f ≤ k → k < f + 4 → Q rows[k]) ↔
        Q rows[f] ∧ Q rows[f + 1] ∧ Q rows[f + 2] ∧ Q rows[f + 3] := by
      intro Q
      constructor
      · intro h
        exact ⟨h _ _ (by omega) (by omega), h _ _ (by omega) (by omega), h _ _ (by omega) (by omega),
          h _ _ (by omega) (by omega)⟩
      · rintro ⟨q0, q1, q2, q3⟩ k hk h1 h2
        obtain ⟨j, rfl⟩ := Nat.exists_eq_add_of_le h1
        match j, h2 with
        | 0, _ => exact q0
        | 1, _ => exact q1
        | 2, _ => exact q2
        | 3, _ => exact q3
        | n + 4, h => omega
    rw [hall (fun q => q.high < rows[i].close), hall (fun q => rows[i].close < q.low), horb]
    have h4' : decide (4 ≤ i - f) = true := by simp; omega
    simp only [h4', Bool.and_true, inFirstMinute]
    by_cases hmin : rows[f].ts % dayNs < 60000000000
    · simp only [hmin, decide_true, if_true, decide_eq_true_eq, foldl_max_lt, lt_foldl_min, List.map_cons, List.map_nil,
        List.forall_mem_cons, List.not_mem_nil, false_imp_iff, implies_true, and_true, h4, true_and]
    · simp [hmin]
  · have h4' : decide (4 ≤ i - f) = false := by simp; omega
    rw [h4'] at horb
    simp only [Bool.and_false, Bool.false_eq_true, if_false] at horb
    have : orbAt rows i = (false, false) := by rw [horb]; split <;> rfl
    rw [this]
    simp [h4]

example : let rows : List (OrbBar ℚ) := [⟨-5, 9, 8, 9⟩, ⟨0, 2, 1, 1⟩, ⟨10, 3, 2, 2⟩, ⟨20, 2, 1, 1⟩, ⟨30, 2, 1, 1⟩, ⟨40, 9, 1, 4⟩]
    rows.Pairwise (fun a b => a.ts ≤ b.ts) ∧ (0 : Int) / dayNs = 40 / dayNs ∧ (-5 : Int) / dayNs ≠ 40 / dayNs ∧
    orbAt rows 5 = (true, false) := by decide +kernel

/-- The two conditions exclude each other when lows do not exceed highs. -/
theorem C64_exclusive (rows : List (OrbBar K)) (hs : rows.Pairwise (fun a b => a.ts ≤ b.ts)) (f i : Nat)
    (hf : f ≤ i) (hi : i < rows.length) (hday : rows[f].ts / dayNs = rows[i].ts / dayNs)
    (hfirst : ∀ k (hk : k < f), rows[k].ts / dayNs ≠ rows[i].ts / dayNs) (hlh : rows[f].low ≤ rows[f].high) :
    ¬ ((orbAt rows i).1 = true ∧ (orbAt rows i).2 = true) := by
  rintro ⟨h1, h2⟩
  obtain ⟨a, b⟩ := C64_signal_iff rows hs f i hf hi hday hfirst
  have p1 := (a.mp h1).2.2 f (by omega) (le_refl _) (by omega)
  have p2 := (b.mp h2).2.2 f (by omega) (le_refl _) (by omega)
  exact absurd (lt_trans p1 p2) (not_lt.mpr hlh)

example : let rows : List (OrbBar ℚ) := [⟨-5, 9, 8, 9⟩, ⟨0, 2, 1, 1⟩, ⟨10, 3, 2, 2⟩, ⟨20, 2, 1, 1⟩, ⟨30, 2, 1, 1⟩, ⟨50, 9, 0, 0⟩]
    rows.Pairwise (fun a b => a.ts ≤ b.ts) ∧ (0 : Int) / dayNs = 50 / dayNs ∧ (-5 : Int) / dayNs ≠ 50 / dayNs ∧ (1 : ℚ) ≤ 2 ∧
    orbAt rows 5 = (false, true) := by decide +kernel

/-- The opening range is the first four *bars*, not the first hour: with five-minute bars a breakout is
signalled 20 minutes into the day. -/
theorem C64_four_bars_not_an_hour :
    let b := fun (k : Int) (c : ℚ) => (⟨k * 300000000000, c, c, c⟩ : OrbBar ℚ)
    orbAt [b 0 1, b 1 1, b 2 1, b 3 1, b 4 2] 4 = (true, false) ∧ ((4 : Int) * 300000000000 < 3600000000000) := by
  decide +kernel

/-- What is returned: a signal of a row is set iff the condition holds for some row with the same timestamp. -/
theorem C64_output_iff (rows : List (OrbBar K)) (i : Nat) (hi : i < rows.length) :
    ∃ s, (orbBreak rows)[i]? = some s ∧
      (s.1 = true ↔ ∃ j, ∃ hj : j < rows.length, rows[j].ts = rows[i].ts ∧ (orbAt rows j).1 = true) ∧
      (s.2 = true ↔ ∃ j, ∃ hj : j < rows.length, rows[j].ts = rows[i].ts ∧ (orbAt rows j).2 = true) := by
  unfold orbBreak
  rw [List.getElem?_map, List.getElem?_range hi]
  refine ⟨_, rfl, ?_, ?_⟩ <;> dsimp only <;> rw [List.any_eq_true] <;> constructor
  all_goals
    first
    | (rintro ⟨j, hj, h⟩
       rw [List.mem_filter, List.mem_range] at hj
       refine ⟨j, hj.1, ?_, h⟩
       simpa [List.getElem?_eq_getElem hj.1, List.getElem?_eq_getElem hi] using hj.2)
    | (rintro ⟨j, hj, ht, h⟩
       refine ⟨j, ?_, h⟩
       rw [List.mem_filter, List.mem_range]
       refine ⟨hj, ?_⟩
       rw [List.getElem?_eq_getElem hj, List.getElem?_eq_getElem hi]
       simpa using ht)

example : let rows : List (OrbBar ℚ) := [⟨0, 2, 1, 1⟩, ⟨10, 3, 2, 2⟩, ⟨20, 2, 1, 1⟩, ⟨30, 2, 1, 1⟩, ⟨40, 9, 1, 4⟩, ⟨40, 9, 1, 2⟩]
    5 < rows.length ∧ orbAt rows 5 = (false, false) ∧ orbAt rows 4 = (true, false) ∧ (orbBreak rows)[5]? = some (true, false) := by
  decide +kernel

/-- **C64, partial.** With distinct timestamps the output of a row is decided by that row (`C64_signal_iff`, `C64_exclusive`,
`C64_causal`). -/
theorem C64_output_distinct_partial (rows : List (OrbBar K)) (hs : rows.Pairwise (fun a b => a.ts < b.ts)) (i : Nat)
    (hi : i < rows.length) : (orbBreak rows)[i]? = some (orbAt rows i) := by
  obtain ⟨s, hs', h1, h2⟩ := C64_output_iff rows i hi
  have huniq : ∀ j (hj : j < rows.length), rows[j].ts = rows[i].ts → j = i := by
    intro j hj e
    rw [List.pairwise_iff_getElem] at hs
    rcases Nat.lt_trichotomy j i with h | h | h
    · have := hs j i hj hi h; omega
    · exact h
    · have := hs i j hi hj h; omega
  rw [hs']
  congr 1
  refine Prod.ext (Bool.eq_iff_iff.mpr (h1.trans ⟨?_, fun h => ⟨i, hi, rfl, h⟩⟩)) (Bool.eq_iff_iff.mpr (h2.trans ⟨?_, fun h => ⟨i, hi, rfl, h⟩⟩))
  · rintro ⟨j, hj, e, h⟩
    rw [huniq j hj e] at h; exact h
  · rintro ⟨j, hj, e, h⟩
    rw [huniq j hj e] at h; exact h

example : let rows : List (OrbBar ℚ) := [⟨0, 2, 1, 1⟩, ⟨10, 3, 2, 2⟩, ⟨20, 2, 1, 1⟩, ⟨30, 2, 1, 1⟩, ⟨40, 9, 1, 4⟩, ⟨50, 9, 1, 2⟩]
    rows.Pairwise (fun a b => a.ts < b.ts) ∧ (orbBreak rows)[4]? = some (true, false) := by decide +kernel

/-- Violation: with equal timestamps (two volume bars closing at the same instant) a row receives the signal of a later
row, even a row of the opening range, and both signals can be set at once. -/
theorem C64_shared_timestamps :
    (∃ rows : List (OrbBar ℚ), rows.Pairwise (fun a b => a.ts ≤ b.ts) ∧ orbBreak rows =
      [(false, false), (false, false), (false, false), (true, true), (true, true), (true, true)]) ∧
    ∃ (a b : List (OrbBar ℚ)) (i : Nat), a.take (i + 1) = b.take (i + 1) ∧ (orbBreak a)[i]? ≠ (orbBreak b)[i]? := by
  constructor
  · exact ⟨[⟨0, 2, 1, 1⟩, ⟨10, 3, 2, 2⟩, ⟨20, 2, 1, 1⟩, ⟨30, 2, 1, 1⟩, ⟨30, 9, 1, 4⟩, ⟨30, 9, 0, 0⟩], by simp, by decide +kernel⟩
  · exact ⟨[⟨0, 2, 1, 1⟩, ⟨10, 3, 2, 2⟩, ⟨20, 2, 1, 1⟩, ⟨30, 2, 1, 1⟩, ⟨30, 9, 1, 4⟩],
      [⟨0, 2, 1, 1⟩, ⟨10, 3, 2, 2⟩, ⟨20, 2, 1, 1⟩, ⟨30, 2, 1, 1⟩, ⟨30, 9, 1, 2⟩], 3, rfl, by decide +kernel⟩

example : ∃ rows : List (OrbBar ℚ), rows.Pairwise (fun a b => a.ts ≤ b.ts) ∧ orbBreak rows =
    [(false, false), (false, false), (false, false), (false, false), (true, false), (false, true)] :=
  ⟨[⟨0, 2, 1, 1⟩, ⟨10, 3, 2, 2⟩, ⟨20, 2, 1, 1⟩, ⟨30, 2, 1, 1⟩, ⟨40, 9, 1, 4⟩, ⟨50, 9, 0, 0⟩], by simp, by decide +kernel⟩

/-! ### C65 -/

/-- The rate at bar `i` is the number of bars, up to and including `i`, whose time is at most the window
before it, scaled to one hour. -/
theorem C65_rate_formula (w : Int) (ts : List Int) (i : Nat) (hi : i < ts.length) :
    (barRate w ts : List K)[i]? =
      some ((((ts.take (i + 1)).countP (fun t => decide (ts[i] - t ≤ w)) : Nat) : K) * 3600 / ((w : K) / 1000000000)) := by
  unfold barRate
  rw [List.getElem?_map, List.getElem?_range hi]
  simp only [Option.map_some]
  rw [List.getD_eq_getElem _ _ hi]
  congr 1
  have : (ts.take (i + 1)).countP (fun t => decide (ts[i] - w ≤ t)) =
      (ts.take (i + 1)).countP (fun t => decide (ts[i] - t ≤ w)) := by
    apply List.countP_congr
    intro t _
    simp; omega
  rw [this]
  ring

example : 2 < ([0, 1800000000000, 3600000000000] : List Int).length ∧
    (barRate 1800000000000 [0, 1800000000000, 3600000000000] : List ℚ)[2]? = some 4 := by decide +kernel

/-- The rate is positive and uses no later bar. -/
theorem C65_positive_causal (w : Int) (hw : 0 < w) (a b : List Int) (i : Nat) (hi : i < a.length)
    (h : a.take (i + 1) = b.take (i + 1)) :
    (barRate w a : List K)[i]? = (barRate w b : List K)[i]? ∧ ∃ v, (barRate w a : List K)[i]? = some v ∧ 0 < v := by
  have hib : i < b.length := by
    have := congrArg List.length h
    rw [List.length_take, List.length_take] at this
    omega
  have hget : a[i] = b[i] := by
    have h1 : a[i]? = b[i]? := by
      rw [← List.getElem?_take_of_lt (Nat.lt_succ_self i), h, List.getElem?_take_of_lt (Nat.lt_succ_self i)]
    rw [List.getElem?_eq_getElem hi, List.getElem?_eq_getElem hib] at h1
    exact Option.some.inj h1
  refine ⟨by rw [C65_rate_formula w a i hi, C65_rate_formula w b i hib, h, hget], _, C65_rate_formula w a i hi, ?_⟩
  have hpos : 0 < (a.take (i + 1)).countP (fun t => decide (a[i] - t ≤ w)) := by
    rw [List.countP_pos_iff]
    refine ⟨a[i], List.mem_take_iff_getElem.mpr ⟨i, by omega, rfl⟩, by simp; omega⟩
  have h1 : (0 : K) < ((a.take (i + 1)).countP (fun t => decide (a[i] - t ≤ w)) : Nat) := by exact_mod_cast hpos
  have h2 : (0 : K) < (w : K) := by exact_mod_cast hw
  positivity

example : ([0, 1800000000000, 9] : List Int).take 2 = [0, 1800000000000, 3600000000000].take 2 ∧
    (barRate 1800000000000 [0, 1800000000000, 9] : List ℚ)[1]? = some 4 := by decide +kernel

theorem countP_grid (s : Int) (hs : 0 < s) (k i : Nat) (hk : k ≤ i) :
    ((List.range (i + 1)).map (fun j : Nat => s * j)).countP (fun t => decide (s * i - t ≤ s * k)) = k + 1 := by
  rw [List.countP_map]
  have e : i + 1 = (i - k) + (k + 1) := by omega
  rw [e, List.range_add (n := i - k), List.countP_append, List.countP_map]
  have h1 : (List.range (i - k)).countP ((fun t => decide (s * i - t ≤ s * k)) ∘ fun j : Nat => s * j) = 0 := by
    rw [List.countP_eq_zero]
    intro j hj
    have : j < i - k := List.mem_range.mp hj
    have h2 : (j : Int) + k < i := by omega
    simp only [Function.comp, decide_eq_true_eq, not_le]
    nlinarith
  have h2 : (List.range (k + 1)).countP
      (((fun t => decide (s * i - t ≤ s * k)) ∘ fun j : Nat => s * j) ∘ fun x => i - k + x) = k + 1 := by
    conv_rhs => rw [← List.length_range (n := k + 1)]
    rw [List.countP_eq_length]
    intro j hj
    simp only [Function.comp, decide_eq_true_eq]
    have h3 : (((i - k + j : Nat)) : Int) + k = i + j := by omega
    nlinarith [Int.natCast_nonneg j]
  rw [h1, h2, Nat.zero_add]

/-- Violation: the window is closed at both ends, so on a regular grid of spacing `s` a window of `k` spacings
counts `k + 1` bars: the rate is overstated by one bar per window. -/
theorem C65_grid_overcount (s : Int) (hs : 0 < s) (n k i : Nat) (hk : k ≤ i) (hi : i < n) :
    (barRate (s * k) ((List.range n).map (fun j : Nat => s * j)) : List K)[i]? =
      some (((k : K) + 1) * 3600 / (((s * k : Int) : K) / 1000000000)) := by
  rw [C65_rate_formula _ _ i (by simpa using hi)]
  congr 3
  rw [← List.map_take, List.take_range, Nat.min_eq_left (by omega : i + 1 ≤ n)]
  simp only [List.getElem_map, List.getElem_range]
  rw [countP_grid s hs k i hk]
  push_cast
  ring

example : (barRate (1000000000 * 2) ((List.range 4).map (fun j : Nat => (1000000000 : Int) * j)) : List ℚ)[3]? = some 5400 := by decide +kernel

/-- Violation: windows of different lengths, both whole minutes, give the same output name. -/
theorem C65_name_collision (a b : Nat) (ha : a % 60 = 0) (hb : b % 60 = 0) : barRateName a = barRateName b := by
  unfold barRateName
  rw [if_pos ha, if_pos hb]

example : (barRate 3600000000000 [0, 1800000000000, 3600000000000, 7200000000001] : List ℚ) = [1, 2, 3, 1] := by
  decide +kernel

/-! ### C66 -/

/-- For a well-formed bar (low ≤ open, close ≤ high) the three ratios are in `[0, 1)` and add up to
`range / (range + eps)`, so just below one (and zero for a bar without range). -/
theorem C66_ratios (eps op hi lo cl vw : K) (he : 0 < eps) (h1 : lo ≤ op) (h2 : op ≤ hi) (h3 : lo ≤ cl) (h4 : cl ≤ hi) :
    let c := candleShape eps op hi lo cl vw
    0 ≤ c.wickUp ∧ c.wickUp < 1 ∧ 0 ≤ c.wickDn ∧ c.wickDn < 1 ∧ 0 ≤ c.body ∧ c.body < 1 ∧
      c.wickUp + c.wickDn + c.body = (hi - lo) / (hi - lo + eps) := by
  have hr : 0 < hi - lo + eps := by linarith
  intro c
  have e1 : c.wickUp = (hi - max op cl) / (hi - lo + eps) := rfl
  have e2 : c.wickDn = (min op cl - lo) / (hi - lo + eps) := rfl
  have e3 : c.body = |cl - op| / (hi - lo + eps) := rfl
  have hmax : max op cl ≤ hi := max_le h2 h4
  have hmin : lo ≤ min op cl := le_min h1 h3
  have habs : |cl - op| = max op cl - min op cl := (max_sub_min_eq_abs op cl).symm
  have hmm : min op cl ≤ max op cl := min_le_max
  rw [e1, e2, e3, habs]
  refine ⟨div_nonneg (by linarith) hr.le, ?_, div_nonneg (by linarith) hr.le, ?_, div_nonneg (by linarith) hr.le, ?_, ?_⟩
  · rw [div_lt_one hr]; linarith
  · rw [div_lt_one hr]; linarith
  · rw [div_lt_one hr]; linarith
  · rw [← add_div, ← add_div]; congr 1; ring

example : (0 : ℚ) < 1 / 10 ∧ (1 : ℚ) ≤ 2 ∧ (2 : ℚ) ≤ 5 ∧ (1 : ℚ) ≤ 4 ∧ (4 : ℚ) ≤ 5 ∧
    (candleShape (1/10) 2 5 1 4 3 : CandleOut ℚ).wickUp + (candleShape (1/10) 2 5 1 4 3 : CandleOut ℚ).wickDn +
      (candleShape (1/10) 2 5 1 4 3 : CandleOut ℚ).body = 40 / 41 := by decide +kernel

/-- A bar without range has three zero ratios. -/
theorem C66_flat_bar (eps p vw : K) :
    (candleShape eps p p p p vw).wickUp = 0 ∧ (candleShape eps p p p p vw).wickDn = 0 ∧
    (candleShape eps p p p p vw).body = 0 := by
  unfold candleShape
  simp

/-- The drift has the sign of `vwap - open` for positive opens and is zero iff they agree. -/
theorem C66_drift (eps op hi lo cl vw : K) (ho : 0 < op) :
    ∃ d, (candleShape eps op hi lo cl vw).vwapDrift = some d ∧ op * (1 + d) = vw ∧ (0 < d ↔ op < vw) ∧ (d = 0 ↔ vw = op) := by
  refine ⟨(vw - op) / op, by unfold candleShape; simp [ho.ne'], by field_simp; ring, ?_, ?_⟩
  · rw [div_pos_iff_of_pos_right ho, sub_pos]
  · rw [div_eq_zero_iff, or_iff_left ho.ne', sub_eq_zero]

example : (candleShape (1/10) 2 5 1 4 3 : CandleOut ℚ).wickUp = 10/41 := by decide +kernel

end FinML
