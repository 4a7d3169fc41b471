/-
C53: event selection of `TBMLabel` (`finmlkit/label/kit.py`).
-/
import Verif.Props.TripleBarrier

set_option linter.unusedSectionVars false

namespace FinML

variable {K : Type} [Field K] [LinearOrder K] [IsStrictOrderedRing K]

/-- Column `c` has a valid cell in some row not later than `t`. -/
def ValidBy (rows : List (EventRow K)) (c : Nat) (t : Int) : Prop :=
  ∃ r ∈ rows, r.ts ≤ t ∧ (r.cells.getD c none).isSome

/-- The target, scaled by the larger multiplier, reaches `min_ret`. -/
def TargetReaches (maxMult minRet : K) (r : EventRow K) : Prop := ∃ t, r.target = some t ∧ minRet ≤ |t| * maxMult

theorem firstValid_le {rows : List (EventRow K)} (hs : rows.Pairwise (fun a b => a.ts ≤ b.ts)) (c : Nat) :
    (firstValid c rows = none ↔ ∀ r ∈ rows, ¬ (r.cells.getD c none).isSome) ∧
    ∀ s, firstValid c rows = some s → ∀ t, (s ≤ t ↔ ValidBy rows c t) := by
  induction rows with
  | nil => simp [firstValid]
  | cons r rs ih =>
    obtain ⟨h1, h2⟩ := List.pairwise_cons.mp hs
    have ih := ih h2
    simp only [firstValid]
    by_cases h : (r.cells.getD c none).isSome = true
    · rw [if_pos h]
      refine ⟨⟨fun e => (by cases e), fun e => absurd h (e r List.mem_cons_self)⟩, ?_⟩
      intro s hs t
      cases hs
      constructor
      · intro ht; exact ⟨r, List.mem_cons_self, ht, h⟩
      · rintro ⟨r', hr', ht, -⟩
        rcases List.mem_cons.mp hr' with rfl | hr'
        · exact ht
        · exact le_trans (h1 r' hr') ht
    · rw [if_neg h]
      constructor
      · rw [ih.1]
        constructor
        · intro e r' hr'
          rcases List.mem_cons.mp hr' with rfl | hr'
          · exact h
          · exact e r' hr'
        · intro e r' hr'; exact e r' (List.mem_cons_of_mem _ hr')
      · intro s hs t
        rw [ih.2 s hs t]
        constructor
        · rintro ⟨r', hr', x⟩; exact ⟨r', List.mem_cons_of_mem _ hr', x⟩
        · rintro ⟨r', hr', x⟩
          rcases List.mem_cons.mp hr' with rfl | hr'
          · exact absurd x.2 h
          · exact ⟨r', hr', x⟩

theorem foldl_max_le (l : List Int) (x t : Int) : l.foldl max x ≤ t ↔ x ≤ t ∧ ∀ y ∈ l, y ≤ t := by
  induction l generalizing x with
  | nil => simp
  | cons a l ih =>
    simp only [List.foldl_cons, ih, List.forall_mem_cons, max_le_iff]
    tauto

theorem startTime_le {rows : List (EventRow K)} (hs : rows.Pairwise (fun a b => a.ts ≤ b.ts)) (n : Nat) :
    (startTime n rows = none ↔ ∀ c, c < n → ∀ r ∈ rows, ¬ (r.cells.getD c none).isSome) ∧
    ∀ s, startTime n rows = some s → ∀ t, (s ≤ t ↔ ∀ c, c < n → (∃ t', ValidBy rows c t') → ValidBy rows c t) := by
  have hmem : ∀ y, y ∈ (List.range n).filterMap (fun c => firstValid c rows) ↔ ∃ c, c < n ∧ firstValid c rows = some y := by
    intro y; simp [List.mem_filterMap]
  have hiff : ∀ t, (∀ y ∈ (List.range n).filterMap (fun c => firstValid c rows), y ≤ t) ↔
      ∀ c, c < n → (∃ t', ValidBy rows c t') → ValidBy rows c t := by
    intro t
    constructor
    · rintro h c hc ⟨t', r, hr, -, hv⟩
      cases hf : firstValid c rows with
      | none => exact absurd hv ((firstValid_le hs c).1.mp hf r hr)
      | some y => exact ((firstValid_le hs c).2 y hf t).mp (h y ((hmem y).mpr ⟨c, hc, hf⟩))
    · intro h y hy
      obtain ⟨c, hc, hf⟩ := (hmem y).mp hy
      exact ((firstValid_le hs c).2 y hf t).mpr (h c hc ⟨y, ((firstValid_le hs c).2 y hf y).mp (le_refl _)⟩)
  unfold startTime
  cases hl : (List.range n).filterMap (fun c => firstValid c rows) with
  | nil =>
    refine ⟨⟨fun _ c hc => ?_, fun _ => rfl⟩, fun s h => by cases h⟩
    rw [← (firstValid_le hs c).1]
    cases hf : firstValid c rows with
    | none => rfl
    | some y => have := (hmem y).mpr ⟨c, hc, hf⟩; rw [hl] at this; simp at this
  | cons x xs =>
    refine ⟨⟨fun h => (by cases h), fun h => ?_⟩, ?_⟩
    · exfalso
      obtain ⟨c, hc, hf⟩ := (hmem x).mp (by rw [hl]; exact List.mem_cons_self)
      have := (firstValid_le hs c).1.mpr (h c hc)
      rw [this] at hf; cases hf
    · intro s h t
      cases h
      rw [foldl_max_le, ← hiff t, hl, List.forall_mem_cons]

theorem targetOk_fin (m minRet : K) (r : EventRow K) : targetOk (.fin m) minRet r.target = true ↔ TargetReaches m minRet r := by
  unfold TargetReaches
  cases h : r.target with
  | none => simp [targetOk]
  | some t => simp [targetOk, Ext.scale]

/-- C53: the events kept by `TBMLabel` are, in order, the rows from the first time on at which every column (that is not
entirely NaN) has had a value, whose target scaled by the larger multiplier reaches `min_ret`.  A row with a NaN target is
never kept, so the check for NaN targets that follows can never fail. -/
theorem C53_kept_events {rows : List (EventRow K)} (hs : rows.Pairwise (fun a b => a.ts ≤ b.ts)) (nCols : Nat)
    (maxMult minRet : K) (out : List (EventRow K)) (h : preprocessEvents nCols (.fin maxMult) minRet rows = .ok out) :
    out.Sublist rows ∧ out ≠ [] ∧ (∀ r ∈ out, r.target ≠ none) ∧
    ∀ r, r ∈ out ↔ r ∈ rows ∧ (∀ c, c < nCols → (∃ t, ValidBy rows c t) → ValidBy rows c r.ts) ∧
      TargetReaches maxMult minRet r := by
  unfold preprocessEvents at h
  cases hst : startTime nCols rows with
  | none => rw [hst] at h; cases h
  | some s =>
    rw [hst] at h
    simp only at h
    split_ifs at h with h1 h2
    simp only [Except.ok.injEq] at h
    subst h
    refine ⟨(List.filter_sublist).trans List.filter_sublist, ?_, ?_, ?_⟩
    · intro e; rw [e] at h1; simp at h1
    · intro r hr e
      rw [List.mem_filter] at hr
      have := hr.2
      rw [e] at this
      simp [targetOk] at this
    · intro r
      rw [List.mem_filter, List.mem_filter, targetOk_fin, decide_eq_true_eq, (startTime_le hs nCols).2 s hst r.ts]
      tauto

example : preprocessEvents 2 (.fin (2 : ℚ)) 1
    [⟨1, [some 1, none], some 1, 0⟩, ⟨2, [some 1, some 3], some 1, 0⟩, ⟨3, [none, some 3], none, 0⟩,
     ⟨4, [some (1/4), none], some (1/4), 0⟩, ⟨5, [some (-1), none], some (-1), 0⟩] =
    .ok [⟨2, [some 1, some 3], some 1, 0⟩, ⟨5, [some (-1), none], some (-1), 0⟩] := by decide +kernel

/-- C53: construction fails exactly when no row qualifies (or every column is entirely NaN). -/
theorem C53_no_events {rows : List (EventRow K)} (hs : rows.Pairwise (fun a b => a.ts ≤ b.ts)) (nCols : Nat)
    (maxMult minRet : K) :
    (∃ e, preprocessEvents nCols (.fin maxMult) minRet rows = .error e) ↔
      (∀ c, c < nCols → ∀ r ∈ rows, ¬ (r.cells.getD c none).isSome) ∨
      ∀ r ∈ rows, ¬ ((∀ c, c < nCols → (∃ t, ValidBy rows c t) → ValidBy rows c r.ts) ∧ TargetReaches maxMult minRet r) := by
  unfold preprocessEvents
  cases hst : startTime nCols rows with
  | none =>
    have := (startTime_le hs nCols).1.mp hst
    exact ⟨fun _ => Or.inl this, fun _ => ⟨_, rfl⟩⟩
  | some s =>
    have hnot : ¬ ∀ c, c < nCols → ∀ r ∈ rows, ¬ (r.cells.getD c none).isSome := by
      intro h
      rw [(startTime_le hs nCols).1.mpr h] at hst; cases hst
    have hm : ∀ r, r ∈ (rows.filter (fun r => decide (s ≤ r.ts))).filter (fun r => targetOk (.fin maxMult) minRet r.target) ↔
        r ∈ rows ∧ (∀ c, c < nCols → (∃ t, ValidBy rows c t) → ValidBy rows c r.ts) ∧ TargetReaches maxMult minRet r := by
      intro r
      rw [List.mem_filter, List.mem_filter, targetOk_fin, decide_eq_true_eq, (startTime_le hs nCols).2 s hst r.ts]
      tauto
    simp only
    generalize (rows.filter (fun r => decide (s ≤ r.ts))).filter (fun r => targetOk (.fin maxMult) minRet r.target) = x at hm ⊢
    constructor
    · rintro ⟨e, he⟩
      right
      intro r hr hcon
      have hx := (hm r).mpr ⟨hr, hcon⟩
      split_ifs at he with h1 h2
      · rw [List.isEmpty_iff] at h1; rw [h1] at hx; simp at hx
      · rw [List.any_eq_true] at h2
        obtain ⟨r', hr', h3⟩ := h2
        obtain ⟨t, ht, -⟩ := ((hm r').mp hr').2.2
        rw [ht] at h3; cases h3
    · rintro (h | h)
      · exact absurd h hnot
      · refine ⟨_, if_pos ?_⟩
        rw [List.isEmpty_iff, List.eq_nil_iff_forall_not_mem]
        intro r hr
        exact h r ((hm r).mp hr).1 ((hm r).mp hr).2

example : preprocessEvents 1 (.fin (2 : ℚ)) 10 [⟨1, [some 1], some 1, 0⟩] = .error "No valid events found" := by
  decide +kernel

/-- C53: every event that is evaluated, and that happens at the time of a trade, has its full vertical window inside the
trade data: some trade is at or after the vertical barrier.  Missing: events between trades (next theorem). -/
theorem C53_full_window_partial {ts : List Int} (hs : ts.Pairwise (· ≤ ·)) (vertical : Int)
    (rows : List (EventRow K)) (r : EventRow K) (hr : r ∈ dropTrailing vertical (ts.getLastD 0) rows) (hm : r.ts ∈ ts) :
    r ∈ rows ∧ searchLeft ts r.ts < ts.length ∧ ts.getD (searchLeft ts r.ts) 0 = r.ts ∧
      ∃ t ∈ ts, ts.getD (searchLeft ts r.ts) 0 + vertical ≤ t := by
  unfold dropTrailing at hr
  rw [List.mem_filter, decide_eq_true_eq] at hr
  obtain ⟨k, hk, hk'⟩ := List.getElem_of_mem hm
  have hlt : searchLeft ts r.ts < ts.length := by
    by_contra h
    have := (lt_searchLeft hs r.ts k hk).mp (by omega)
    omega
  have hval : ts.getD (searchLeft ts r.ts) 0 = r.ts := by
    rw [List.getD_eq_getElem _ _ hlt]
    have h1 := (lt_searchLeft hs r.ts _ hlt).not.mp (lt_irrefl _)
    have h2 : searchLeft ts r.ts ≤ k := by
      by_contra h
      have := (lt_searchLeft hs r.ts k hk).mp (by omega)
      omega
    have := sorted_get_le hs hlt hk h2
    omega
  refine ⟨hr.1, hlt, hval, ts.getLastD 0, ?_, ?_⟩
  · have hne : ts ≠ [] := by rintro rfl; simp at hm
    rw [List.getLastD_eq_getLast?, List.getLast?_eq_some_getLast hne]
    exact List.getLast_mem hne
  · rw [hval]; exact hr.2

example : dropTrailing 5 ([(0 : Int), 4, 10].getLastD 0) [(⟨4, [], some 1, 1⟩ : EventRow ℚ), ⟨6, [], some 1, 1⟩] =
    [⟨4, [], some 1, 1⟩] := by decide +kernel

/-- C53 fails for an event between two trades: it is kept because the event time plus the vertical window ends at the last
trade, but its path starts at the next trade and would need data beyond the last one. -/
theorem C53_truncated_window :
    dropTrailing 5 ([(0 : Int), 8, 10].getLastD 0) [(⟨5, [], some 1, 1⟩ : EventRow ℚ)] = [⟨5, [], some 1, 1⟩] ∧
    searchLeft [(0 : Int), 8, 10] 5 = 1 ∧ ∀ t ∈ [(0 : Int), 8, 10], t < 8 + 5 := by
  decide +kernel

/-- C53 fails: the documented way to disable the vertical barrier, a very large duration, drops every event, so labelling
fails. -/
theorem C53_large_vertical_fails (log : K → K) (p : TbmParams K) (hmr : 0 ≤ p.minRet) (vertical : Int) (hv : 0 < vertical)
    (isMeta : Bool) (ts : List Int) (close : List K) (hlen : ts.length = close.length) (rows : List (EventRow K))
    (hbig : ∀ r ∈ rows, ts.getLastD 0 < r.ts + vertical) :
    computeLabels log p vertical isMeta ts close rows = .error "The event_idxs array must not be empty." := by
  have h0 : dropTrailing vertical (ts.getLastD 0) rows = [] := by
    unfold dropTrailing
    rw [List.filter_eq_nil_iff]
    intro r hr
    have := hbig r hr
    rw [decide_eq_true_eq]; omega
  unfold computeLabels
  simp only [h0, List.map_nil]
  unfold tripleBarrier
  rw [if_neg (by simp [verticalBad, hv]), if_neg (not_lt.mpr hmr), if_neg (by simp [hlen])]
  simp

example : computeLabels id (⟨.fin 1, .fin 1, none, 0, 0⟩ : TbmParams ℚ) 1000 false [0, 10] [1, 2]
    [⟨0, [], some 1, 1⟩] = .error "The event_idxs array must not be empty." := by decide +kernel

end FinML
