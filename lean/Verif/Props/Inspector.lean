/-
C61: the store inspector.  C62: the view range of a trade set.
-/
import Verif.Model.Inspector
import Verif.Props.Store
import Verif.Lemmas.Search

set_option linter.unusedSectionVars false

namespace FinML

variable {K : Type} [Field K] [LinearOrder K] [IsStrictOrderedRing K] {κ : Type} [LinearOrder κ]

/-! ### Gaps -/

theorem findGaps_cons (m a b : Int) (l : List Int) :
    findGaps m (a :: b :: l) = if b - a > m then (b, b - a) :: findGaps m (b :: l) else findGaps m (b :: l) := by
  rw [findGaps]

/-- The reported gaps are, in order, exactly the consecutive pairs further apart than `max_gap`: the
later timestamp with the distance. -/
theorem C61_gaps_exact (m : Int) (ts : List Int) :
    findGaps m ts = ((ts.zip ts.tail).filter (fun p => decide (m < p.2 - p.1))).map (fun p => (p.2, p.2 - p.1)) := by
  induction ts with
  | nil => rfl
  | cons a l ih =>
    cases l with
    | nil => rfl
    | cons b l =>
      rw [findGaps_cons, ih]
      simp only [List.tail_cons, List.zip_cons_cons]
      by_cases h : m < b - a
      · rw [if_pos h, List.filter_cons_of_pos (by simpa using h), List.map_cons]
      · rw [if_neg h, List.filter_cons_of_neg (by simpa using h)]

/-- A pair is reported iff it is a position whose distance to the previous timestamp exceeds the bound. -/
theorem C61_gap_reported_iff (m : Int) (ts : List Int) (t g : Int) :
    (t, g) ∈ findGaps m ts ↔ ∃ (i : Nat) (s : Int), ts[i]? = some s ∧ ts[i + 1]? = some t ∧ g = t - s ∧ m < g := by
  rw [C61_gaps_exact, List.mem_map]
  constructor
  · rintro ⟨⟨s, t'⟩, h, he⟩
    obtain ⟨h1, h2⟩ := List.mem_filter.mp h
    obtain ⟨i, hi⟩ := List.mem_iff_getElem?.mp h1
    rw [List.getElem?_zip_eq_some] at hi
    injection he with e1 e2
    have h2 : m < t' - s := of_decide_eq_true h2
    have e1 : t' = t := e1
    have e2 : t' - s = g := e2
    subst e1
    refine ⟨i, s, hi.1, ?_, e2.symm, by omega⟩
    have := hi.2
    rwa [List.getElem?_tail] at this
  · rintro ⟨i, s, h1, h2, h3, h4⟩
    refine ⟨(s, t), List.mem_filter.mpr ⟨List.mem_iff_getElem?.mpr ⟨i, ?_⟩, ?_⟩, ?_⟩
    · rw [List.getElem?_zip_eq_some, List.getElem?_tail]; exact ⟨h1, h2⟩
    · simp; omega
    · rw [h3]

/-- If nothing is reported, every instant between the first and the last trade has a trade at most
`max_gap` before it. -/
theorem C61_no_gap_coverage (m : Int) (ts : List Int) (h : findGaps m ts = []) (hm : 0 ≤ m) (t : Int)
    (hfirst : ∃ a, ts.head? = some a ∧ a ≤ t) (hlast : ∃ b, ts.getLast? = some b ∧ t ≤ b) :
    ∃ s ∈ ts, s ≤ t ∧ t - s ≤ m := by
  induction ts with
  | nil => obtain ⟨a, ha, _⟩ := hfirst; simp at ha
  | cons a l ih =>
    obtain ⟨a', ha', hat⟩ := hfirst
    have : a' = a := by simpa using ha'.symm
    subst this
    cases l with
    | nil =>
      obtain ⟨b, hb, htb⟩ := hlast
      have : b = a' := by simpa using hb.symm
      exact ⟨a', by simp, hat, by omega⟩
    | cons b l =>
      rw [findGaps_cons] at h
      split at h
      · simp at h
      · rename_i hgap
        by_cases hb : b ≤ t
        · obtain ⟨s, hs, h1, h2⟩ := ih h ⟨b, rfl, hb⟩ (by
            obtain ⟨c, hc, hcc⟩ := hlast
            exact ⟨c, by rw [List.getLast?_cons_cons] at hc; exact hc, hcc⟩)
          exact ⟨s, by simp [List.mem_cons.mp hs], h1, h2⟩
        · exact ⟨a', by simp, hat, by omega⟩

example : findGaps 60 [0, 10, 60, 100] = [] ∧ ([0, 10, 60, 100] : List Int).head? = some 0 ∧
    ([0, 10, 60, 100] : List Int).getLast? = some 100 := by decide

theorem mem_listKeys (st : Store κ K) (k : κ) : k ∈ listKeys st ↔ (aget k st.trades).isSome = true := by
  unfold listKeys
  induction st.trades with
  | nil => simp [aget]
  | cons p m ih =>
    obtain ⟨k', v⟩ := p
    rw [List.map_cons, List.mem_cons]
    unfold aget
    by_cases h : k' = k
    · simp [h]
    · rw [if_neg h, ← ih]
      constructor
      · rintro (h' | h')
        · exact absurd h'.symm h
        · exact h'
      · exact Or.inr

/-- The gap report has an entry for exactly the stored months, each computed from the rows most recently
saved to that month. -/
theorem C61_gaps_per_month (monthOf : Int → κ) (h : SaveHistory κ K) (hne : ∀ c ∈ h, c.2.rows ≠ []) (m : Int)
    (k : κ) (g : List (Int × Int)) :
    (k, g) ∈ inspectGaps m (runHistory monthOf (Store.empty : Store κ K) h) ↔
      ∃ f, lastSaved monthOf h k = some f ∧ g = findGaps m (f.rows.map (·.ts)) := by
  have ht := ((C20_save_history monthOf h hne).2 k).1
  unfold inspectGaps
  rw [List.mem_map]
  constructor
  · rintro ⟨k', hk', he⟩
    injection he with e1 e2
    subst e1
    rw [mem_listKeys, ht] at hk'
    cases hl : lastSaved monthOf h k' with
    | none => rw [hl] at hk'; simp at hk'
    | some f =>
      refine ⟨f, rfl, ?_⟩
      rw [← e2, ht, hl]; rfl
  · rintro ⟨f, hf, rfl⟩
    refine ⟨k, ?_, ?_⟩
    · rw [mem_listKeys, ht, hf]; rfl
    · rw [ht, hf]; rfl

example : let h : SaveHistory Nat ℚ := [(none, ⟨[⟨10, 1, 1, 1⟩, ⟨90, 1, 1, 1⟩], true, 0, []⟩), (none, ⟨[⟨110, 1, 1, 1⟩], true, 0, []⟩)]
    (∀ c ∈ h, c.2.rows ≠ []) ∧ inspectGaps 60 (runHistory (fun t => (t / 100).toNat) Store.empty h) = [(1, []), (0, [(90, 80)])] := by
  decide +kernel

/-- Violation: a hole that spans the end of a month is not reported, however large: the months are
examined separately. -/
theorem C61_boundary_gap_missed :
    ∃ (st : Store Nat ℚ) (m : Int), (∀ p ∈ inspectGaps m st, p.2 = []) ∧
      ∃ r₁ r₂ : OutTrade ℚ, (∃ rows, (1, rows) ∈ st.trades ∧ rows.getLast? = some r₁) ∧
        (∃ rows, (2, rows) ∈ st.trades ∧ rows.head? = some r₂) ∧ r₂.ts - r₁.ts > 1000 * m :=
  ⟨⟨[(1, [⟨0, 1, 1, 1⟩]), (2, [⟨100000, 1, 1, 1⟩])], [], []⟩, 60, by decide +kernel, ⟨0, 1, 1, 1⟩, ⟨100000, 1, 1, 1⟩,
    ⟨[⟨0, 1, 1, 1⟩], by simp, rfl⟩, ⟨[⟨100000, 1, 1, 1⟩], by simp, rfl⟩, by decide⟩

/-! ### Integrity summary -/

/-- `none` exactly when no stored month has metadata with a cleared integrity flag. -/
theorem C61_summary_none_iff (st : Store κ K) :
    integritySummary st = none ↔
      ∀ k, (aget k st.trades).isSome = true → ∀ m, aget k st.metas = some m → m.dataOk ≠ some false := by
  unfold integritySummary
  simp only []
  have hfm : ((listKeys st).filterMap (fun k => (issueOf st k).map (fun i => (k, i)))).isEmpty = true ↔
      ∀ k, (aget k st.trades).isSome = true → ∀ m, aget k st.metas = some m → m.dataOk ≠ some false := by
    rw [List.isEmpty_iff, List.filterMap_eq_nil_iff]
    constructor
    · intro h k hk m hm
      have := h k ((mem_listKeys st k).mpr hk)
      rw [Option.map_eq_none_iff] at this
      unfold issueOf at this
      rw [hm] at this
      by_contra hc
      have hc : m.dataOk = some false := by simpa using hc
      simp [hc] at this
    · intro h k hk
      rw [Option.map_eq_none_iff]
      unfold issueOf
      cases hm : aget k st.metas with
      | none => rfl
      | some m =>
        have := h k ((mem_listKeys st k).mp hk) m hm
        simp [this]
  split
  · rename_i hemp
    constructor
    · intro _ k hk
      rw [List.isEmpty_iff] at hemp
      have := (mem_listKeys st k).mpr hk
      rw [hemp] at this
      simp at this
    · intro _; rfl
  · split
    · rename_i h
      exact ⟨fun _ => hfm.mp h, fun _ => rfl⟩
    · rename_i h
      constructor
      · intro h'; simp at h'
      · intro h'; exact absurd (hfm.mpr h') h

/-- The summary lists exactly the stored months with a cleared flag, each with its metadata and stored
discontinuities. -/
theorem C61_summary_entries (st : Store κ K) (res : List (κ × Issue K)) (h : integritySummary st = some res)
    (k : κ) (i : Issue K) :
    (k, i) ∈ res ↔ (aget k st.trades).isSome = true ∧ aget k st.metas = some i.metadata ∧
      i.metadata.dataOk = some false ∧ i.discontinuities = aget k st.integrity := by
  unfold integritySummary at h
  simp only [] at h
  split at h
  · simp at h
  · split at h
    · simp at h
    · have h := Option.some.inj h
      rw [← h, List.mem_filterMap]
      constructor
      · rintro ⟨k', hk', he⟩
        obtain ⟨i', hi', he'⟩ := Option.map_eq_some_iff.mp he
        injection he' with e1 e2
        subst e1 e2
        unfold issueOf at hi'
        cases hm : aget k' st.metas with
        | none => rw [hm] at hi'; simp at hi'
        | some m =>
          rw [hm] at hi'
          by_cases hd : m.dataOk = some false
          · simp [hd] at hi'
            rw [← hi']
            exact ⟨(mem_listKeys st k').mp hk', rfl, hd, rfl⟩
          · simp [hd] at hi'
      · rintro ⟨h1, h2, h3, h4⟩
        refine ⟨k, (mem_listKeys st k).mpr h1, ?_⟩
        unfold issueOf
        rw [h2]
        simp only [h3, if_true, Option.map_some, ← h4]

example : (integritySummary (runHistory (fun t => (t / 100).toNat) Store.empty
    ([(none, ⟨[⟨10, 1, 1, 1⟩], false, 30, []⟩), (none, ⟨[⟨110, 1, 1, 1⟩], true, 0, []⟩)] : SaveHistory Nat ℚ))).map (·.map Prod.fst) =
      some [0] := by decide +kernel

/-- After any history of saves (with overwriting) the month `k` is reported iff the frame most recently saved
to it was flagged. -/
theorem C61_flag_of_last_save (monthOf : Int → κ) (h : SaveHistory κ K) (hne : ∀ c ∈ h, c.2.rows ≠ []) :
    (integritySummary (runHistory monthOf (Store.empty : Store κ K) h) = none ↔
      ∀ k f, lastSaved monthOf h k = some f → f.dataOk ≠ some false) ∧
    ∀ res, integritySummary (runHistory monthOf (Store.empty : Store κ K) h) = some res →
      ∀ k, (∃ i, (k, i) ∈ res) ↔ ∃ f, lastSaved monthOf h k = some f ∧ f.dataOk = some false := by
  have hh := (C20_save_history monthOf h hne).2
  constructor
  · rw [C61_summary_none_iff]
    constructor
    · intro hc k f hf
      have := hc k (by rw [(hh k).1, hf]; rfl) _ (by rw [(hh k).2, hf]; rfl)
      exact this
    · intro hc k hk m hm
      rw [(hh k).2] at hm
      cases hl : lastSaved monthOf h k with
      | none => rw [hl] at hm; simp at hm
      | some f =>
        rw [hl] at hm
        have : m.dataOk = f.dataOk := by rw [← Option.some.inj hm]
        rw [this]
        exact hc k f hl
  · intro res hres k
    constructor
    · rintro ⟨i, hi⟩
      obtain ⟨_, h2, h3, _⟩ := (C61_summary_entries _ res hres k i).mp hi
      rw [(hh k).2] at h2
      cases hl : lastSaved monthOf h k with
      | none => rw [hl] at h2; simp at h2
      | some f =>
        rw [hl] at h2
        refine ⟨f, rfl, ?_⟩
        rw [← h3, ← Option.some.inj h2]
    · rintro ⟨f, hf, hd⟩
      refine ⟨⟨_, _⟩, (C61_summary_entries _ res hres k _).mpr ⟨?_, by rw [(hh k).2, hf]; rfl, hd, rfl⟩⟩
      rw [(hh k).1, hf]; rfl

example : let h : SaveHistory Nat ℚ := [(none, ⟨[⟨10, 1, 1, 1⟩], false, 30, []⟩), (none, ⟨[⟨11, 1, 1, 1⟩], true, 0, []⟩)]
    (∀ c ∈ h, c.2.rows ≠ []) ∧ integritySummary (runHistory (fun t => (t / 100).toNat) Store.empty h) = none := by decide +kernel

/-- Violation: appending a clean part to a flagged month clears the flag, so the month disappears from the
summary although its recorded discontinuities are still in the file. -/
theorem C61_append_clears_flag :
    let d : Discontinuity := ⟨5, 9, 3, 120⟩
    let f1 : Frame ℚ := ⟨[⟨10, 1, 1, 1⟩], false, 30, [d]⟩
    let f2 : Frame ℚ := ⟨[⟨20, 1, 1, 1⟩], true, 0, []⟩
    let st1 := (saveH5 (fun _ => (1 : Nat)) none false Store.empty f1).1
    let st2 := (saveH5 (fun _ => (1 : Nat)) none false st1 f2).1
    integritySummary st1 ≠ none ∧ integritySummary st2 = none ∧ getIntegrityInfo st2 1 = .ok (some [d]) := by
  decide +kernel

/-- Metadata and integrity details of a month that is not stored are refused. -/
theorem C61_unknown_month (st : Store κ K) (k : κ) (h : aget k st.trades = none) :
    (∃ e, getMetadata st k = .error e) ∧ ∃ e, getIntegrityInfo st k = .error e := by
  unfold getMetadata getIntegrityInfo
  rw [h]
  exact ⟨⟨_, rfl⟩, ⟨_, rfl⟩⟩

example : aget 5 (runHistory (fun t => (t / 100).toNat) Store.empty ([(none, ⟨[⟨10, 1, 1, 1⟩], false, 30, []⟩)] : SaveHistory Nat ℚ)).trades = none := by
  decide +kernel

/-! ### View range -/

theorem filter_eq_take_drop {α : Type} (f : α → Int) (s e : Int) : ∀ (l : List α), (l.map f).Pairwise (· ≤ ·) →
    l.filter (fun r => decide (s ≤ f r) && decide (f r ≤ e)) =
      (l.take (searchRight (l.map f) e)).drop (searchLeft (l.map f) s) := by
  intro l
  induction l with
  | nil => intro _; simp [searchRight]
  | cons a l ih =>
    intro hs
    rw [List.map_cons, List.pairwise_cons] at hs
    have hr : searchRight ((a :: l).map f) e = if f a ≤ e then searchRight (l.map f) e + 1 else 0 := by
      unfold searchRight
      rw [List.map_cons, List.takeWhile_cons]
      by_cases h : f a ≤ e <;> simp [h]
    have hl : searchLeft ((a :: l).map f) s = if f a < s then searchLeft (l.map f) s + 1 else 0 := by
      unfold searchLeft
      rw [List.map_cons, List.takeWhile_cons]
      by_cases h : f a < s <;> simp [h]
    rw [hr, hl]
    by_cases h1 : f a ≤ e
    · rw [if_pos h1, List.take_succ_cons]
      by_cases h2 : f a < s
      · rw [if_pos h2, List.drop_succ_cons, ← ih hs.2, List.filter_cons_of_neg (by simp; omega)]
      · have hz : searchLeft (l.map f) s = 0 := by
          unfold searchLeft
          cases l with
          | nil => rfl
          | cons b l =>
            have := hs.1 (f b) (by simp)
            rw [List.map_cons, List.takeWhile_cons, if_neg (by simp; omega)]
            rfl
        rw [if_neg h2, List.drop_zero, List.filter_cons_of_pos (by simp; omega), ih hs.2, hz, List.drop_zero]
    · rw [if_neg h1, List.take_zero, List.drop_nil]
      rw [List.filter_eq_nil_iff]
      intro x hx
      rcases List.mem_cons.mp hx with rfl | hx
      · simp; omega
      · have := hs.1 (f x) (List.mem_map_of_mem hx)
        simp; omega

/-- On trades in time order the view is exactly the trades within the closed range. -/
theorem C62_view_exact (s e : Int) (rows : List (OutTrade K)) (hs : rows.Pairwise (fun a b => a.ts ≤ b.ts)) :
    viewData (some (s, e)) rows = rows.filter (fun r => decide (s ≤ r.ts) && decide (r.ts ≤ e)) := by
  unfold viewData
  simp only []
  rw [filter_eq_take_drop (fun r : OutTrade K => r.ts) s e rows (by rw [List.pairwise_map]; exact hs)]

example : ([⟨1, 1, 1, 1⟩, ⟨2, 1, 1, 1⟩, ⟨5, 1, 1, 1⟩, ⟨6, 1, 1, 1⟩] : List (OutTrade ℚ)).Pairwise (fun a b => a.ts ≤ b.ts) ∧
    viewData (some (2, 5)) ([⟨1, 1, 1, 1⟩, ⟨2, 1, 1, 1⟩, ⟨5, 1, 1, 1⟩, ⟨6, 1, 1, 1⟩] : List (OutTrade ℚ)) = [⟨2, 1, 1, 1⟩, ⟨5, 1, 1, 1⟩] := by
  decide +kernel

/-- Without a range the view is everything; a range must be increasing. -/
theorem C62_range_checked (rows : List (OutTrade K)) (s e : Int) :
    viewData none rows = rows ∧ ((∃ v, setViewRange s e = .ok v) ↔ s < e) ∧
    (s < e → setViewRange s e = .ok (some (s, e))) := by
  refine ⟨rfl, ?_, fun h => by unfold setViewRange; rw [if_neg (by omega)]⟩
  unfold setViewRange
  constructor
  · rintro ⟨v, h⟩
    by_contra hc
    rw [if_pos (by omega)] at h
    cases h
  · intro h
    exact ⟨_, by rw [if_neg (by omega)]⟩

/-- Splitting a view at an instant where no trade happens loses and repeats nothing. -/
theorem C62_split (s c e : Int) (h1 : s ≤ c) (h2 : c ≤ e) (rows : List (OutTrade K))
    (hs : rows.Pairwise (fun a b => a.ts ≤ b.ts)) (hc : ∀ r ∈ rows, r.ts ≠ c) :
    viewData (some (s, c)) rows ++ viewData (some (c, e)) rows = viewData (some (s, e)) rows := by
  rw [C62_view_exact _ _ _ hs, C62_view_exact _ _ _ hs, C62_view_exact _ _ _ hs]
  induction rows with
  | nil => rfl
  | cons a l ih =>
    rw [List.pairwise_cons] at hs
    have ih := ih hs.2 (fun r hr => hc r (by simp [hr]))
    have ha := hc a (by simp)
    by_cases hlt : a.ts < c
    · have hr : decide (c ≤ a.ts) = false := by simp; omega
      simp only [List.filter_cons, hr, Bool.false_and, Bool.false_eq_true, if_false]
      have e1 : decide (a.ts ≤ c) = true := by simp; omega
      have e2 : decide (a.ts ≤ e) = true := by simp; omega
      rw [e1, e2]
      by_cases h3 : s ≤ a.ts <;> simp [h3, ih]
    · have hnil : (a :: l).filter (fun r => decide (s ≤ r.ts) && decide (r.ts ≤ c)) = [] := by
        rw [List.filter_eq_nil_iff]
        intro x hx
        have : c < x.ts := by
          rcases List.mem_cons.mp hx with rfl | hx
          · omega
          · have := hs.1 x hx; omega
        simp; omega
      rw [hnil, List.nil_append]
      apply List.filter_congr
      intro x hx
      have : c < x.ts := by
        rcases List.mem_cons.mp hx with rfl | hx
        · omega
        · have := hs.1 x hx; omega
      have e1 : decide (c ≤ x.ts) = true := by simp; omega
      have e2 : decide (s ≤ x.ts) = true := by simp; omega
      rw [e1, e2]

example : let rows : List (OutTrade ℚ) := [⟨1, 1, 1, 1⟩, ⟨2, 1, 1, 1⟩, ⟨5, 1, 1, 1⟩, ⟨6, 1, 1, 1⟩]
    (∀ r ∈ rows, r.ts ≠ 3) ∧ viewData (some (2, 3)) rows = [⟨2, 1, 1, 1⟩] ∧ viewData (some (3, 5)) rows = [⟨5, 1, 1, 1⟩] := by decide +kernel

/-- Violation of half-open use: consecutive views that share a bound both contain the trades at that
instant, so their volumes add up to more than the volume of the whole. -/
theorem C62_shared_bound_repeats :
    ∃ (rows : List (OutTrade ℚ)) (s c e : Int), s < c ∧ c < e ∧ rows.Pairwise (fun a b => a.ts ≤ b.ts) ∧
      (viewData (some (s, c)) rows).length + (viewData (some (c, e)) rows).length > (viewData (some (s, e)) rows).length :=
  ⟨[⟨5, 1, 1, 1⟩], 0, 5, 9, by decide, by decide, by simp, by decide +kernel⟩

/-! ### Non-vacuity -/

example : findGaps 60 [0, 10, 100, 150, 300] = [(100, 90), (300, 150)] := by decide
example : findGaps 60 [0, 10, 60] = [] ∧ [0, 10, 60].head? = some (0 : Int) := by decide
example : ∃ h : SaveHistory Nat ℚ, (∀ c ∈ h, c.2.rows ≠ []) ∧
    integritySummary (runHistory (fun t => (t / 100).toNat) Store.empty h) ≠ none :=
  ⟨[(none, ⟨[⟨10, 1, 1, 1⟩], false, 30, []⟩)], by simp, by decide +kernel⟩
example : viewData (some (2, 5)) ([⟨1, 1, 1, 1⟩, ⟨2, 1, 1, 1⟩, ⟨5, 1, 1, 1⟩, ⟨6, 1, 1, 1⟩] : List (OutTrade ℚ)) =
    [⟨2, 1, 1, 1⟩, ⟨5, 1, 1, 1⟩] := by decide +kernel

end FinML
