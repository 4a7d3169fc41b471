/-
C110: loading trades and saving them again (`finmlkit/bar/data_model.py:save_h5`, `load_trades_h5`;
`finmlkit/bar/io.py:H5Inspector.get_integrity_summary`, `get_statistics`).
-/
import Verif.Props.Inspector

set_option linter.unusedSectionVars false

namespace FinML

variable {K : Type} [Field K] [LinearOrder K] [IsStrictOrderedRing K] {κ : Type} [LinearOrder κ]

theorem load_whole_month (sortIdx : List (OutTrade K) → List (OutTrade K)) (st : Store κ K) (k : κ) (rows : List (OutTrade K))
    (h : aget k st.trades = some rows) (hne : rows ≠ []) (hs : rows.Pairwise (fun a b => a.ts ≤ b.ts))
    (c : Option (List κ)) (hc : ReadOrder st (some k) none none c) :
    loadTrades sortIdx st (some k) none none c = .ok rows := by
  have hkl : keysToLoad st (some k) none none = .ok [k] := by
    unfold keysToLoad; simp [h]
  have hg : loadGroup st none none k = .ok rows := by
    unfold loadGroup; rw [h]; simp [inBounds]
  have hseq : loadSequential (loadGroup st none none) [k] = [rows] := by
    unfold loadSequential
    cases rows with
    | nil => exact absurd rfl hne
    | cons r rs => simp [hg, usable]
  have hfin : finishLoad sortIdx [rows] = .ok rows := by
    unfold finishLoad
    simp [(rowsMonotone_iff rows).mpr hs]
  unfold loadTrades
  rw [hkl]
  cases c with
  | none => simp only []; rw [hseq, hfin]
  | some p => simp only []; rw [loadParallel_eq _ _ _ (hc p rfl [k] hkl), hseq, hfin]

theorem wanted_covered (monthOf : Int → κ) (h : SaveHistory κ K) (start stop : Option Int) (k : κ)
    (hk : wanted monthOf h start stop k ≠ []) : k ∈ (h.map (saveTarget monthOf)).dedup := by
  rw [List.mem_dedup, List.mem_map]
  unfold wanted at hk
  cases hl : lastSaved monthOf h k with
  | none => rw [hl] at hk; exact absurd rfl hk
  | some f =>
    unfold lastSaved at hl
    rw [Option.map_eq_some_iff] at hl
    obtain ⟨c, hc, -⟩ := hl
    exact ⟨c, by simpa using List.mem_of_find?_eq_some hc, by simpa using List.find?_some hc⟩

/-- **C110 (one month).** Load a whole month whose rows are in time order, sequentially or by workers, and save it back to the
same month.  The call succeeds, no row of any month changes and no other month changes at all; but the integrity flag of the
month becomes `None`, the missing percentage 0, and the list of discontinuities is deleted, whatever they were. -/
theorem C110_resave_month (sortIdx : List (OutTrade K) → List (OutTrade K)) (monthOf : Int → κ) (st : Store κ K)
    (hw : Writable st) (k : κ) (r : OutTrade K) (rs : List (OutTrade K)) (h : aget k st.trades = some (r :: rs))
    (hs : (r :: rs).Pairwise (fun a b => a.ts ≤ b.ts)) (mk : Option κ) (hk : mk.getD (monthOf r.ts) = k)
    (c : Option (List κ)) (hc : ReadOrder st (some k) none none c) :
    let res := resave sortIdx monthOf st (some k) none none mk c
    res.2 = none ∧
    (∀ j, aget j res.1.trades = aget j st.trades) ∧
    (∀ j, j ≠ k → aget j res.1.metas = aget j st.metas ∧ aget j res.1.integrity = aget j st.integrity) ∧
    aget k res.1.metas = some ⟨(r :: rs).length, r.ts, ((r :: rs).getLast (by simp)).ts, none, 0⟩ ∧
    aget k res.1.integrity = none := by
  intro res
  have hl := load_whole_month sortIdx st k (r :: rs) h (by simp) hs c hc
  obtain ⟨st', e, h1, h2, h3, _⟩ := saveOps_overwrite st k (loadedFrame (r :: rs)) (hw k)
  have hres : res = (st', none) := by
    show resave sortIdx monthOf st (some k) none none mk c = _
    unfold resave
    rw [hl]
    show saveH5 monthOf mk true st (loadedFrame (r :: rs)) = _
    unfold saveH5
    show runOps st (saveOps st (mk.getD (monthOf r.ts)) (loadedFrame (r :: rs)) true) = _
    rw [hk, e]
  rw [hres]
  refine ⟨rfl, ?_, ?_, ?_, ?_⟩
  · intro j
    rw [h1 j]
    by_cases hj : j = k
    · rw [if_pos hj, hj, h]; rfl
    · rw [if_neg hj]
  · intro j hj
    rw [h2 j, h3 j, if_neg hj, if_neg hj]
    exact ⟨rfl, rfl⟩
  · rw [h2 k, if_pos rfl]
    unfold frameMeta loadedFrame
    simp [List.getLast?_eq_getLast_of_ne_nil]
  · rw [h3 k, if_pos rfl, if_pos (show (loadedFrame (r :: rs)).discontinuities = [] from rfl), h]; rfl

/-- **C110 (reports).** After such a round trip the month is no longer reported by `get_integrity_summary`, whatever its flag
was before; the entries of the other months are the same as before. -/
theorem C110_report_lost (sortIdx : List (OutTrade K) → List (OutTrade K)) (monthOf : Int → κ) (st : Store κ K)
    (hw : Writable st) (k : κ) (r : OutTrade K) (rs : List (OutTrade K)) (h : aget k st.trades = some (r :: rs))
    (hs : (r :: rs).Pairwise (fun a b => a.ts ≤ b.ts)) (mk : Option κ) (hk : mk.getD (monthOf r.ts) = k)
    (c : Option (List κ)) (hc : ReadOrder st (some k) none none c) :
    let st' := (resave sortIdx monthOf st (some k) none none mk c).1
    (∀ res, integritySummary st' = some res → ∀ i, (k, i) ∉ res) ∧
    (∀ res res', integritySummary st = some res → integritySummary st' = some res' →
      ∀ j, j ≠ k → ∀ i, (j, i) ∈ res ↔ (j, i) ∈ res') ∧
    ((∀ j m, j ≠ k → (aget j st.trades).isSome = true → aget j st.metas = some m → m.dataOk ≠ some false) →
      integritySummary st' = none) := by
  intro st'
  obtain ⟨-, h1, h2, h3, h4⟩ := C110_resave_month sortIdx monthOf st hw k r rs h hs mk hk c hc
  refine ⟨?_, ?_, ?_⟩
  · intro res hres i hi
    obtain ⟨-, hm, hf, -⟩ := (C61_summary_entries _ _ hres k i).mp hi
    rw [h3] at hm
    rw [← Option.some.inj hm] at hf
    simp at hf
  · intro res res' hres hres' j hj i
    rw [C61_summary_entries _ _ hres, C61_summary_entries _ _ hres', h1 j, (h2 j hj).1, (h2 j hj).2]
  · intro hok
    rw [C61_summary_none_iff]
    intro j hj m hm
    by_cases hjk : j = k
    · rw [hjk, h3] at hm
      rw [← Option.some.inj hm]
      simp
    · rw [h1 j] at hj
      rw [(h2 j hjk).1] at hm
      exact hok j m hjk hj hm

/-- A month with a gap of two minutes: the gap is reported, and after loading and saving the month it is not. -/
theorem C110_report_lost_witness :
    let d : Discontinuity := ⟨5, 9, 3, 120⟩
    let st := (saveH5 (fun _ => (1 : Nat)) none true Store.empty
      (⟨[⟨10, 1, 1, 1⟩, ⟨20, 1, 1, -1⟩], some false, 150, [d]⟩ : Frame ℚ)).1
    let st' := (resave id (fun _ => (1 : Nat)) st (some 1) none none none none).1
    integritySummary st = some [(1, ⟨⟨2, 10, 20, some false, 150⟩, some [d]⟩)] ∧
    integritySummary st' = none ∧ st'.trades = st.trades := by
  decide +kernel

/-- **C110 (several months).** Load a range that covers more than one month and save the result back without a month key: all
loaded rows go to the month of the first row, the other months keep theirs, and loading the range again returns every row of the
other months at least twice. -/
theorem C110_range_resave_duplicates (monthOf : Int → κ) (h : SaveHistory κ K) (hne : ∀ c ∈ h, c.2.rows ≠ [])
    (hsorted : ∀ c ∈ h, c.2.rows.Pairwise (fun a b => a.ts ≤ b.ts))
    (sortIdx : List (OutTrade K) → List (OutTrade K)) (hsort : SortsByTime sortIdx)
    (start stop : Option Int) (out : List (OutTrade K))
    (hout : loadTrades sortIdx (runHistory monthOf (Store.empty : Store κ K) h) none start stop none = .ok out) :
    let st' := (resave sortIdx monthOf (runHistory monthOf (Store.empty : Store κ K) h) none start stop none none).1
    ∃ r out', out.head? = some r ∧ loadTrades sortIdx st' none start stop none = .ok out' ∧
      ∀ k ≠ monthOf r.ts, ∀ x ∈ wanted monthOf h start stop k, 2 ≤ out'.count x := by
  intro st'
  have hro : ∀ g : SaveHistory κ K, ReadOrder (runHistory monthOf (Store.empty : Store κ K) g) none start stop none := by
    intro g p hp; simp at hp
  obtain ⟨n1, n2⟩ := C20_load_range monthOf h hne hsorted sortIdx hsort start stop none (hro h)
  have hex : ∃ k, wanted monthOf h start stop k ≠ [] := by
    by_contra hc
    push Not at hc
    obtain ⟨e, he⟩ := n1 hc
    rw [hout] at he; simp at he
  obtain ⟨out₁, ho, hso, hp⟩ := n2 hex
  rw [hout] at ho
  have ho' : out = out₁ := Except.ok.inj ho
  subst ho'
  -- every wanted row is loaded
  have hmem : ∀ k, ∀ x ∈ wanted monthOf h start stop k, x ∈ out := by
    intro k x hx
    have hcov := wanted_covered monthOf h start stop
    have := (hp _ (List.nodup_dedup _) hcov).1
    rw [this.mem_iff, List.mem_flatMap]
    exact ⟨k, hcov k (List.ne_nil_of_mem hx), hx⟩
  obtain ⟨r, rs, hr⟩ : ∃ r rs, out = r :: rs := by
    obtain ⟨k, hk⟩ := hex
    obtain ⟨x, hx⟩ := List.exists_mem_of_ne_nil _ hk
    exact List.exists_cons_of_ne_nil (List.ne_nil_of_mem (hmem k x hx))
  set h' : SaveHistory κ K := h ++ [(none, loadedFrame out)] with hh'
  have hst : st' = runHistory monthOf (Store.empty : Store κ K) h' := by
    show (resave sortIdx monthOf (runHistory monthOf (Store.empty : Store κ K) h) none start stop none none).1 = _
    unfold resave
    rw [hout, hh']
    unfold runHistory
    rw [List.foldl_append]
    rfl
  have hne' : ∀ c ∈ h', c.2.rows ≠ [] := by
    intro c hc
    rw [hh', List.mem_append, List.mem_singleton] at hc
    rcases hc with hc | rfl
    · exact hne c hc
    · show out ≠ []
      rw [hr]; simp
  have hsorted' : ∀ c ∈ h', c.2.rows.Pairwise (fun a b => a.ts ≤ b.ts) := by
    intro c hc
    rw [hh', List.mem_append, List.mem_singleton] at hc
    rcases hc with hc | rfl
    · exact hsorted c hc
    · exact hso
  have htar : saveTarget monthOf ((none, loadedFrame out) : Option κ × Frame K) = monthOf r.ts := by
    unfold saveTarget loadedFrame
    rw [hr]; rfl
  have hbound : ∀ x ∈ out, (∀ s, start = some s → s ≤ x.ts) ∧ (∀ e, stop = some e → x.ts ≤ e) := by
    intro x hx
    have hcov := wanted_covered monthOf h start stop
    rw [((hp _ (List.nodup_dedup _) hcov).1).mem_iff, List.mem_flatMap] at hx
    obtain ⟨k, -, hx⟩ := hx
    unfold wanted at hx
    cases hl : lastSaved monthOf h k with
    | none => rw [hl] at hx; simp at hx
    | some f =>
      rw [hl] at hx
      simpa using (List.mem_filter.mp hx).2
  have hw1 : wanted monthOf h' start stop (monthOf r.ts) = out := by
    unfold wanted
    rw [hh', lastSaved_concat, htar, if_pos rfl]
    show out.filter _ = out
    rw [List.filter_eq_self]
    intro x hx
    simpa using hbound x hx
  have hw2 : ∀ k ≠ monthOf r.ts, wanted monthOf h' start stop k = wanted monthOf h start stop k := by
    intro k hk
    unfold wanted
    rw [hh', lastSaved_concat, htar, if_neg hk]
  obtain ⟨-, m2⟩ := C20_load_range monthOf h' hne' hsorted' sortIdx hsort start stop none (hro h')
  obtain ⟨out', ho2, -, hp2⟩ := m2 ⟨monthOf r.ts, by rw [hw1, hr]; simp⟩
  refine ⟨r, out', by rw [hr]; rfl, by rw [hst]; exact ho2, ?_⟩
  intro k hk x hx
  have hcov' := wanted_covered monthOf h' start stop
  have hperm := (hp2 _ (List.nodup_dedup _) hcov').1
  rw [hperm.count_eq]
  have hk1 : k ∈ (h'.map (saveTarget monthOf)).dedup := hcov' k (by rw [hw2 k hk]; exact List.ne_nil_of_mem hx)
  have hk2 : monthOf r.ts ∈ (h'.map (saveTarget monthOf)).dedup := hcov' _ (by rw [hw1, hr]; simp)
  have hsub : ∀ (ms : List κ), ms.Nodup → k ∈ ms → monthOf r.ts ∈ ms →
      2 ≤ (ms.flatMap (wanted monthOf h' start stop)).count x := by
    intro ms hnd a b
    have e := (List.perm_cons_erase a)
    have b' : monthOf r.ts ∈ ms.erase k := (List.mem_erase_of_ne (Ne.symm hk)).mpr b
    have e2 := e.trans ((List.perm_cons_erase b').cons k)
    have e3 := (e2.flatMap_right (wanted monthOf h' start stop)).count_eq x
    rw [e3, List.flatMap_cons, List.flatMap_cons, List.count_append, List.count_append, hw1, hw2 k hk]
    have p1 := List.count_pos_iff.mpr hx
    have p2 := List.count_pos_iff.mpr (hmem k x hx)
    omega
  exact hsub _ (List.nodup_dedup _) hk1 hk2

example : let h : SaveHistory Nat ℚ := [(none, ⟨[⟨10, 1, 1, 1⟩], true, 0, []⟩), (none, ⟨[⟨120, 1, 1, 1⟩], true, 0, []⟩)]
    (∀ c ∈ h, c.2.rows ≠ []) ∧ (∀ c ∈ h, c.2.rows.Pairwise (fun a b => a.ts ≤ b.ts)) ∧
    loadTrades id (runHistory (fun t => (t / 100).toNat) Store.empty h) none none none none = .ok [⟨10, 1, 1, 1⟩, ⟨120, 1, 1, 1⟩] := by
  decide +kernel

/-- Two months of one trade each; after loading everything and saving it, loading everything gives three trades. -/
theorem C110_range_resave_witness :
    let m : Int → Nat := fun t => if t < 100 then 1 else 2
    let st := runHistory m (Store.empty : Store Nat ℚ)
      [(none, ⟨[⟨10, 1, 1, 1⟩], some true, 0, []⟩), (none, ⟨[⟨110, 2, 1, 1⟩], some true, 0, []⟩)]
    let srt : List (OutTrade ℚ) → List (OutTrade ℚ) := fun l => l.insertionSort (fun a b => a.ts ≤ b.ts)
    loadTrades srt st none none none none = .ok [⟨10, 1, 1, 1⟩, ⟨110, 2, 1, 1⟩] ∧
    loadTrades srt (resave srt m st none none none none none).1 none none none none =
      .ok [⟨10, 1, 1, 1⟩, ⟨110, 2, 1, 1⟩, ⟨110, 2, 1, 1⟩] := by
  decide +kernel

/-! ### Statistics -/

theorem foldl_min_sorted (l : List Int) (a : Int) (h : (a :: l).Pairwise (· ≤ ·)) : l.foldl min a = a := by
  induction l generalizing a with
  | nil => rfl
  | cons b l ih =>
    rw [List.pairwise_cons] at h
    have hab : a ≤ b := h.1 b (by simp)
    rw [List.foldl_cons, min_eq_left hab]
    apply ih
    rw [List.pairwise_cons]
    exact ⟨fun x hx => h.1 x (by simp [hx]), (List.pairwise_cons.mp h.2).2⟩

theorem foldl_max_sorted (l : List Int) (a : Int) (h : (a :: l).Pairwise (· ≤ ·)) :
    l.foldl max a = (a :: l).getLast (by simp) := by
  induction l generalizing a with
  | nil => rfl
  | cons b l ih =>
    rw [List.pairwise_cons] at h
    have hab : a ≤ b := h.1 b (by simp)
    rw [List.foldl_cons, max_eq_right hab, ih b h.2]
    simp

/-- The least and the greatest value of a non-empty list, as computed by a fold. -/
theorem fold_range {M : Type} [LinearOrder M] (l : List M) (a : M) :
    (∀ x ∈ a :: l, l.foldl min a ≤ x ∧ x ≤ l.foldl max a) ∧ l.foldl min a ∈ a :: l ∧ l.foldl max a ∈ a :: l := by
  induction l generalizing a with
  | nil => simp
  | cons b l ih =>
    obtain ⟨h1, h2, -⟩ := ih (min a b)
    obtain ⟨h1', -, h3'⟩ := ih (max a b)
    have hmin := (h1 (min a b) (by simp)).1
    have hmax := (h1' (max a b) (by simp)).2
    refine ⟨?_, ?_, ?_⟩
    · intro x hx
      rw [List.foldl_cons, List.foldl_cons]
      rcases List.mem_cons.mp hx with rfl | hx
      · exact ⟨hmin.trans (min_le_left _ _), (le_max_left _ _).trans hmax⟩
      · rcases List.mem_cons.mp hx with rfl | hx
        · exact ⟨hmin.trans (min_le_right _ _), (le_max_right _ _).trans hmax⟩
        · exact ⟨(h1 x (by simp [hx])).1, (h1' x (by simp [hx])).2⟩
    · rw [List.foldl_cons]
      rcases List.mem_cons.mp h2 with h | h
      · rw [h]
        rcases min_choice a b with e | e <;> rw [e] <;> simp
      · simp [h]
    · rw [List.foldl_cons]
      rcases List.mem_cons.mp h3' with h | h
      · rw [h]
        rcases max_choice a b with e | e <;> rw [e] <;> simp
      · simp [h]

/-- **C110 (statistics).** `get_statistics` of a month that was saved gives the number of rows of the last saved frame and the
least and greatest time, price and amount that occur in it. -/
theorem C110_statistics (monthOf : Int → κ) (h : SaveHistory κ K) (hne : ∀ c ∈ h, c.2.rows ≠ []) (k : κ) (f : Frame K)
    (hf : lastSaved monthOf h k = some f) :
    ∃ s, getStatistics (runHistory monthOf (Store.empty : Store κ K) h) k = .ok s ∧ s.recordCount = f.rows.length ∧
      (∀ x ∈ f.rows, s.firstTs ≤ x.ts ∧ x.ts ≤ s.lastTs ∧ s.priceRange.1 ≤ x.price ∧ x.price ≤ s.priceRange.2 ∧
        s.amountRange.1 ≤ x.amount ∧ x.amount ≤ s.amountRange.2) ∧
      (∃ x ∈ f.rows, x.ts = s.firstTs) ∧ (∃ x ∈ f.rows, x.ts = s.lastTs) ∧
      (∃ x ∈ f.rows, x.price = s.priceRange.1) ∧ (∃ x ∈ f.rows, x.price = s.priceRange.2) ∧
      (∃ x ∈ f.rows, x.amount = s.amountRange.1) ∧ (∃ x ∈ f.rows, x.amount = s.amountRange.2) := by
  have ht := ((C20_save_history monthOf h hne).2 k).1
  rw [hf] at ht
  have hfne : f.rows ≠ [] := by
    obtain ⟨c, hc, e⟩ := Option.map_eq_some_iff.mp (show (h.reverse.find? _).map (·.2) = some f from hf)
    rw [← e]
    exact hne c (by simpa using List.mem_of_find?_eq_some hc)
  cases hr : f.rows with
  | nil => exact absurd hr hfne
  | cons r rs =>
    rw [Option.map_some, hr] at ht
    refine ⟨_, by unfold getStatistics; rw [ht], rfl, ?_⟩
    obtain ⟨t1, t2, t3⟩ := fold_range (rs.map (·.ts)) r.ts
    obtain ⟨p1, p2, p3⟩ := fold_range (rs.map (·.price)) r.price
    obtain ⟨a1, a2, a3⟩ := fold_range (rs.map (·.amount)) r.amount
    rw [← List.map_cons (f := fun x : OutTrade K => x.ts)] at t1 t2 t3
    rw [← List.map_cons (f := fun x : OutTrade K => x.price)] at p1 p2 p3
    rw [← List.map_cons (f := fun x : OutTrade K => x.amount)] at a1 a2 a3
    refine ⟨?_, List.mem_map.mp t2, List.mem_map.mp t3, List.mem_map.mp p2, List.mem_map.mp p3, List.mem_map.mp a2,
      List.mem_map.mp a3⟩
    intro x hx
    have q1 := t1 _ (List.mem_map_of_mem hx)
    have q2 := p1 _ (List.mem_map_of_mem hx)
    have q3 := a1 _ (List.mem_map_of_mem hx)
    exact ⟨q1.1, q1.2, q2.1, q2.2, q3.1, q3.2⟩

example : let h : SaveHistory Nat ℚ := [(none, ⟨[⟨10, 1, 7, 1⟩, ⟨12, 3, 2, 1⟩], true, 0, []⟩)]
    (lastSaved (fun t => (t / 100).toNat) h 0).isSome = true ∧
    (getStatistics (runHistory (fun t => (t / 100).toNat) Store.empty h) 0).toOption.map (fun s => (s.priceRange, s.amountRange)) =
      some ((1, 3), (2, 7)) := by decide +kernel

/-- **C110 (statistics and metadata).** For a month saved in time order the counts and times of `get_statistics` are those of
`get_metadata`, which reads no trades. -/
theorem C110_statistics_metadata (monthOf : Int → κ) (h : SaveHistory κ K) (hne : ∀ c ∈ h, c.2.rows ≠ []) (k : κ) (f : Frame K)
    (hf : lastSaved monthOf h k = some f) (hs : f.rows.Pairwise (fun a b => a.ts ≤ b.ts)) :
    ∃ s m, getStatistics (runHistory monthOf (Store.empty : Store κ K) h) k = .ok s ∧
      getMetadata (runHistory monthOf (Store.empty : Store κ K) h) k = .ok m ∧
      s.recordCount = m.recordCount ∧ s.firstTs = m.firstTs ∧ s.lastTs = m.lastTs := by
  obtain ⟨ht, hm⟩ := (C20_save_history monthOf h hne).2 k
  rw [hf] at ht hm
  have hfne : f.rows ≠ [] := by
    obtain ⟨c, hc, e⟩ := Option.map_eq_some_iff.mp (show (h.reverse.find? _).map (·.2) = some f from hf)
    rw [← e]
    exact hne c (by simpa using List.mem_of_find?_eq_some hc)
  cases hr : f.rows with
  | nil => exact absurd hr hfne
  | cons r rs =>
    rw [Option.map_some, hr] at ht hm
    rw [hr] at hs
    have hs' : (r.ts :: rs.map (·.ts)).Pairwise (· ≤ ·) := by
      rw [← List.map_cons (f := fun x : OutTrade K => x.ts), List.pairwise_map]; exact hs
    refine ⟨_, _, by unfold getStatistics; rw [ht], by unfold getMetadata; rw [ht, hm]; rfl, rfl, ?_, ?_⟩
    · show (rs.map (·.ts)).foldl min r.ts = r.ts
      exact foldl_min_sorted _ _ hs'
    · show (rs.map (·.ts)).foldl max r.ts = (((r :: rs).getLast?).map (·.ts)).getD 0
      rw [foldl_max_sorted _ _ hs', List.getLast?_eq_getLast_of_ne_nil (by simp)]
      simp only [Option.map_some, Option.getD_some]
      rw [← List.getLast_map (f := fun x : OutTrade K => x.ts) (by simp)]
      rfl

/-- Not so after an append: the metadata describe the appended rows only, except for the count. -/
theorem C110_append_statistics :
    let st1 := (saveH5 (fun _ => (1 : Nat)) none false Store.empty (⟨[⟨10, 1, 1, 1⟩], some true, 0, []⟩ : Frame ℚ)).1
    let st2 := (saveH5 (fun _ => (1 : Nat)) none false st1 ⟨[⟨20, 1, 1, 1⟩], some true, 0, []⟩).1
    (getStatistics st2 1).toOption.map (fun s => (s.recordCount, s.firstTs, s.lastTs)) = some (2, 10, 20) ∧
    (getMetadata st2 1).toOption.map (fun s => (s.recordCount, s.firstTs, s.lastTs)) = some (2, 20, 20) := by
  decide +kernel

end FinML
