/-
C20 (save/load round trip), C51 (crash points of a save) and C21 (schedule-independent ingestion).
`finmlkit/bar/data_model.py:save_h5`, `load_trades_h5`; `scripts/binance2h5.py:process_all`.
-/
import Verif.Lemmas.Store

set_option linter.unusedSectionVars false

namespace FinML

variable {K : Type} [Field K] [LinearOrder K] [IsStrictOrderedRing K] {κ : Type} [LinearOrder κ]

/-! ## Specification -/

/-- A history of `save_h5` calls (with month overwrite): the optional explicit month key and the saved frame. -/
abbrev SaveHistory (κ K : Type) := List (Option κ × Frame K)

/-- The month a call writes to: the explicit key, else the month of the first trade. -/
def saveTarget (monthOf : Int → κ) (c : Option κ × Frame K) : κ :=
  c.1.getD (monthOf ((c.2.rows.head?.map (·.ts)).getD 0))

/-- The frame most recently saved to month `k`. -/
def lastSaved (monthOf : Int → κ) (h : SaveHistory κ K) (k : κ) : Option (Frame K) :=
  (h.reverse.find? (fun c => decide (saveTarget monthOf c = k))).map (·.2)

/-- Run a history on a file. -/
def runHistory (monthOf : Int → κ) (st : Store κ K) (h : SaveHistory κ K) : Store κ K :=
  h.foldl (fun st c => (saveH5 monthOf c.1 true st c.2).1) st

/-- The rows of month `k` a query `[start, stop]` should return. -/
def wanted (monthOf : Int → κ) (h : SaveHistory κ K) (start stop : Option Int) (k : κ) : List (OutTrade K) :=
  match lastSaved monthOf h k with
  | none => []
  | some f => f.rows.filter (fun r => decide ((∀ s, start = some s → s ≤ r.ts) ∧ (∀ e, stop = some e → r.ts ≤ e)))

/-- `f` sorts rows by time (not necessarily stably). -/
def SortsByTime (f : List (OutTrade K) → List (OutTrade K)) : Prop :=
  ∀ rows, (f rows).Perm rows ∧ (f rows).Pairwise (fun a b => a.ts ≤ b.ts)

/-- A possible way of reading groups: sequentially, or by workers finishing in any order. -/
def ReadOrder (st : Store κ K) (key : Option κ) (start stop : Option Int) (c : Option (List κ)) : Prop :=
  ∀ p, c = some p → ∀ ks, keysToLoad st key start stop = .ok ks → p.Perm ks

/-! ## Lemmas -/

/-- The file agrees with a description of its months. -/
structure Describes (st : Store κ K) (content : κ → Option (Frame K)) : Prop where
  trades : ∀ k, aget k st.trades = (content k).map (·.rows)
  metas : ∀ k, aget k st.metas = (content k).map frameMeta
  nodup : (akeys st.metas).Nodup

theorem describes_save (monthOf : Int → κ) (st : Store κ K) (content : κ → Option (Frame K)) (h : Describes st content)
    (c : Option κ × Frame K) (hne : c.2.rows ≠ []) :
    (saveH5 monthOf c.1 true st c.2).2 = none ∧
    Describes (saveH5 monthOf c.1 true st c.2).1
      (fun k => if k = saveTarget monthOf c then some c.2 else content k) := by
  obtain ⟨mk, f⟩ := c
  cases hr : f.rows with
  | nil => exact absurd hr hne
  | cons r rs =>
    have ht : saveTarget monthOf (mk, f) = mk.getD (monthOf r.ts) := by simp [saveTarget, hr]
    obtain ⟨st', e, h1, h2, _, h4⟩ := saveOps_overwrite st (mk.getD (monthOf r.ts)) f (by
      intro hx
      rw [h.trades] at hx
      rw [h.metas]
      cases hc : content (mk.getD (monthOf r.ts)) with
      | none => rw [hc] at hx; simp at hx
      | some _ => rfl)
    have hs : saveH5 monthOf mk true st f = (st', none) := by
      unfold saveH5
      rw [hr]
      exact e
    rw [hs, ht]
    refine ⟨rfl, ?_, ?_, h4 h.nodup⟩
    · intro k
      rw [h1 k]
      by_cases hk : k = mk.getD (monthOf r.ts)
      · simp [hk]
      · simp [hk, h.trades k]
    · intro k
      rw [h2 k]
      by_cases hk : k = mk.getD (monthOf r.ts)
      · simp [hk]
      · simp [hk, h.metas k]

theorem lastSaved_concat (monthOf : Int → κ) (h : SaveHistory κ K) (c : Option κ × Frame K) (k : κ) :
    lastSaved monthOf (h ++ [c]) k = if k = saveTarget monthOf c then some c.2 else lastSaved monthOf h k := by
  unfold lastSaved
  rw [List.reverse_append, List.reverse_singleton, List.singleton_append, List.find?_cons]
  by_cases hk : k = saveTarget monthOf c
  · simp [hk]
  · have : ¬ (saveTarget monthOf c = k) := fun e => hk e.symm
    simp [hk, this]

theorem describes_history (monthOf : Int → κ) (h : SaveHistory κ K) (hne : ∀ c ∈ h, c.2.rows ≠ []) :
    Describes (runHistory monthOf (Store.empty : Store κ K) h) (lastSaved monthOf h) := by
  induction h using List.reverseRecOn with
  | nil => exact ⟨fun _ => rfl, fun _ => rfl, by simp [runHistory, Store.empty, akeys]⟩
  | append_singleton h c ih =>
    have hd := describes_save monthOf _ _ (ih (fun x hx => hne x (by simp [hx]))) c (hne c (by simp))
    unfold runHistory
    rw [List.foldl_append]
    have := hd.2
    refine ⟨?_, ?_, this.nodup⟩
    · intro k; rw [lastSaved_concat]; exact this.trades k
    · intro k; rw [lastSaved_concat]; exact this.metas k

theorem inBounds_iff (start stop : Option Int) (t : Int) :
    inBounds start stop t = true ↔ (∀ s, start = some s → s ≤ t) ∧ (∀ e, stop = some e → t ≤ e) := by
  unfold inBounds
  cases start <;> cases stop <;> simp

theorem flatMap_perm_of_cover {α β : Type} (f : α → List β) (ks ms : List α)
    (hk : ks.Nodup) (hm : ms.Nodup) (hks : ∀ k, f k ≠ [] → k ∈ ks) (hms : ∀ k, f k ≠ [] → k ∈ ms) :
    (ks.flatMap f).Perm (ms.flatMap f) := by
  classical
  have red : ∀ l : List α, l.flatMap f = (l.filter (fun k => decide (f k ≠ []))).flatMap f := by
    intro l
    induction l with
    | nil => rfl
    | cons a l ih =>
      rw [List.flatMap_cons, List.filter_cons, ih]
      by_cases ha : f a = []
      · simp [ha]
      · simp [ha]
  rw [red ks, red ms]
  apply List.Perm.flatMap_right
  rw [List.perm_ext_iff_of_nodup (hk.filter _) (hm.filter _)]
  intro a
  simp only [List.mem_filter, decide_eq_true_eq]
  constructor
  · rintro ⟨_, h⟩; exact ⟨hms a h, h⟩
  · rintro ⟨_, h⟩; exact ⟨hks a h, h⟩

theorem loadSequential_flatten (read : κ → Except String (List (OutTrade K))) (want : κ → List (OutTrade K)) (ks : List κ)
    (h : ∀ k ∈ ks, read k = .ok (want k)) :
    (loadSequential read ks).flatten = ks.flatMap want ∧
      (loadSequential read ks = [] ↔ ∀ k ∈ ks, want k = []) := by
  induction ks with
  | nil => simp [loadSequential]
  | cons k ks ih =>
    have ih := ih (fun x hx => h x (by simp [hx]))
    unfold loadSequential at ih ⊢
    rw [List.filterMap_cons, h k (by simp), List.flatMap_cons, List.forall_mem_cons]
    cases hw : want k with
    | nil => simpa [usable] using ih
    | cons a l =>
      have e : usable (Except.ok (a :: l) : Except String (List (OutTrade K))) = some (a :: l) := rfl
      simp only [e, List.flatten_cons, ih.1]
      simp

theorem collectResults_aget (read : κ → Except String (List (OutTrade K))) (c : List κ) (k : κ) :
    aget k (collectResults read c) = if k ∈ c then usable (read k) else none := by
  have gen : ∀ (c : List κ) (d : List (κ × List (OutTrade K))),
      (∀ k', aget k' d = none ∨ aget k' d = usable (read k')) →
      aget k (c.foldl (fun d k => match usable (read k) with
        | some rows => aset k rows d
        | none => d) d) = if k ∈ c then usable (read k) else aget k d := by
    intro c
    induction c with
    | nil => intro d _; simp
    | cons a c ih =>
      intro d hd
      rw [List.foldl_cons]
      cases ha : usable (read a) with
      | none =>
        simp only []
        rw [ih d hd]
        by_cases hk : k ∈ c
        · simp [hk]
        · by_cases hka : k = a
          · subst hka
            rcases hd k with h | h
            · simp [hk, ha, h]
            · rw [ha] at h; simp [hk, ha, h]
          · simp [hk, hka]
      | some rows =>
        simp only []
        rw [ih (aset a rows d)]
        · by_cases hk : k ∈ c
          · simp [hk]
          · by_cases hka : k = a
            · subst hka
              simp [hk, ha, aget_aset]
            · simp [hk, hka, aget_aset]
        · intro k'
          rw [aget_aset]
          by_cases hk' : k' = a
          · subst hk'; right; simp [ha]
          · simp only [if_neg hk']; exact hd k'
  exact gen c [] (fun _ => Or.inl rfl)

/-- Reading by workers in any completion order gives the frames of sequential reading. -/
theorem loadParallel_eq (read : κ → Except String (List (OutTrade K))) (c ks : List κ) (hp : c.Perm ks) :
    loadParallel read c ks = loadSequential read ks := by
  unfold loadParallel loadSequential
  apply List.filterMap_congr
  intro k hk
  rw [collectResults_aget, if_pos (hp.mem_iff.mpr hk)]

theorem keysForRange_mem (st : Store κ K) (content : κ → Option (Frame K)) (h : Describes st content)
    (start stop : Option Int) (k : κ) :
    k ∈ keysForRange st start stop ↔ ∃ f, content k = some f ∧
      (∀ e, stop = some e → (frameMeta f).firstTs ≤ e) ∧ (∀ s, start = some s → s ≤ (frameMeta f).lastTs) := by
  unfold keysForRange
  rw [List.mem_insertionSort, List.mem_map]
  constructor
  · rintro ⟨⟨k', m⟩, hm, rfl⟩
    rw [List.mem_filter, mem_iff_aget _ h.nodup, h.metas] at hm
    obtain ⟨hm1, hm2⟩ := hm
    cases hc : content k' with
    | none => rw [hc] at hm1; simp at hm1
    | some f =>
      rw [hc] at hm1
      simp only [Option.map_some, Option.some.injEq] at hm1
      subst hm1
      refine ⟨f, rfl, ?_, ?_⟩
      · rintro e rfl; simp at hm2; exact hm2.1
      · rintro s rfl; simp at hm2; exact hm2.2
  · rintro ⟨f, hc, h1, h2⟩
    refine ⟨(k, frameMeta f), ?_, rfl⟩
    rw [List.mem_filter, mem_iff_aget _ h.nodup, h.metas, hc]
    refine ⟨rfl, ?_⟩
    rw [Bool.and_eq_true]
    constructor
    · cases stop with
      | none => rfl
      | some e => simpa using h1 e rfl
    · cases start with
      | none => rfl
      | some s => simpa using h2 s rfl

theorem keysForRange_nodup (st : Store κ K) (h : (akeys st.metas).Nodup) (start stop : Option Int) :
    (keysForRange st start stop).Nodup ∧ (keysForRange st start stop).Pairwise (· ≤ ·) := by
  unfold keysForRange
  refine ⟨?_, List.pairwise_insertionSort _ _⟩
  rw [(List.perm_insertionSort _ _).nodup_iff]
  exact h.sublist (List.filter_sublist.map _)

theorem sorted_bounds (l : List (OutTrade K)) (h : l.Pairwise (fun a b => a.ts ≤ b.ts)) (r : OutTrade K) (hr : r ∈ l) :
    (l.head?.map (·.ts)).getD 0 ≤ r.ts ∧ r.ts ≤ (l.getLast?.map (·.ts)).getD 0 := by
  obtain ⟨i, hi, rfl⟩ := List.getElem_of_mem hr
  rw [List.pairwise_iff_getElem] at h
  rw [List.head?_eq_getElem?, List.getElem?_eq_getElem (by omega), List.getLast?_eq_getElem?,
    List.getElem?_eq_getElem (by omega)]
  simp only [Option.map_some, Option.getD_some]
  constructor
  · rcases Nat.eq_zero_or_pos i with h' | h'
    · subst h'; exact le_refl _
    · exact h 0 i (by omega) hi h'
  · rcases Nat.lt_or_ge i (l.length - 1) with h' | h'
    · exact h i _ hi (by omega) h'
    · have : i = l.length - 1 := by omega
      subst this; exact le_refl _

theorem wanted_eq (monthOf : Int → κ) (h : SaveHistory κ K) (start stop : Option Int) (k : κ) (f : Frame K)
    (hf : lastSaved monthOf h k = some f) :
    wanted monthOf h start stop k = f.rows.filter (fun r => inBounds start stop r.ts) := by
  unfold wanted
  rw [hf]
  apply List.filter_congr
  intro r _
  rw [Bool.eq_iff_iff, inBounds_iff]
  simp

theorem loadGroup_wanted (monthOf : Int → κ) (h : SaveHistory κ K) (st : Store κ K)
    (hd : Describes st (lastSaved monthOf h)) (start stop : Option Int) (k : κ) (f : Frame K)
    (hf : lastSaved monthOf h k = some f) :
    loadGroup st start stop k = .ok (wanted monthOf h start stop k) := by
  unfold loadGroup
  rw [hd.trades, hf, wanted_eq monthOf h start stop k f hf]
  rfl

theorem lastSaved_mem (monthOf : Int → κ) (h : SaveHistory κ K) (k : κ) (f : Frame K)
    (hf : lastSaved monthOf h k = some f) : ∃ c ∈ h, c.2 = f ∧ saveTarget monthOf c = k := by
  unfold lastSaved at hf
  rw [Option.map_eq_some_iff] at hf
  obtain ⟨c, hc, rfl⟩ := hf
  exact ⟨c, List.mem_reverse.mp (List.mem_of_find?_eq_some hc), rfl, by simpa using List.find?_some hc⟩

/-! ## C20 -/

/-- **C20 (saving).** After any history of saves of non-empty frames, every save succeeded, and each month holds exactly
the rows of the frame last saved to it, with metadata describing exactly those rows. -/
theorem C20_save_history (monthOf : Int → κ) (h : SaveHistory κ K) (hne : ∀ c ∈ h, c.2.rows ≠ []) :
    (∀ pre c post, h = pre ++ c :: post → (saveH5 monthOf c.1 true (runHistory monthOf Store.empty pre) c.2).2 = none) ∧
    ∀ k, aget k (runHistory monthOf (Store.empty : Store κ K) h).trades = (lastSaved monthOf h k).map (·.rows) ∧
      aget k (runHistory monthOf (Store.empty : Store κ K) h).metas = (lastSaved monthOf h k).map (fun f =>
        ⟨f.rows.length, (f.rows.head?.map (·.ts)).getD 0, (f.rows.getLast?.map (·.ts)).getD 0, f.dataOk, f.missingPct⟩) := by
  constructor
  · rintro pre c post rfl
    have hd := describes_history monthOf pre (fun x hx => hne x (by simp [hx]))
    exact (describes_save monthOf _ _ hd c (hne c (by simp))).1
  · intro k
    have hd := describes_history monthOf h hne
    exact ⟨hd.trades k, hd.metas k⟩

example :
    let h : SaveHistory Nat ℚ := [(none, ⟨[⟨10, 1, 1, 1⟩, ⟨11, 2, 1, -1⟩], true, 0, []⟩), (none, ⟨[⟨120, 1, 1, 1⟩], true, 0, []⟩),
      (none, ⟨[⟨15, 7, 1, 1⟩], true, 0, []⟩)]
    (∀ c ∈ h, c.2.rows ≠ []) ∧ aget 0 (runHistory (fun t => (t / 100).toNat) Store.empty h).trades = some [⟨15, 7, 1, 1⟩] := by
  decide +kernel

/-- **C20 (loading a range).** After any history of saves of non-empty time-sorted frames, loading `[start, stop]` —
sequentially or with workers finishing in any order — returns, sorted by time, exactly the rows of the last-saved frames
that lie in the range (each exactly once), and fails when there are none. -/
theorem C20_load_range (monthOf : Int → κ) (h : SaveHistory κ K) (hne : ∀ c ∈ h, c.2.rows ≠ [])
    (hsorted : ∀ c ∈ h, c.2.rows.Pairwise (fun a b => a.ts ≤ b.ts))
    (sortIdx : List (OutTrade K) → List (OutTrade K)) (hsort : SortsByTime sortIdx)
    (start stop : Option Int) (c : Option (List κ))
    (hc : ReadOrder (runHistory monthOf (Store.empty : Store κ K) h) none start stop c) :
    let res := loadTrades sortIdx (runHistory monthOf (Store.empty : Store κ K) h) none start stop c
    ((∀ k, wanted monthOf h start stop k = []) → ∃ e, res = .error e) ∧
    ((∃ k, wanted monthOf h start stop k ≠ []) → ∃ out, res = .ok out ∧
      out.Pairwise (fun a b => a.ts ≤ b.ts) ∧
      ∀ months : List κ, months.Nodup → (∀ k, wanted monthOf h start stop k ≠ [] → k ∈ months) →
        out.Perm (months.flatMap (wanted monthOf h start stop)) ∧
        ((months.Pairwise (· < ·) ∧ (∀ k k', k < k' → ∀ r ∈ wanted monthOf h start stop k,
            ∀ r' ∈ wanted monthOf h start stop k', r.ts ≤ r'.ts)) →
          out = months.flatMap (wanted monthOf h start stop))) := by
  intro res
  have hd := describes_history monthOf h hne
  set st := runHistory monthOf (Store.empty : Store κ K) h with hst
  set ks := keysForRange st start stop with hks
  obtain ⟨hknd, hkle⟩ := keysForRange_nodup st hd.nodup start stop
  have hread : ∀ k ∈ ks, loadGroup st start stop k = .ok (wanted monthOf h start stop k) := by
    intro k hk
    obtain ⟨f, hf, _⟩ := (keysForRange_mem st _ hd start stop k).mp hk
    exact loadGroup_wanted monthOf h st hd start stop k f hf
  have hcover : ∀ k, wanted monthOf h start stop k ≠ [] → k ∈ ks := by
    intro k hk
    cases hf : lastSaved monthOf h k with
    | none => unfold wanted at hk; rw [hf] at hk; exact absurd rfl hk
    | some f =>
      rw [wanted_eq monthOf h start stop k f hf] at hk
      obtain ⟨r, hr⟩ := List.exists_mem_of_ne_nil _ hk
      rw [List.mem_filter, inBounds_iff] at hr
      obtain ⟨hr, hb1, hb2⟩ := hr
      obtain ⟨c', hc', rfl, _⟩ := lastSaved_mem monthOf h k f hf
      have hb := sorted_bounds _ (hsorted c' hc') r hr
      rw [keysForRange_mem st _ hd]
      exact ⟨c'.2, hf, fun e he => le_trans hb.1 (hb2 e he), fun s hs => le_trans (hb1 s hs) hb.2⟩
  obtain ⟨hfl, hnil⟩ := loadSequential_flatten (loadGroup st start stop) (wanted monthOf h start stop) ks hread
  -- the frames, whatever the read order
  have hres : ks ≠ [] → res = finishLoad sortIdx (loadSequential (loadGroup st start stop) ks) := by
    intro hks0
    have hkl : keysToLoad st none start stop = .ok ks := by
      unfold keysToLoad
      cases hk : ks with
      | nil => exact absurd hk hks0
      | cons a l => simp only [← hks, hk]
    show loadTrades sortIdx st none start stop c = _
    unfold loadTrades
    rw [hkl]
    cases c with
    | none => rfl
    | some p =>
      simp only []
      rw [loadParallel_eq _ _ _ (hc p rfl ks hkl)]
  constructor
  · intro hall
    by_cases hk0 : ks = []
    · refine ⟨"KeyError", ?_⟩
      show loadTrades sortIdx st none start stop c = _
      unfold loadTrades keysToLoad
      rw [← hks, hk0]
    · rw [hres hk0]
      unfold finishLoad
      rw [if_pos (hnil.mpr (fun k _ => hall k))]
      exact ⟨_, rfl⟩
  · rintro ⟨k0, hk0⟩
    have hk0m := hcover k0 hk0
    have hks0 : ks ≠ [] := List.ne_nil_of_mem hk0m
    have hfr : loadSequential (loadGroup st start stop) ks ≠ [] := fun e => hk0 (hnil.mp e k0 hk0m)
    refine ⟨if rowsMonotone (ks.flatMap (wanted monthOf h start stop)) then ks.flatMap (wanted monthOf h start stop)
      else sortIdx (ks.flatMap (wanted monthOf h start stop)), ?_, ?_, ?_⟩
    · rw [hres hks0]
      unfold finishLoad
      rw [if_neg hfr, hfl]
    · split_ifs with hm
      · exact (rowsMonotone_iff _).mp hm
      · exact (hsort _).2
    · intro months hnd hmc
      refine ⟨?_, ?_⟩
      · have hp := flatMap_perm_of_cover (wanted monthOf h start stop) ks months hknd hnd hcover hmc
        split_ifs
        · exact hp
        · exact (hsort _).1.trans hp
      · rintro ⟨hml, hord⟩
        have hmono : ∀ l : List κ, l.Pairwise (· < ·) →
            (l.flatMap (wanted monthOf h start stop)).Pairwise (fun a b => a.ts ≤ b.ts) := by
          intro l hl
          rw [List.pairwise_flatMap]
          refine ⟨?_, hl.imp (fun hab => hord _ _ hab)⟩
          intro k _
          cases hf : lastSaved monthOf h k with
          | none => unfold wanted; rw [hf]; exact List.Pairwise.nil
          | some f =>
            rw [wanted_eq monthOf h start stop k f hf]
            obtain ⟨c', hc', rfl, _⟩ := lastSaved_mem monthOf h k f hf
            exact (hsorted c' hc').sublist List.filter_sublist
        have hklt : ks.Pairwise (· < ·) :=
          (hkle.and hknd).imp (fun h => lt_of_le_of_ne h.1 h.2)
        rw [if_pos ((rowsMonotone_iff _).mpr (hmono ks hklt))]
        -- both are the concatenation over the non-empty months in increasing order
        have red : ∀ l : List κ, l.flatMap (wanted monthOf h start stop) =
            (l.filter (fun k => decide (wanted monthOf h start stop k ≠ []))).flatMap (wanted monthOf h start stop) := by
          intro l
          induction l with
          | nil => rfl
          | cons a l ih =>
            rw [List.flatMap_cons, List.filter_cons, ih]
            by_cases ha : wanted monthOf h start stop a = []
            · simp [ha]
            · simp [ha]
        rw [red ks, red months]
        congr 1
        have hperm : (ks.filter (fun k => decide (wanted monthOf h start stop k ≠ []))).Perm
            (months.filter (fun k => decide (wanted monthOf h start stop k ≠ []))) := by
          rw [List.perm_ext_iff_of_nodup (hknd.filter _) (hnd.filter _)]
          intro a
          simp only [List.mem_filter, decide_eq_true_eq]
          constructor
          · rintro ⟨_, h⟩; exact ⟨hmc a h, h⟩
          · rintro ⟨_, h⟩; exact ⟨hcover a h, h⟩
        exact hperm.eq_of_pairwise (fun a b _ _ h1 h2 => absurd h1 (lt_asymm h2))
          (hklt.sublist List.filter_sublist) (hml.sublist List.filter_sublist)

example :
    let h : SaveHistory Nat ℚ := [(none, ⟨[⟨10, 1, 1, 1⟩, ⟨11, 2, 1, -1⟩], true, 0, []⟩), (none, ⟨[⟨120, 1, 1, 1⟩], true, 0, []⟩)]
    (∀ c ∈ h, c.2.rows ≠ []) ∧ (∀ c ∈ h, c.2.rows.Pairwise (fun a b => a.ts ≤ b.ts)) ∧
    loadTrades id (runHistory (fun t => (t / 100).toNat) Store.empty h) none (some 11) none (some [1, 0]) =
      .ok [⟨11, 2, 1, -1⟩, ⟨120, 1, 1, 1⟩] := by
  decide +kernel

/-- **C20 (loading one month).** Loading a named month returns its last-saved rows in the range, sorted by time; an
unknown month is an error, and so is a month with no row in the range.  Sorted frames need not be assumed. -/
theorem C20_load_month (monthOf : Int → κ) (h : SaveHistory κ K) (hne : ∀ c ∈ h, c.2.rows ≠ [])
    (sortIdx : List (OutTrade K) → List (OutTrade K)) (hsort : SortsByTime sortIdx)
    (start stop : Option Int) (k : κ) (c : Option (List κ))
    (hc : ReadOrder (runHistory monthOf (Store.empty : Store κ K) h) (some k) start stop c) :
    let res := loadTrades sortIdx (runHistory monthOf (Store.empty : Store κ K) h) (some k) start stop c
    (wanted monthOf h start stop k = [] → ∃ e, res = .error e) ∧
    (wanted monthOf h start stop k ≠ [] → ∃ out, res = .ok out ∧
      out.Pairwise (fun a b => a.ts ≤ b.ts) ∧ out.Perm (wanted monthOf h start stop k) ∧
      ((wanted monthOf h start stop k).Pairwise (fun a b => a.ts ≤ b.ts) → out = wanted monthOf h start stop k)) := by
  intro res
  have hd := describes_history monthOf h hne
  set st := runHistory monthOf (Store.empty : Store κ K) h with hst
  cases hf : lastSaved monthOf h k with
  | none =>
    have hw : wanted monthOf h start stop k = [] := by unfold wanted; rw [hf]
    refine ⟨fun _ => ⟨"KeyError", ?_⟩, fun h' => absurd hw h'⟩
    show loadTrades sortIdx st (some k) start stop c = _
    unfold loadTrades keysToLoad
    simp only [hd.trades, hf]
    rfl
  | some f =>
    have hkl : keysToLoad st (some k) start stop = .ok [k] := by
      unfold keysToLoad
      simp only [hd.trades, hf]; rfl
    have hg := loadGroup_wanted monthOf h st hd start stop k f hf
    have hres : res = finishLoad sortIdx (loadSequential (loadGroup st start stop) [k]) := by
      show loadTrades sortIdx st (some k) start stop c = _
      unfold loadTrades
      rw [hkl]
      cases c with
      | none => rfl
      | some p =>
        simp only []
        rw [loadParallel_eq _ _ _ (hc p rfl [k] hkl)]
    obtain ⟨hfl, hnil⟩ := loadSequential_flatten (loadGroup st start stop) (wanted monthOf h start stop) [k]
      (by intro k' hk'; simp at hk'; subst hk'; exact hg)
    rw [hres]
    unfold finishLoad
    constructor
    · intro hw
      rw [if_pos (hnil.mpr (by intro k' hk'; simp at hk'; subst hk'; exact hw))]
      exact ⟨_, rfl⟩
    · intro hw
      rw [if_neg (fun e => hw (hnil.mp e k (by simp))), hfl]
      simp only [List.flatMap_cons, List.flatMap_nil, List.append_nil]
      refine ⟨_, rfl, ?_, ?_, ?_⟩
      · split_ifs with hm
        · exact (rowsMonotone_iff _).mp hm
        · exact (hsort _).2
      · split_ifs
        · exact List.Perm.refl _
        · exact (hsort _).1
      · intro hs
        rw [if_pos ((rowsMonotone_iff _).mpr hs)]

example :
    let h : SaveHistory Nat ℚ := [(none, ⟨[⟨10, 1, 1, 1⟩, ⟨11, 2, 1, -1⟩], true, 0, []⟩), (none, ⟨[⟨120, 1, 1, 1⟩], true, 0, []⟩)]
    loadTrades id (runHistory (fun t => (t / 100).toNat) Store.empty h) (some 0) (some 11) none none = .ok [⟨11, 2, 1, -1⟩] := by
  decide +kernel

/-- **C20 (violation: append mode).** With `overwrite_month=False` the rows are appended but the metadata describes only
the appended frame, so a range query over the earlier rows finds nothing although they are in the file. -/
theorem C20_append_hides_rows :
    let f1 : Frame ℚ := ⟨[⟨10, 1, 1, 1⟩], true, 0, []⟩
    let f2 : Frame ℚ := ⟨[⟨20, 1, 1, 1⟩], true, 0, []⟩
    let st1 := (saveH5 (fun _ => (1 : Nat)) none false Store.empty f1).1
    let st2 := (saveH5 (fun _ => (1 : Nat)) none false st1 f2).1
    aget 1 st2.trades = some [⟨10, 1, 1, 1⟩, ⟨20, 1, 1, 1⟩] ∧
    loadTrades id st2 none (some 5) (some 15) none = .error "KeyError" := by
  decide +kernel

/-- **C20 (violation: unsorted frames).** Metadata takes the first and last row, so for a frame that is not in time
order a range query can miss rows (time order is guaranteed only after pre-processing). -/
theorem C20_unsorted_frame_hides_rows :
    let f : Frame ℚ := ⟨[⟨20, 1, 1, 1⟩, ⟨10, 1, 1, 1⟩, ⟨30, 1, 1, 1⟩], true, 0, []⟩
    let st := (saveH5 (fun _ => (1 : Nat)) none true Store.empty f).1
    loadTrades id st none (some 5) (some 15) none = .error "KeyError" := by
  decide +kernel

example :
    let h : SaveHistory Nat ℚ := [(none, ⟨[⟨10, 1, 1, 1⟩, ⟨11, 2, 1, -1⟩], true, 0, []⟩),
      (none, ⟨[⟨120, 1, 1, 1⟩], true, 0, []⟩), (none, ⟨[⟨15, 7, 1, 1⟩, ⟨16, 7, 1, 1⟩], true, 0, []⟩)]
    (∀ c ∈ h, c.2.rows ≠ []) ∧ (∀ c ∈ h, c.2.rows.Pairwise (fun a b => a.ts ≤ b.ts)) ∧
    loadTrades id (runHistory (fun t => (t / 100).toNat) Store.empty h) none (some 16) none (some [1, 0]) =
      .ok [⟨16, 7, 1, 1⟩, ⟨120, 1, 1, 1⟩] := by
  decide +kernel

/-! ## C51: crash points -/

/-- Keys touched by an operation. -/
def StoreOp.key : StoreOp κ K → κ
  | .rmTrades k => k | .rmMeta k => k | .rmIntegrity k => k
  | .putTrades k _ => k | .appendTrades k _ => k | .putMeta k _ => k | .putIntegrity k _ => k

theorem run_frame (st st' : Store κ K) (o : StoreOp κ K) (h : o.run st = .ok st') (k : κ) (hk : k ≠ o.key) :
    aget k st'.trades = aget k st.trades ∧ aget k st'.metas = aget k st.metas ∧
      aget k st'.integrity = aget k st.integrity := by
  cases o <;> simp only [StoreOp.run] at h <;> simp only [StoreOp.key] at hk
  all_goals (try split at h) <;> first
    | (cases h; done)
    | (obtain rfl := Except.ok.inj h; simp [aget_adel, aget_aset, hk])

theorem runOps_frame (st : Store κ K) (ops : List (StoreOp κ K)) (k : κ) (hk : ∀ o ∈ ops, k ≠ o.key) :
    aget k (runOps st ops).1.trades = aget k st.trades ∧ aget k (runOps st ops).1.metas = aget k st.metas ∧
      aget k (runOps st ops).1.integrity = aget k st.integrity := by
  induction ops generalizing st with
  | nil => exact ⟨rfl, rfl, rfl⟩
  | cons o ops ih =>
    unfold runOps
    cases ho : o.run st with
    | error e => exact ⟨rfl, rfl, rfl⟩
    | ok st' =>
      simp only []
      have h1 := ih st' (fun x hx => hk x (by simp [hx]))
      have h2 := run_frame st st' o ho k (hk o (by simp))
      exact ⟨h1.1.trans h2.1, h1.2.1.trans h2.2.1, h1.2.2.trans h2.2.2⟩

theorem saveOps_keys (st : Store κ K) (k : κ) (f : Frame K) (ow : Bool) : ∀ o ∈ saveOps st k f ow, o.key = k := by
  intro o ho
  unfold saveOps at ho
  simp only [List.mem_append] at ho
  rcases ho with (ho | ho) | ho
  · split_ifs at ho <;> simp at ho <;> aesop (add norm StoreOp.key)
  · simp at ho; subst ho; rfl
  · split_ifs at ho <;> simp at ho; subst ho; rfl

/-- **C51 (crash isolation).** Stop a save after any number of its file operations: every other month is untouched, and
the saved month's rows are the old rows, the new rows, absent (or, in append mode, old followed by new) — never
anything else. -/
theorem C51_crash_isolation (st : Store κ K) (k : κ) (f : Frame K) (ow : Bool) (n : Nat) :
    let st' := (runOps st ((saveOps st k f ow).take n)).1
    (∀ k', k' ≠ k → aget k' st'.trades = aget k' st.trades ∧ aget k' st'.metas = aget k' st.metas ∧
      aget k' st'.integrity = aget k' st.integrity) ∧
    (aget k st'.trades = aget k st.trades ∨ aget k st'.trades = none ∨ aget k st'.trades = some f.rows ∨
      (ow = false ∧ ∃ old, aget k st.trades = some old ∧ aget k st'.trades = some (old ++ f.rows))) := by
  intro st'
  constructor
  · intro k' hk'
    exact runOps_frame st _ k' (fun o ho => by
      rw [saveOps_keys st k f ow o (List.mem_of_mem_take ho)]; exact hk')
  · -- follow the rows of month k
    have track : ∀ (ops : List (StoreOp κ K)) (s : Store κ K) (P : Option (List (OutTrade K)) → Prop),
        P (aget k s.trades) →
        (∀ o ∈ ops, ∀ s s', P (aget k s.trades) → o.run s = .ok s' → P (aget k s'.trades)) →
        P (aget k (runOps s ops).1.trades) := by
      intro ops
      induction ops with
      | nil => intro s P h _; exact h
      | cons o ops ih =>
        intro s P h hstep
        unfold runOps
        cases ho : o.run s with
        | error e => exact h
        | ok s' =>
          exact ih s' P (hstep o (by simp) s s' h ho) (fun x hx => hstep x (by simp [hx]))
    by_cases happ : (aget k st.trades).isSome = true ∧ ow = false
    · obtain ⟨hex, rfl⟩ := happ
      obtain ⟨old, hold⟩ := Option.isSome_iff_exists.mp hex
      -- the only operation on rows is the append, which comes first
      cases n with
      | zero => left; rfl
      | succ n =>
        right; right; right
        refine ⟨rfl, old, hold, ?_⟩
        have hops : ∃ tl, saveOps st k f false = .appendTrades k f.rows :: tl ∧
            ∀ o ∈ tl, ∀ s s' : Store κ K, o.run s = .ok s' → s'.trades = s.trades := by
          refine ⟨_, by unfold saveOps; simp [hex]; rfl, ?_⟩
          intro o ho s s' h
          simp only [List.mem_cons] at ho
          rcases ho with rfl | ho
          · obtain rfl := Except.ok.inj h; rfl
          · split_ifs at ho <;> simp at ho
            subst ho; obtain rfl := Except.ok.inj h; rfl
        obtain ⟨tl, htl, hpres⟩ := hops
        show aget k (runOps st ((saveOps st k f false).take (n + 1))).1.trades = _
        rw [htl, List.take_succ_cons]
        unfold runOps
        simp only [StoreOp.run]
        apply track _ _ (fun x => x = some (old ++ f.rows))
        · simp [aget_aset, hold]
        · intro o ho s s' h1 h2
          rw [hpres o (List.mem_of_mem_take ho) s s' h2]; exact h1
    · have key : ∀ x : Option (List (OutTrade K)), (x = aget k st.trades ∨ x = none ∨ x = some f.rows) →
          (x = aget k st.trades ∨ x = none ∨ x = some f.rows ∨
            (ow = false ∧ ∃ old, aget k st.trades = some old ∧ x = some (old ++ f.rows))) := by
        rintro x (h | h | h)
        · exact Or.inl h
        · exact Or.inr (Or.inl h)
        · exact Or.inr (Or.inr (Or.inl h))
      apply key
      apply track _ _ (fun x => x = aget k st.trades ∨ x = none ∨ x = some f.rows) (Or.inl rfl)
      intro o ho s s' h1 h2
      have ho := List.mem_of_mem_take ho
      have hcase : o = .rmTrades k ∨ o = .putTrades k f.rows ∨ (∀ s s' : Store κ K, o.run s = .ok s' → s'.trades = s.trades) := by
        unfold saveOps at ho
        have triv : ∀ k, (∀ s s' : Store κ K, (StoreOp.rmMeta k : StoreOp κ K).run s = .ok s' → s'.trades = s.trades) := by
          intro k s s' h
          simp only [StoreOp.run] at h
          split at h
          · obtain rfl := Except.ok.inj h; rfl
          · cases h
        have triv2 : ∀ k, (∀ s s' : Store κ K, (StoreOp.rmIntegrity k : StoreOp κ K).run s = .ok s' → s'.trades = s.trades) := by
          intro k s s' h
          simp only [StoreOp.run] at h
          split at h
          · obtain rfl := Except.ok.inj h; rfl
          · cases h
        simp only [List.mem_append] at ho
        rcases ho with (ho | ho) | ho
        · split_ifs at ho with h1 h2 h3
          · simp at ho
            rcases ho with rfl | rfl | rfl | rfl
            · exact Or.inl rfl
            · exact Or.inr (Or.inr (triv k))
            · exact Or.inr (Or.inr (triv2 k))
            · exact Or.inr (Or.inl rfl)
          · simp at ho
            rcases ho with rfl | rfl | rfl
            · exact Or.inl rfl
            · exact Or.inr (Or.inr (triv k))
            · exact Or.inr (Or.inl rfl)
          · exfalso
            apply happ
            refine ⟨h3, ?_⟩
            cases ow
            · rfl
            · simp [h3] at h1
          · simp at ho; subst ho; exact Or.inr (Or.inl rfl)
        · simp at ho; subst ho
          refine Or.inr (Or.inr ?_)
          intro s s' h; obtain rfl := Except.ok.inj h; rfl
        · split_ifs at ho <;> simp at ho; subst ho
          refine Or.inr (Or.inr ?_)
          intro s s' h; obtain rfl := Except.ok.inj h; rfl
      rcases hcase with rfl | rfl | hpres
      · simp only [StoreOp.run] at h2
        split at h2
        · obtain rfl := Except.ok.inj h2
          simp [aget_adel]
        · cases h2
      · obtain rfl := Except.ok.inj h2
        simp [aget_aset]
      · simp only [hpres s s' h2]; exact h1

/-- **C51 (violation: not atomic).** A crash after the old rows are removed loses the month; a crash between writing rows
and metadata leaves a month that time-range loads cannot find (although it can be loaded by name), and the next save to
it removes the rows and raises. -/
theorem C51_crash_not_atomic :
    let f1 : Frame ℚ := ⟨[⟨10, 1, 1, 1⟩], true, 0, []⟩
    let f2 : Frame ℚ := ⟨[⟨20, 1, 1, 1⟩], true, 0, []⟩
    let st := (saveH5 (fun _ => (1 : Nat)) none true Store.empty f1).1
    let lost := (runOps st ((saveOps st 1 f2 true).take 2)).1
    let orphan := (runOps st ((saveOps st 1 f2 true).take 3)).1
    aget 1 lost.trades = none ∧
    aget 1 orphan.trades = some [⟨20, 1, 1, 1⟩] ∧
    loadTrades id orphan (some 1) none none none = .ok [⟨20, 1, 1, 1⟩] ∧
    loadTrades id orphan none none none none = .error "KeyError" ∧
    (saveH5 (fun _ => (1 : Nat)) none true orphan f2) = (⟨[], [], []⟩, some "KeyError") := by
  decide +kernel

/-- **C51 (orphan month, in general).** Whenever a month has rows but no metadata, saving it raises and the rows are
gone; saving it once more succeeds. -/
theorem C51_orphan_recovery (st : Store κ K) (k : κ) (f : Frame K)
    (h1 : (aget k st.trades).isSome = true) (h2 : aget k st.metas = none) :
    (runOps st (saveOps st k f true)).2 = some "KeyError" ∧
    aget k (runOps st (saveOps st k f true)).1.trades = none ∧
    (runOps (runOps st (saveOps st k f true)).1 (saveOps (runOps st (saveOps st k f true)).1 k f true)).2 = none ∧
    aget k (runOps (runOps st (saveOps st k f true)).1 (saveOps (runOps st (saveOps st k f true)).1 k f true)).1.trades
      = some f.rows := by
  rw [saveOps_orphan st k f h1 h2]
  have hn : aget k (adel k st.trades) = none := by simp [aget_adel]
  obtain ⟨st', e, e1, _⟩ := saveOps_overwrite { st with trades := adel k st.trades } k f
    (by intro h; simp only [hn] at h; simp at h)
  rw [e]
  refine ⟨rfl, hn, rfl, ?_⟩
  rw [e1 k, if_pos rfl]

example : let st : Store Nat ℚ := { (Store.empty : Store Nat ℚ) with trades := [(1, [⟨10, 1, 1, 1⟩])] }
    (aget 1 st.trades).isSome = true ∧ aget 1 st.metas = none := by decide +kernel

/-- **C51 (empty frame).** Saving an empty frame under an explicit month key always raises; if the month had rows and metadata
and is to be overwritten, its rows, metadata and integrity records are gone afterwards, and every other month is unchanged. -/
theorem C51_empty_frame_deletes (monthOf : Int → κ) (st : Store κ K) (k : κ) (f : Frame K) (hf : f.rows = [])
    (h1 : (aget k st.trades).isSome = true) (h2 : (aget k st.metas).isSome = true) :
    (saveH5 monthOf (some k) true st f).2 = some "IndexError" ∧
    ∀ j, aget j (saveH5 monthOf (some k) true st f).1.trades = (if j = k then none else aget j st.trades) ∧
      aget j (saveH5 monthOf (some k) true st f).1.metas = (if j = k then none else aget j st.metas) ∧
      aget j (saveH5 monthOf (some k) true st f).1.integrity = (if j = k then none else aget j st.integrity) := by
  by_cases h3 : (aget k st.integrity).isSome = true
  · have e : saveH5 monthOf (some k) true st f =
        (⟨adel k st.trades, adel k st.metas, adel k st.integrity⟩, some "IndexError") := by
      simp [saveH5, hf, saveOpsEmpty, h1, h3, runOps, StoreOp.run, h2]
    rw [e]
    refine ⟨rfl, fun j => ?_⟩
    simp only [aget_adel]
    refine ⟨?_, ?_, ?_⟩ <;> by_cases hj : j = k <;> simp [hj]
  · have e : saveH5 monthOf (some k) true st f =
        (⟨adel k st.trades, adel k st.metas, st.integrity⟩, some "IndexError") := by
      simp [saveH5, hf, saveOpsEmpty, h1, h3, runOps, StoreOp.run, h2]
    rw [e]
    refine ⟨rfl, fun j => ?_⟩
    simp only [aget_adel]
    refine ⟨?_, ?_, ?_⟩ <;> by_cases hj : j = k <;> simp [hj]
    simpa using h3

example : let st := (saveH5 (fun _ => (1 : Nat)) none true Store.empty (⟨[⟨10, 1, 1, 1⟩], true, 0, []⟩ : Frame ℚ)).1
    (aget 1 st.trades).isSome = true ∧ (aget 1 st.metas).isSome = true := by decide +kernel

/-- **C51 (empty frame, otherwise).** Without a month key, when appending, or when the month has no rows, saving an empty frame
raises and changes nothing. -/
theorem C51_empty_frame_otherwise (monthOf : Int → κ) (st : Store κ K) (mk : Option κ) (ow : Bool) (f : Frame K)
    (hf : f.rows = []) (h : ∀ k, mk = some k → ow = true → aget k st.trades = none) :
    saveH5 monthOf mk ow st f = (st, some "IndexError") := by
  cases mk with
  | none => simp [saveH5, hf]
  | some k =>
    cases ow with
    | false => simp [saveH5, hf, saveOpsEmpty, runOps]
    | true => simp [saveH5, hf, saveOpsEmpty, runOps, h k rfl rfl]

example :
    let st := (saveH5 (fun _ => (1 : Nat)) none true Store.empty (⟨[⟨10, 1, 1, 1⟩], true, 0, []⟩ : Frame ℚ)).1
    (saveH5 (fun _ => (1 : Nat)) (some 1) true st ⟨[], true, 0, []⟩) = (Store.empty, some "IndexError") := by decide +kernel

/-! ## C21 -/

/-- The file can be written to by the ingestion script: a month has rows only if it has metadata. -/
def Writable (st : Store κ K) : Prop := ∀ k, (aget k st.trades).isSome = true → (aget k st.metas).isSome = true

theorem writer_spec (monthOf : Int → κ) (fs : List (Frame K)) (st : Store κ K) (hw : Writable st)
    (hne : ∀ f ∈ fs, f.rows ≠ []) (hd : (fs.map (fun f => saveTarget monthOf (none, f))).Nodup) :
    ∀ k, (∀ f ∈ fs, saveTarget monthOf (none, f) = k →
        aget k (writer monthOf st fs).trades = some f.rows ∧ aget k (writer monthOf st fs).metas = some (frameMeta f) ∧
        aget k (writer monthOf st fs).integrity = (if f.discontinuities = [] then
          (if (aget k st.trades).isSome then none else aget k st.integrity) else some f.discontinuities)) ∧
      ((∀ f ∈ fs, saveTarget monthOf (none, f) ≠ k) →
        aget k (writer monthOf st fs).trades = aget k st.trades ∧
        aget k (writer monthOf st fs).metas = aget k st.metas ∧
        aget k (writer monthOf st fs).integrity = aget k st.integrity) := by
  induction fs generalizing st with
  | nil => intro k; simp [writer]
  | cons f fs ih =>
    cases hr : f.rows with
    | nil => exact absurd hr (hne f (by simp))
    | cons r rs =>
      have ht : saveTarget monthOf (none, f) = monthOf r.ts := by simp [saveTarget, hr]
      obtain ⟨st', e, h1, h2, h3, _⟩ := saveOps_overwrite st (monthOf r.ts) f (hw _)
      have hs : saveH5 monthOf none true st f = (st', none) := by
        unfold saveH5
        rw [hr]
        exact e
      have hw' : Writable st' := by
        intro k
        rw [h1 k, h2 k]
        by_cases hk : k = monthOf r.ts
        · simp [hk]
        · simp only [if_neg hk]; exact hw k
      rw [List.map_cons, List.nodup_cons] at hd
      have ih := ih st' hw' (fun x hx => hne x (by simp [hx])) hd.2
      unfold writer
      rw [hs]
      simp only []
      intro k
      constructor
      · intro g hg hgk
        rcases List.mem_cons.mp hg with rfl | hg
        · have hnot : ∀ f' ∈ fs, saveTarget monthOf (none, f') ≠ k := by
            intro f' hf' e'
            exact hd.1 (List.mem_map.mpr ⟨f', hf', by rw [e', hgk]⟩)
          have := (ih k).2 hnot
          rw [this.1, this.2.1, this.2.2, h1, h2, h3]
          rw [ht] at hgk
          simp [hgk]
        · have := (ih k).1 g hg hgk
          refine ⟨this.1, this.2.1, ?_⟩
          rw [this.2.2]
          have hk : k ≠ monthOf r.ts := by
            intro e'
            exact hd.1 (List.mem_map.mpr ⟨g, hg, by rw [hgk, ht, e']⟩)
          rw [h1 k, h3 k, if_neg hk, if_neg hk]
      · intro hall
        have hk : k ≠ monthOf r.ts := fun e' => hall f (by simp) (by rw [ht, e'])
        have := (ih k).2 (fun f' hf' => hall f' (by simp [hf']))
        rw [this.1, this.2.1, this.2.2, h1 k, h2 k, h3 k]
        simp [hk]

/-- **C21 (outcome).** When every archive yields non-empty trades of a different month, the run leaves each of those
months with exactly its trades and metadata and changes no other month, whatever the completion order and whichever
archives raise or are skipped. -/
theorem C21_ingest_outcome (monthOf : Int → κ) (st : Store κ K) (hw : Writable st) (completion : List (TaskResult K))
    (hne : ∀ f, TaskResult.trades f ∈ completion → f.rows ≠ [])
    (hd : ((enqueued completion).map (fun f => saveTarget monthOf (none, f))).Nodup) (k : κ) :
    (∀ f, TaskResult.trades f ∈ completion → saveTarget monthOf (none, f) = k →
        aget k (processAll monthOf st completion).trades = some f.rows ∧
        aget k (processAll monthOf st completion).metas = some (frameMeta f)) ∧
    ((∀ f, TaskResult.trades f ∈ completion → saveTarget monthOf (none, f) ≠ k) →
        aget k (processAll monthOf st completion).trades = aget k st.trades ∧
        aget k (processAll monthOf st completion).metas = aget k st.metas ∧
        aget k (processAll monthOf st completion).integrity = aget k st.integrity) := by
  have hmem : ∀ f, f ∈ enqueued completion ↔ TaskResult.trades f ∈ completion := by
    intro f
    unfold enqueued
    rw [List.mem_filterMap]
    constructor
    · rintro ⟨r, hr, he⟩
      cases r with
      | raised => simp at he
      | skipped => simp at he
      | trades g => simp at he; subst he; exact hr
    · intro h; exact ⟨_, h, rfl⟩
  have := writer_spec monthOf (enqueued completion) st hw (fun f hf => hne f ((hmem f).mp hf)) hd k
  unfold processAll
  exact ⟨fun f hf he => ⟨(this.1 f ((hmem f).mpr hf) he).1, (this.1 f ((hmem f).mpr hf) he).2.1⟩,
    fun h => this.2 (fun f hf => h f ((hmem f).mp hf))⟩

example :
    let a : Frame ℚ := ⟨[⟨10, 1, 1, 1⟩], true, 0, []⟩
    let b : Frame ℚ := ⟨[⟨20, 1, 1, 1⟩], true, 0, []⟩
    Writable (Store.empty : Store Nat ℚ) ∧
    ((enqueued [.trades a, .raised, .trades b]).map (fun f => saveTarget (fun t => (t / 10).toNat) (none, f))).Nodup ∧
    aget 2 (processAll (fun t => (t / 10).toNat) Store.empty [.trades a, .raised, .trades b]).trades = some b.rows :=
  ⟨fun _ h => by simp [Store.empty, aget] at h, by decide +kernel, by decide +kernel⟩

/-- **C21 (schedule independence).** Two runs whose workers finish in different orders leave the same file contents. -/
theorem C21_schedule_independent (monthOf : Int → κ) (st : Store κ K) (hw : Writable st)
    (c1 c2 : List (TaskResult K)) (hp : c1.Perm c2)
    (hne : ∀ f, TaskResult.trades f ∈ c1 → f.rows ≠ [])
    (hd : ((enqueued c1).map (fun f => saveTarget monthOf (none, f))).Nodup) (k : κ) :
    aget k (processAll monthOf st c1).trades = aget k (processAll monthOf st c2).trades ∧
    aget k (processAll monthOf st c1).metas = aget k (processAll monthOf st c2).metas ∧
    aget k (processAll monthOf st c1).integrity = aget k (processAll monthOf st c2).integrity := by
  have hpe : (enqueued c1).Perm (enqueued c2) := hp.filterMap _
  have hmem : ∀ c : List (TaskResult K), ∀ f, f ∈ enqueued c → TaskResult.trades f ∈ c := by
    intro c f hf
    unfold enqueued at hf
    rw [List.mem_filterMap] at hf
    obtain ⟨r, hr, he⟩ := hf
    cases r with
    | raised => simp at he
    | skipped => simp at he
    | trades g => simp at he; subst he; exact hr
  have s1 := writer_spec monthOf (enqueued c1) st hw (fun f hf => hne f (hmem _ f hf)) hd k
  have s2 := writer_spec monthOf (enqueued c2) st hw (fun f hf => hne f (hp.mem_iff.mpr (hmem _ f hf)))
    ((hpe.map _).nodup_iff.mp hd) k
  unfold processAll
  by_cases hex : ∃ f ∈ enqueued c1, saveTarget monthOf (none, f) = k
  · obtain ⟨f, hf, he⟩ := hex
    have a := s1.1 f hf he
    have b := s2.1 f (hpe.mem_iff.mp hf) he
    exact ⟨a.1.trans b.1.symm, a.2.1.trans b.2.1.symm, a.2.2.trans b.2.2.symm⟩
  · have hno : ∀ f ∈ enqueued c1, saveTarget monthOf (none, f) ≠ k := fun f hf he => hex ⟨f, hf, he⟩
    have a := s1.2 hno
    have b := s2.2 (fun f hf => hno f (hpe.mem_iff.mpr hf))
    exact ⟨a.1.trans b.1.symm, a.2.1.trans b.2.1.symm, a.2.2.trans b.2.2.symm⟩

example :
    let a : Frame ℚ := ⟨[⟨10, 1, 1, 1⟩], true, 0, []⟩
    let b : Frame ℚ := ⟨[⟨20, 1, 1, 1⟩], true, 0, []⟩
    aget 2 (processAll (fun t => (t / 10).toNat) Store.empty [.trades b, .trades a]).trades =
      aget 2 (processAll (fun t => (t / 10).toNat) Store.empty [.trades a, .trades b]).trades := by decide +kernel

/-- **C21 (why months must differ).** Two archives of the same month: the file keeps whichever finished last. -/
theorem C21_same_month_races :
    let a : Frame ℚ := ⟨[⟨10, 1, 1, 1⟩], true, 0, []⟩
    let b : Frame ℚ := ⟨[⟨20, 1, 1, 1⟩], true, 0, []⟩
    aget 1 (processAll (fun _ => (1 : Nat)) Store.empty [.trades a, .trades b]).trades ≠
    aget 1 (processAll (fun _ => (1 : Nat)) Store.empty [.trades b, .trades a]).trades := by
  decide +kernel

/-- **C21 (writer failure).** If a month was left without metadata by a crash, ingesting it stops the writer: the months
after it in the queue are silently not written. -/
theorem C21_writer_stops :
    let old : Store Nat ℚ := ⟨[(1, [⟨10, 1, 1, 1⟩])], [], []⟩
    let a : Frame ℚ := ⟨[⟨10, 1, 1, 1⟩], true, 0, []⟩
    let b : Frame ℚ := ⟨[⟨20, 1, 1, 1⟩], true, 0, []⟩
    processAll (fun t => (t / 10).toNat) old [.trades a, .trades b] = ⟨[], [], []⟩ := by
  decide +kernel

example :
    let a : Frame ℚ := ⟨[⟨10, 1, 1, 1⟩], true, 0, []⟩
    let b : Frame ℚ := ⟨[⟨20, 1, 1, 1⟩], true, 0, []⟩
    Writable (Store.empty : Store Nat ℚ) ∧
    ((enqueued [.trades a, .raised, .trades b]).map (fun f => saveTarget (fun t => (t / 10).toNat) (none, f))).Nodup ∧
    aget 2 (processAll (fun t => (t / 10).toNat) Store.empty [.trades a, .raised, .trades b]).trades = some b.rows :=
  ⟨fun _ h => by simp [Store.empty, aget] at h, by decide +kernel, by decide +kernel⟩

end FinML
