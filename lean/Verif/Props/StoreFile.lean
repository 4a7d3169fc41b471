/-
C119: file modes and view ranges of saves.
-/
import Verif.Model.StoreFile
import Verif.Props.Store
import Verif.Props.Inspector

set_option linter.unusedSectionVars false

namespace FinML

variable {K : Type} [Field K] [LinearOrder K] [IsStrictOrderedRing K] {κ : Type} [LinearOrder κ]

/-- A history of saves with their modes (month overwrite on): mode, explicit month key, object. -/
abbrev FileHistory (κ K : Type) := List (FileMode × Option κ × SavedTrades K)

/-- Run a history on a file. -/
def runFile (monthOf : Int → κ) (file : Option (Store κ K)) (h : FileHistory κ K) : Option (Store κ K) :=
  h.foldl (fun file c => (saveFile monthOf c.1 c.2.1 true file c.2.2).1) file

/-- What the calls of a history save. -/
def savesOf (h : FileHistory κ K) : SaveHistory κ K := h.map (fun c => (c.2.1, c.2.2.savedFrame))

theorem saveFile_append (monthOf : Int → κ) (mk : Option κ) (ow : Bool) (st : Store κ K) (o : SavedTrades K)
    (hne : o.savedFrame.rows ≠ []) :
    saveFile monthOf .append mk ow (some st) o = (some (saveH5 monthOf mk ow st o.savedFrame).1, (saveH5 monthOf mk ow st o.savedFrame).2) := by
  simp [saveFile, hne, openFile]

theorem saveFile_write (monthOf : Int → κ) (mk : Option κ) (ow : Bool) (file : Option (Store κ K)) (o : SavedTrades K)
    (hne : o.savedFrame.rows ≠ []) :
    saveFile monthOf .write mk ow file o =
      (some (saveH5 monthOf mk ow Store.empty o.savedFrame).1, (saveH5 monthOf mk ow Store.empty o.savedFrame).2) := by
  simp [saveFile, hne, openFile]

theorem runFile_append (monthOf : Int → κ) (st : Store κ K) (h : FileHistory κ K) (hm : ∀ c ∈ h, c.1 = .append)
    (hne : ∀ c ∈ h, c.2.2.savedFrame.rows ≠ []) : runFile monthOf (some st) h = some (runHistory monthOf st (savesOf h)) := by
  induction h generalizing st with
  | nil => rfl
  | cons c h ih =>
    obtain ⟨m, mk, o⟩ := c
    have e : m = .append := hm _ List.mem_cons_self
    subst e
    have := saveFile_append monthOf mk true st o (hne _ List.mem_cons_self)
    unfold runFile runHistory savesOf at *
    simp only [List.foldl_cons, List.map_cons, this]
    exact ih _ (fun c hc => hm c (List.mem_cons_of_mem _ hc)) (fun c hc => hne c (List.mem_cons_of_mem _ hc))

/-- **C119 (write mode starts afresh).**  After any history of saves whose last save in mode `"w"` is `c`, followed by saves in mode
`"a"`, the file holds exactly what was last saved to each month by `c` and the saves after it: everything before is gone. -/
theorem C119_write_starts_afresh (monthOf : Int → κ) (file : Option (Store κ K)) (pre post : FileHistory κ K) (mk : Option κ)
    (o : SavedTrades K) (ho : o.savedFrame.rows ≠ []) (hm : ∀ c ∈ post, c.1 = .append) (hne : ∀ c ∈ post, c.2.2.savedFrame.rows ≠ []) :
    ∃ st, runFile monthOf file (pre ++ (.write, mk, o) :: post) = some st ∧
      ∀ k, aget k st.trades = (lastSaved monthOf ((mk, o.savedFrame) :: savesOf post) k).map (·.rows) ∧
        aget k st.metas = (lastSaved monthOf ((mk, o.savedFrame) :: savesOf post) k).map frameMeta := by
  have h1 : runFile monthOf file (pre ++ (.write, mk, o) :: post) =
      some (runHistory monthOf Store.empty ((mk, o.savedFrame) :: savesOf post)) := by
    have : runFile monthOf file (pre ++ (.write, mk, o) :: post) =
        runFile monthOf (saveFile monthOf .write mk true (runFile monthOf file pre) o).1 post := by
      unfold runFile
      rw [List.foldl_append, List.foldl_cons]
    rw [this, saveFile_write monthOf mk true _ o ho, runFile_append monthOf _ post hm hne]
    rfl
  refine ⟨_, h1, fun k => ?_⟩
  have hd := describes_history monthOf ((mk, o.savedFrame) :: savesOf post) (by
    intro c hc
    rcases List.mem_cons.1 hc with rfl | hc
    · exact ho
    · obtain ⟨d, hd, rfl⟩ := List.mem_map.1 hc
      exact hne d hd)
  exact ⟨hd.trades k, hd.metas k⟩

example :
    let m (t : Int) : SavedTrades ℚ := ⟨⟨[⟨t, 1, 1, 1⟩], none, 0, []⟩, none⟩
    (m 110).savedFrame.rows ≠ [] ∧ (m 210).savedFrame.rows ≠ [] ∧
    (runFile (fun t => (t / 100).toNat) none [(.append, none, m 10), (.write, none, m 110), (.append, none, m 210)]).map
      (fun st => (aget 0 st.trades, (aget 1 st.trades).isSome, (aget 2 st.trades).isSome)) = some (none, true, true) := by
  decide +kernel

/-- **C119 (append mode).**  Saves in mode `"a"` on a new file, as `C20_save_history` describes. -/
theorem C119_append (monthOf : Int → κ) (h : FileHistory κ K) (hm : ∀ c ∈ h, c.1 = .append) (hne : ∀ c ∈ h, c.2.2.savedFrame.rows ≠ [])
    (h0 : h ≠ []) : runFile monthOf none h = some (runHistory monthOf Store.empty (savesOf h)) := by
  cases h with
  | nil => exact absurd rfl h0
  | cons c h =>
    obtain ⟨m, mk, o⟩ := c
    have e : m = .append := hm _ List.mem_cons_self
    subst e
    have ho := hne _ List.mem_cons_self
    have := runFile_append monthOf (Store.empty : Store κ K) ((.append, mk, o) :: h) hm hne
    rw [← this]
    unfold runFile
    simp only [List.foldl_cons]
    congr 2
    simp only at ho
    simp [saveFile, ho, openFile]

example :
    let m (t : Int) : SavedTrades ℚ := ⟨⟨[⟨t, 1, 1, 1⟩], none, 0, []⟩, none⟩
    (runFile (fun t => (t / 100).toNat) none [(.append, none, m 10), (.append, none, m 110)]).map
      (fun st => ((aget 0 st.trades).isSome, (aget 1 st.trades).isSome, (aget 2 st.trades).isSome)) = some (true, true, false) := by
  decide +kernel

/-- **C119 (months saved one by one in write mode).**  Only the month of the last save is left. -/
theorem C119_write_keeps_one_month (monthOf : Int → κ) (file : Option (Store κ K)) (pre : FileHistory κ K) (mk : Option κ)
    (o : SavedTrades K) (ho : o.savedFrame.rows ≠ []) :
    ∃ st, runFile monthOf file (pre ++ [(.write, mk, o)]) = some st ∧
      ∀ k, aget k st.trades = if k = saveTarget monthOf (mk, o.savedFrame) then some o.savedFrame.rows else none := by
  obtain ⟨st, h1, h2⟩ := C119_write_starts_afresh monthOf file pre [] mk o ho (by simp) (by simp)
  refine ⟨st, h1, fun k => ?_⟩
  rw [(h2 k).1]
  have := lastSaved_concat monthOf ([] : SaveHistory κ K) (mk, o.savedFrame) k
  rw [List.nil_append] at this
  simp only [savesOf, List.map_nil, this]
  split <;> rfl

example :
    let m (t : Int) : SavedTrades ℚ := ⟨⟨[⟨t, 1, 1, 1⟩], none, 0, []⟩, none⟩
    (runFile (fun t => (t / 100).toNat) none [(.append, none, m 10), (.write, none, m 110)]).map
      (fun st => ((aget 0 st.trades).isSome, (aget 1 st.trades).isSome)) = some (false, true) := by
  decide +kernel

/-- **C119 (other modes).**  `"r"` never changes the file and always raises; `"r+"` on an existing file is `"a"`, on a missing file it
raises and creates nothing; an unknown mode raises and changes nothing. -/
theorem C119_other_modes (monthOf : Int → κ) (mk : Option κ) (ow : Bool) (file : Option (Store κ K)) (o : SavedTrades K) :
    ((saveFile monthOf .read mk ow file o).1 = file ∧ (saveFile monthOf .read mk ow file o).2 ≠ none) ∧
    ((saveFile monthOf .other mk ow file o).1 = file ∧ (saveFile monthOf .other mk ow file o).2 ≠ none) ∧
    ((saveFile monthOf .readWrite mk ow none o).1 = none ∧ (saveFile monthOf .readWrite mk ow (none : Option (Store κ K)) o).2 ≠ none) ∧
    ∀ st, saveFile monthOf .readWrite mk ow (some st) o = saveFile monthOf .append mk ow (some st) o := by
  refine ⟨?_, ?_, ?_, fun st => ?_⟩
  · unfold saveFile
    split
    · exact ⟨rfl, by simp⟩
    · cases file <;> simp [openFile]
  · unfold saveFile
    split
    · exact ⟨rfl, by simp⟩
    · cases file <;> simp [openFile]
  · unfold saveFile
    split
    · exact ⟨rfl, by simp⟩
    · simp [openFile]
  · unfold saveFile
    split
    · rfl
    · simp [openFile]

/-- **C119 (nothing to save).**  Saving an object whose view is empty raises.  Without a month key the file is untouched, in every
mode; with a month key mode `"w"` has already emptied the file, so every month in it is lost. -/
theorem C119_empty_view (monthOf : Int → κ) (mode : FileMode) (ow : Bool) (file : Option (Store κ K)) (o : SavedTrades K)
    (ho : o.savedFrame.rows = []) (k : κ) :
    saveFile monthOf mode none ow file o = (file, some "IndexError") ∧
    saveFile monthOf .write (some k) ow file o = (some Store.empty, some "IndexError") := by
  constructor
  · simp [saveFile, ho]
  · have := C51_empty_frame_otherwise monthOf (Store.empty : Store κ K) (some k) ow o.savedFrame ho (fun _ _ _ => rfl)
    simp [saveFile, openFile, this]

example : let o : SavedTrades ℚ := ⟨⟨[⟨10, 1, 1, 1⟩], none, 0, []⟩, some (20, 30)⟩
    o.savedFrame.rows = [] ∧ (saveFile (fun t => (t / 100).toNat) .append none true none o).2 = some "IndexError" := by decide +kernel

/-- **C119 (a view replaces the month).**  Saving an object with a view range writes only the trades of the view, under the month of the
first of them, and replaces what the month held before; the stored integrity report is that of the whole object.  All other months
stay. -/
theorem C119_view (monthOf : Int → κ) (st : Store κ K) (o : SavedTrades K) (s e : Int) (hv : o.view = some (s, e))
    (hs : o.whole.rows.Pairwise (fun a b => a.ts ≤ b.ts)) (r : OutTrade K)
    (hr : (o.whole.rows.filter (fun t => decide (s ≤ t.ts) && decide (t.ts ≤ e))).head? = some r)
    (hw : ∀ k, (aget k st.trades).isSome = true → (aget k st.metas).isSome = true) :
    ∃ st', saveFile monthOf .append none true (some st) o = (some st', none) ∧
      (∀ k, aget k st'.trades = if k = monthOf r.ts then some (o.whole.rows.filter (fun t => decide (s ≤ t.ts) && decide (t.ts ≤ e)))
        else aget k st.trades) ∧
      (o.whole.discontinuities ≠ [] → aget (monthOf r.ts) st'.integrity = some o.whole.discontinuities) ∧
      (aget (monthOf r.ts) st'.metas).map (fun m => (m.dataOk, m.missingPct)) = some (o.whole.dataOk, o.whole.missingPct) := by
  have hrows : o.savedFrame.rows = o.whole.rows.filter (fun t => decide (s ≤ t.ts) && decide (t.ts ≤ e)) := by
    unfold SavedTrades.savedFrame
    rw [hv]
    exact C62_view_exact s e _ hs
  have hne : o.savedFrame.rows ≠ [] := by
    rw [hrows]
    intro h
    rw [h] at hr
    cases hr
  obtain ⟨st', h0, h1, h2, h3, _⟩ := saveOps_overwrite st (monthOf r.ts) o.savedFrame (hw _)
  have hsave : saveH5 monthOf none true st o.savedFrame = (st', none) := by
    unfold saveH5
    rw [hrows, hr]
    exact h0
  refine ⟨st', ?_, ?_, ?_, ?_⟩
  · rw [saveFile_append monthOf none true st o hne, hsave]
  · intro k
    rw [h1 k, hrows]
  · intro hd
    rw [h3, if_pos rfl]
    exact if_neg hd
  · rw [h2, if_pos rfl]
    rfl

example : let o : SavedTrades ℚ := ⟨⟨[⟨10, 1, 1, 1⟩, ⟨20, 2, 1, 1⟩, ⟨30, 3, 1, 1⟩], some false, 7, [⟨1, 3, 1, 10⟩]⟩, some (15, 25)⟩
    o.whole.rows.Pairwise (fun a b => a.ts ≤ b.ts) ∧
    (o.whole.rows.filter (fun t => decide (15 ≤ t.ts) && decide (t.ts ≤ 25))).head? = some ⟨20, 2, 1, 1⟩ ∧
    (saveFile (fun t => (t / 100).toNat) .append none true (some Store.empty) o).2 = none := by decide +kernel

/-- **C119: a save with a view loses trades.**  Saving a month, narrowing the view and saving again leaves only the view in the file,
although the object still holds the whole month. -/
theorem C119_view_loses_trades :
    let whole : Frame ℚ := ⟨[⟨10, 1, 1, 1⟩, ⟨20, 1, 1, 1⟩, ⟨30, 1, 1, 1⟩], none, 0, []⟩
    let file1 := (saveFile (fun _ => (1 : Nat)) .append none true none ⟨whole, none⟩).1
    let file2 := (saveFile (fun _ => (1 : Nat)) .append none true file1 ⟨whole, some (15, 25)⟩).1
    file1.map (fun st => aget 1 st.trades) = some (some whole.rows) ∧
    file2.map (fun st => aget 1 st.trades) = some (some [⟨20, 1, 1, 1⟩]) := by
  decide +kernel

/-- Three months saved in turn, the middle one in write mode: the first month is gone. -/
example :
    let m (t : Int) : SavedTrades ℚ := ⟨⟨[⟨t, 1, 1, 1⟩], none, 0, []⟩, none⟩
    (runFile (fun t => (t / 100).toNat) none [(.append, none, m 10), (.write, none, m 110), (.append, none, m 210)]).map
      (fun st => (aget 0 st.trades, (aget 1 st.trades).isSome, (aget 2 st.trades).isSome)) = some (none, true, true) := by
  decide +kernel

end FinML
