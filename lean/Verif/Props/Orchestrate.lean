/-
C147: a run of the ingestion script as a whole (`Model/Orchestrate`): what the HDF5 file holds afterwards, and that ingesting a range in
two runs leaves the same file as ingesting it in one.
-/
import Verif.Model.Orchestrate
import Verif.Props.Archive
import Verif.Props.Store
import Verif.Props.TimeBarStore

set_option linter.unusedSectionVars false

namespace FinML

variable {K : Type} [Field K] [LinearOrder K] [IsStrictOrderedRing K] {κ : Type} [LinearOrder κ] {D F : Type}

/-! ### Time bars after `AddTimeBarH5.process_all` -/

/-- The bars of a month after processing it: kept if they exist and are not to be overwritten, or if building fails; else the new ones. -/
def barsOf (ow : Bool) (b : Except String (List (TBar K))) (old : Option (List (TBar K))) : Option (List (TBar K)) :=
  if old.isSome && !ow then old else match b with
    | .error _ => old
    | .ok bs => some bs

theorem barsOf_idem (ow : Bool) (b : Except String (List (TBar K))) (old : Option (List (TBar K))) :
    barsOf ow b (barsOf ow b old) = barsOf ow b old := by
  unfold barsOf
  cases ow <;> cases old <;> cases b <;> simp

theorem processKey_get (ow : Bool) (b : Except String (List (TBar K))) (st : KStore κ K) (a k : κ) :
    aget k (processKey ow b st (.full a)).1.klines = if k = a then barsOf ow b (aget k st.klines) else aget k st.klines := by
  by_cases hk : k = a
  · subst hk
    rw [if_pos rfl]
    unfold barsOf
    by_cases hc : ((aget k st.klines).isSome && !ow) = true
    · simp only [processKey, hc, if_true]
    · rw [if_neg hc]
      cases b with
      | error e => simp only [processKey, if_neg hc]
      | ok bs =>
        cases bs with
        | nil => simp only [processKey, if_neg hc]; rw [aget_aset, if_pos rfl]
        | cons x xs => simp only [processKey, if_neg hc]; rw [aget_aset, if_pos rfl]
  · rw [if_neg hk]
    by_cases hc : ((aget a st.klines).isSome && !ow) = true
    · simp only [processKey, hc, if_true]
    · cases b with
      | error e => simp only [processKey, if_neg hc]
      | ok bs =>
        cases bs with
        | nil => simp only [processKey, if_neg hc]; rw [aget_aset, if_neg hk]
        | cons x xs => simp only [processKey, if_neg hc]; rw [aget_aset, if_neg hk]

theorem processAllBars_get (ow : Bool) (build : κ → Except String (List (TBar K))) (ks : List κ) (st : KStore κ K) (k : κ) :
    aget k (processAllBars ow build st ks).1.klines =
      if k ∈ ks then barsOf ow (build k) (aget k st.klines) else aget k st.klines := by
  induction ks generalizing st with
  | nil => simp [processAllBars]
  | cons a ks ih =>
    rw [processAllBars]
    dsimp only
    rw [ih, processKey_get]
    by_cases hk : k = a
    · subst hk
      simp only [if_true, List.mem_cons, true_or, barsOf_idem, ite_self]
    · simp only [List.mem_cons, hk, false_or, if_false]

theorem mem_keys_iff {V : Type} (k : κ) (m : List (κ × V)) : k ∈ m.map Prod.fst ↔ (aget k m).isSome = true := by
  induction m with
  | nil => simp [aget]
  | cons p m ih =>
    obtain ⟨a, v⟩ := p
    rw [List.map_cons, List.mem_cons, ih]
    by_cases h : a = k
    · simp [h, aget]
    · have : k ≠ a := fun e => h e.symm
      simp [h, this, aget]

/-- The bars of a month depend on its stored trades only. -/
theorem secondBars_congr (sortIdx : List (OutTrade K) → List (OutTrade K)) (st st' : Store κ K) (k : κ) (h : aget k st.trades = aget k st'.trades) :
    secondBars sortIdx st k = secondBars sortIdx st' k := by
  have e : loadTrades sortIdx st (some k) none none none = loadTrades sortIdx st' (some k) none none none := by
    have eg : loadGroup st none none k = loadGroup st' none none k := by unfold loadGroup; rw [h]
    simp only [loadTrades, keysToLoad, h]
    cases aget k st'.trades with
    | none => rfl
    | some rows => simp only [Option.isSome_some, if_true, loadSequential, List.filterMap_cons, List.filterMap_nil, eg]
  unfold secondBars
  rw [e]

/-! ### One ingestion -/

/-- The frames of a batch have trades, of different months. -/
structure GoodBatch (monthOf : Int → κ) (c : List (TaskResult K)) : Prop where
  rows : ∀ f ∈ enqueued c, f.rows ≠ []
  months : ((enqueued c).map (fun f => saveTarget monthOf (none, f))).Nodup

theorem GoodBatch.inj {monthOf : Int → κ} {c : List (TaskResult K)} (h : GoodBatch monthOf c) (f g : Frame K) (hf : f ∈ enqueued c)
    (hg : g ∈ enqueued c) (e : saveTarget monthOf (none, f) = saveTarget monthOf (none, g)) : f = g :=
  List.inj_on_of_nodup_map h.months hf hg e

/-- The same content, month by month. -/
def SameFile (f g : H5File κ K) : Prop :=
  ∀ k, aget k f.trades.trades = aget k g.trades.trades ∧ aget k f.trades.metas = aget k g.trades.metas ∧
    aget k f.trades.integrity = aget k g.trades.integrity ∧ aget k f.bars.klines = aget k g.bars.klines

/-- A file as the script writes it: metadata for every month with trades, integrity records only for months with trades. -/
structure TidyFile (f : H5File κ K) : Prop where
  metas : Writable f.trades
  integrity : ∀ k, (aget k f.trades.integrity).isSome = true → (aget k f.trades.trades).isSome = true

theorem TidyFile.empty : TidyFile (H5File.empty : H5File κ K) :=
  ⟨fun _ h => by simp [H5File.empty, Store.empty, aget] at h, fun _ h => by simp [H5File.empty, Store.empty, aget] at h⟩

/-- The file a run starts from. -/
def baseFile (old : Option (H5File κ K)) : H5File κ K := old.getD H5File.empty

/-- The file after ingestion, month by month. -/
theorem ingest_get (T : Tool D κ K) (ow : Bool) (old : Option (H5File κ K)) (c : List (TaskResult K)) (f : H5File κ K)
    (h : ingestInto T ow old c = .ok f) (ht : TidyFile (baseFile old)) (hc : GoodBatch T.monthOf c) (k : κ) :
    (∀ fr ∈ enqueued c, saveTarget T.monthOf (none, fr) = k →
      aget k f.trades.trades = some fr.rows ∧ aget k f.trades.metas = some (frameMeta fr) ∧
      aget k f.trades.integrity = if fr.discontinuities = [] then none else some fr.discontinuities) ∧
    ((∀ fr ∈ enqueued c, saveTarget T.monthOf (none, fr) ≠ k) →
      aget k f.trades.trades = aget k (baseFile old).trades.trades ∧ aget k f.trades.metas = aget k (baseFile old).trades.metas ∧
      aget k f.trades.integrity = aget k (baseFile old).trades.integrity) ∧
    aget k f.bars.klines =
      if (aget k f.trades.trades).isSome then barsOf ow (secondBars T.sortIdx f.trades k) (aget k (baseFile old).bars.klines)
      else aget k (baseFile old).bars.klines := by
  have hf : f = ⟨processAll T.monthOf (baseFile old).trades c,
      (processAllBars ow (secondBars T.sortIdx (processAll T.monthOf (baseFile old).trades c)) (baseFile old).bars
        ((processAll T.monthOf (baseFile old).trades c).trades.map Prod.fst)).1⟩ := by
    unfold ingestInto at h
    cases old with
    | some g => exact (Except.ok.inj h).symm
    | none =>
      dsimp only at h
      by_cases hcr : createsFile c = true
      · rw [if_pos hcr] at h; exact (Except.ok.inj h).symm
      · rw [if_neg hcr] at h; cases h
  have hw := writer_spec T.monthOf (enqueued c) (baseFile old).trades ht.metas hc.rows hc.months k
  rw [hf]
  dsimp only
  refine ⟨fun fr hfr hk => ?_, fun hno => ?_, ?_⟩
  · obtain ⟨a, b, d⟩ := hw.1 fr hfr hk
    refine ⟨a, b, ?_⟩
    unfold processAll
    rw [d]
    by_cases hd : fr.discontinuities = []
    · rw [if_pos hd, if_pos hd]
      split
      · rfl
      · rename_i hn
        cases hi : aget k (baseFile old).trades.integrity with
        | none => rfl
        | some x => exact absurd (ht.integrity k (by rw [hi]; rfl)) hn
    · rw [if_neg hd, if_neg hd]
  · exact hw.2 hno
  · rw [processAllBars_get]
    simp only [mem_keys_iff]

/-- A tidy file stays tidy. -/
theorem ingest_tidy (T : Tool D κ K) (ow : Bool) (old : Option (H5File κ K)) (c : List (TaskResult K)) (f : H5File κ K)
    (h : ingestInto T ow old c = .ok f) (ht : TidyFile (baseFile old)) (hc : GoodBatch T.monthOf c) : TidyFile f := by
  refine ⟨fun k hk => ?_, fun k hk => ?_⟩ <;> obtain ⟨h1, h2, -⟩ := ingest_get T ow old c f h ht hc k <;>
    by_cases hex : ∃ fr ∈ enqueued c, saveTarget T.monthOf (none, fr) = k
  · obtain ⟨fr, a, b⟩ := hex
    rw [(h1 fr a b).2.1]; rfl
  · have := h2 (fun fr a b => hex ⟨fr, a, b⟩)
    rw [this.1] at hk
    rw [this.2.1]
    exact ht.metas k hk
  · obtain ⟨fr, a, b⟩ := hex
    rw [(h1 fr a b).1]; rfl
  · have := h2 (fun fr a b => hex ⟨fr, a, b⟩)
    rw [this.2.2] at hk
    rw [this.1]
    exact ht.integrity k hk

/-- **C147.** Ingesting a batch and then a larger one leaves the same file as ingesting the larger one, whatever the orders in which the workers
finish and whether or not time bars are overwritten, if the months that are new in the larger batch were not in the file before. -/
theorem C147_two_ingestions (T : Tool D κ K) (ow : Bool) (old : Option (H5File κ K)) (c1 c2 c3 : List (TaskResult K)) (f1 f2 g : H5File κ K)
    (h1 : ingestInto T ow old c1 = .ok f1) (h2 : ingestInto T ow (some f1) c2 = .ok f2) (h3 : ingestInto T ow old c3 = .ok g)
    (ht : TidyFile (baseFile old)) (g1 : GoodBatch T.monthOf c1) (g2 : GoodBatch T.monthOf c2) (hp : c2.Perm c3)
    (hsub : ∀ fr ∈ enqueued c1, fr ∈ enqueued c2)
    (hnew : ∀ fr ∈ enqueued c2, fr ∉ enqueued c1 → aget (saveTarget T.monthOf (none, fr)) (baseFile old).trades.trades = none) :
    SameFile f2 g := by
  have hpe : (enqueued c2).Perm (enqueued c3) := hp.filterMap _
  have g3 : GoodBatch T.monthOf c3 := ⟨fun f hf => g2.rows f (hpe.mem_iff.mpr hf), (hpe.map _).nodup_iff.mp g2.months⟩
  have t1 : TidyFile (baseFile (some f1)) := ingest_tidy T ow old c1 f1 h1 ht g1
  intro k
  obtain ⟨a1, a2, a3⟩ := ingest_get T ow old c1 f1 h1 ht g1 k
  obtain ⟨b1, b2, b3⟩ := ingest_get T ow (some f1) c2 f2 h2 t1 g2 k
  obtain ⟨d1, d2, d3⟩ := ingest_get T ow old c3 g h3 ht g3 k
  have eb : baseFile (some f1) = f1 := rfl
  rw [eb] at b2 b3
  by_cases hex : ∃ fr ∈ enqueued c2, saveTarget T.monthOf (none, fr) = k
  · obtain ⟨fr, hfr, hk⟩ := hex
    obtain ⟨p1, p2, p3⟩ := b1 fr hfr hk
    obtain ⟨q1, q2, q3⟩ := d1 fr (hpe.mem_iff.mp hfr) hk
    refine ⟨p1.trans q1.symm, p2.trans q2.symm, p3.trans q3.symm, ?_⟩
    have es : secondBars T.sortIdx f2.trades k = secondBars T.sortIdx g.trades k := secondBars_congr _ _ _ _ (p1.trans q1.symm)
    rw [b3, d3, p1, q1, es, Option.isSome_some, if_pos rfl, if_pos rfl]
    by_cases hin : fr ∈ enqueued c1
    · have r1 := (a1 fr hin hk).1
      have es1 : secondBars T.sortIdx f1.trades k = secondBars T.sortIdx g.trades k := secondBars_congr _ _ _ _ (r1.trans q1.symm)
      rw [a3, r1, Option.isSome_some, if_pos rfl, es1, barsOf_idem]
    · have hno : ∀ x ∈ enqueued c1, saveTarget T.monthOf (none, x) ≠ k := by
        intro x hx e
        exact hin (g2.inj x fr (hsub x hx) hfr (e.trans hk.symm) ▸ hx)
      have r1 := (a2 hno).1
      rw [← hk] at r1
      rw [hnew fr hfr hin, hk] at r1
      rw [a3, r1]
      rfl
  · have n2 : ∀ fr ∈ enqueued c2, saveTarget T.monthOf (none, fr) ≠ k := fun fr a b => hex ⟨fr, a, b⟩
    have n1 : ∀ fr ∈ enqueued c1, saveTarget T.monthOf (none, fr) ≠ k := fun fr a => n2 fr (hsub fr a)
    have n3 : ∀ fr ∈ enqueued c3, saveTarget T.monthOf (none, fr) ≠ k := fun fr a => n2 fr (hpe.mem_iff.mpr a)
    obtain ⟨r1, r2, r3⟩ := a2 n1
    obtain ⟨p1, p2, p3⟩ := b2 n2
    obtain ⟨q1, q2, q3⟩ := d2 n3
    refine ⟨by rw [p1, r1, q1], by rw [p2, r2, q2], by rw [p3, r3, q3], ?_⟩
    have es1 : secondBars T.sortIdx f1.trades k = secondBars T.sortIdx g.trades k := secondBars_congr _ _ _ _ (by rw [r1, q1])
    have es2 : secondBars T.sortIdx f2.trades k = secondBars T.sortIdx g.trades k := secondBars_congr _ _ _ _ (by rw [p1, r1, q1])
    rw [b3, a3, d3, p1, r1, q1, es1, es2]
    split
    · exact barsOf_idem _ _ _
    · rfl

/-! ### One run -/

/-- The archive of a month verifies and reads as `fr`. -/
def Readable (T : Tool D κ K) (s : MonthFiles D) (fr : Frame K) : Prop := ∃ z, s.zip = some z ∧ T.verify z s.chk = true ∧ T.read z = .ok fr

/-- The readable archives have trades, and those of different archives are of different months. -/
structure ArchivesGood (T : Tool D κ K) (raw : Month → MonthFiles D) (months : List Month) : Prop where
  rows : ∀ m ∈ months, ∀ fr, Readable T (raw m) fr → fr.rows ≠ []
  keys : ∀ m ∈ months, ∀ m' ∈ months, ∀ fr fr', Readable T (raw m) fr → Readable T (raw m') fr' →
    saveTarget T.monthOf (none, fr) = saveTarget T.monthOf (none, fr') → m = m'

theorem taskOf_trades (T : Tool D κ K) (s : MonthFiles D) (fr : Frame K) : taskOf T.verify T.read s = .trades fr ↔ Readable T s fr := by
  unfold taskOf Readable
  cases s.zip with
  | none => simp
  | some z =>
    dsimp only
    by_cases hv : T.verify z s.chk = true
    · rw [if_pos hv]
      cases hr : T.read z with
      | ok f => simp [hv, hr]
      | error e => simp [hv, hr]
    · rw [if_neg hv]; simp [hv]

theorem mem_enqueued (c : List (TaskResult K)) (f : Frame K) : f ∈ enqueued c ↔ TaskResult.trades f ∈ c := by
  unfold enqueued
  rw [List.mem_filterMap]
  constructor
  · rintro ⟨r, hr, he⟩
    cases r with
    | raised => simp at he
    | skipped => simp at he
    | trades g => simp at he; subst he; exact hr
  · intro h; exact ⟨_, h, rfl⟩

/-- The tasks of the available months. -/
def tasksOf (T : Tool D κ K) (raw : Month → MonthFiles D) (months : List Month) : List (TaskResult K) :=
  (availableMonths raw months).map (fun m => taskOf T.verify T.read (raw m))

theorem mem_tasks (T : Tool D κ K) (raw : Month → MonthFiles D) (months : List Month) (fr : Frame K) :
    fr ∈ enqueued (tasksOf T raw months) ↔ ∃ m ∈ months, Readable T (raw m) fr := by
  rw [mem_enqueued]
  unfold tasksOf availableMonths
  simp only [List.mem_map, List.mem_filter]
  constructor
  · rintro ⟨m, ⟨hm, -⟩, e⟩
    exact ⟨m, hm, (taskOf_trades T _ _).mp e⟩
  · rintro ⟨m, hm, e⟩
    have e' := e
    obtain ⟨z, hz, -⟩ := e'
    exact ⟨m, ⟨hm, by rw [hz]; rfl⟩, (taskOf_trades T _ _).mpr e⟩

theorem goodBatch_tasks (T : Tool D κ K) (raw : Month → MonthFiles D) (months : List Month) (hn : months.Nodup) (hg : ArchivesGood T raw months) :
    GoodBatch T.monthOf (tasksOf T raw months) := by
  refine ⟨fun f hf => ?_, ?_⟩
  · obtain ⟨m, hm, e⟩ := (mem_tasks T raw months f).mp hf
    exact hg.rows m hm f e
  · unfold tasksOf enqueued
    rw [List.filterMap_map, List.map_filterMap]
    have key : ∀ (m : Month) (k : κ), k ∈ Option.map (fun f => saveTarget T.monthOf (none, f))
        (((fun r : TaskResult K => match r with | .trades f => some f | _ => none) ∘ fun m => taskOf T.verify T.read (raw m)) m) →
        ∃ fr, Readable T (raw m) fr ∧ saveTarget T.monthOf (none, fr) = k := by
      intro m k h
      simp only [Function.comp, Option.mem_def, Option.map_eq_some_iff] at h
      obtain ⟨fr, h, hk⟩ := h
      refine ⟨fr, (taskOf_trades T _ _).mp ?_, hk⟩
      cases ht : taskOf T.verify T.read (raw m) with
      | raised => rw [ht] at h; cases h
      | skipped => rw [ht] at h; cases h
      | trades g => rw [ht] at h; cases h; rfl
    rw [List.Nodup, List.pairwise_filterMap]
    have hp : (availableMonths raw months).Pairwise (· ≠ ·) := hn.filter _
    refine hp.imp_of_mem fun {m m'} hm hm' hne k hk k' hk' e => ?_
    obtain ⟨fr, r1, r2⟩ := key m k hk
    obtain ⟨fr', r3, r4⟩ := key m' k' hk'
    exact hne (hg.keys m (List.mem_of_mem_filter hm) m' (List.mem_of_mem_filter hm') fr fr' r1 r3 (by rw [r2, r4, e]))

/-! ### The directory -/

theorem fileAt_fileSet (n n' : List Char) (f : F) (dir : List (List Char × F)) :
    fileAt n' (fileSet n f dir) = if n' = n then some f else fileAt n' dir := by
  unfold fileAt fileSet
  rw [List.find?_cons]
  by_cases h : n' = n
  · subst h; simp
  · have h' : n ≠ n' := fun e => h e.symm
    simp only [h', decide_false, if_neg h]
    rw [List.find?_filter]
    congr 2
    funext e
    by_cases he : e.1 = n'
    · simp [he, h]
    · simp [he]

theorem fileAt_mem (n : List Char) (dir : List (List Char × F)) (f : F) (h : fileAt n dir = some f) : (n, f) ∈ dir := by
  unfold fileAt at h
  obtain ⟨e, he, hf⟩ := Option.map_eq_some_iff.mp h
  have h1 := List.mem_of_find?_eq_some he
  have h2 := List.find?_some he
  simp only [decide_eq_true_eq] at h2
  rw [← h2, ← hf]
  exact h1

theorem mem_fileAt (n : List Char) (dir : List (List Char × F)) (hn : (dir.map Prod.fst).Nodup) (f : F) (h : (n, f) ∈ dir) : fileAt n dir = some f := by
  cases hf : fileAt n dir with
  | none =>
    unfold fileAt at hf
    rw [Option.map_eq_none_iff, List.find?_eq_none] at hf
    exact absurd (hf _ h) (by simp)
  | some g =>
    have := List.inj_on_of_nodup_map hn (fileAt_mem n dir g hf) h rfl
    exact congrArg (fun x => some x.2) this

theorem toUpper_idem (c : Char) : c.toUpper.toUpper = c.toUpper := by
  unfold Char.toUpper
  split
  · rename_i h
    split
    · rename_i h2
      exfalso
      have e : ('A'.val - 'a'.val).toNat = 4294967264 := by decide
      have ea : 'a'.val.toNat = 97 := by decide
      have ez : 'z'.val.toNat = 122 := by decide
      rw [UInt32.le_iff_toNat_le, UInt32.le_iff_toNat_le] at h h2
      rw [UInt32.toNat_add, e, ea, ez] at h2
      rw [ea, ez] at h
      omega
    · rfl
  · rfl

/-- The script's own file names are recognised as files of the symbol and market. -/
theorem isExisting_target (symbol label : List Char) (a b : Month) : isExisting symbol label (targetName symbol label a b) = true := by
  unfold isExisting
  rw [Bool.and_eq_true]
  constructor
  · rw [List.isSuffixOf_iff_suffix]
    unfold targetName
    rw [List.map_append]
    exact List.suffix_append _ _
  · rw [List.isPrefixOf_iff_prefix]
    unfold targetName
    simp only [List.map_append, List.map_map, List.append_assoc]
    have e : List.map (Char.toUpper ∘ Char.toUpper) symbol = symbol.map Char.toUpper := List.map_congr_left fun c _ => toUpper_idem c
    rw [e]
    simp only [← List.append_assoc]
    simp only [List.append_assoc]
    refine (List.prefix_append_right_inj _).mpr ((List.prefix_append_right_inj _).mpr ((List.prefix_append_right_inj _).mpr ?_))
    exact List.prefix_append _ _

theorem fileAt_osReplace (path target : List Char) (hne : path ≠ target) (dir : List (List Char × F)) (n : List Char) :
    fileAt n (osReplace path target dir) = if n = target then fileAt path dir else if n = path then none else fileAt n dir := by
  induction dir with
  | nil => simp [osReplace, fileAt]
  | cons e dir ih =>
    obtain ⟨a, v⟩ := e
    have cons_at : ∀ (n' a' : List Char) (d : List (List Char × F)), fileAt n' ((a', v) :: d) = if a' = n' then some v else fileAt n' d := by
      intro n' a' d
      unfold fileAt
      rw [List.find?_cons]
      by_cases h : a' = n' <;> simp [h]
    have os_cons : osReplace path target ((a, v) :: dir) =
        if a = path then (target, v) :: osReplace path target dir
        else if a = target then osReplace path target dir else (a, v) :: osReplace path target dir := by
      unfold osReplace
      by_cases h1 : a = path
      · simp [h1]
      · by_cases h2 : a = target
        · have h3 : target ≠ path := fun e => hne e.symm
          simp [h2, h3]
        · simp [h1, h2]
    rw [os_cons]
    by_cases h1 : a = path
    · rw [if_pos h1, cons_at, cons_at, cons_at, ih, if_pos h1, h1]
      by_cases h2 : n = target
      · simp [h2]
      · have h3 : target ≠ n := fun e => h2 e.symm
        by_cases h4 : n = path
        · simp [h4, hne, Ne.symm hne]
        · have h5 : path ≠ n := fun e => h4 e.symm
          simp [h2, h3, h4, h5]
    · rw [if_neg h1]
      by_cases h2 : a = target
      · rw [if_pos h2, cons_at, cons_at, ih, if_neg h1, h2]
        by_cases h3 : n = target
        · simp [h3]
        · have h4 : target ≠ n := fun e => h3 e.symm
          simp [h3, h4]
      · rw [if_neg h2, cons_at, cons_at, cons_at, ih, if_neg h1]
        by_cases h3 : a = n
        · subst h3; simp [h1, h2]
        · simp [h3]

theorem lt_irrefl_list (l : List Char) : ¬ l < l := List.lt_irrefl l

/-- The directory after the renaming step. -/
theorem fileAt_extendRename (symbol label : List Char) (a b : Month) (ha : a.Valid) (hb : b.Valid) (dir : List (List Char × F)) (n : List Char) :
    fileAt n (extendRename symbol label a.yymm b.yymm (targetName symbol label a b) dir) =
      match toExtend (dir.map Prod.fst) symbol label a.yymm b.yymm with
      | none => fileAt n dir
      | some path => if n = targetName symbol label a b then fileAt path dir else if n = path then none else fileAt n dir := by
  unfold extendRename
  cases h : toExtend (dir.map Prod.fst) symbol label a.yymm b.yymm with
  | none => rfl
  | some path =>
    dsimp only
    have hne : path ≠ targetName symbol label a b := by
      intro e
      have := (C78_extends_prefix _ _ _ _ _ _ h).2.2.1
      rw [e, C78_parse_target _ _ _ _ ha hb] at this
      exact lt_irrefl_list _ this
    rw [if_pos hne, fileAt_osReplace _ _ hne]

/-! ### What one run does -/

theorem orchestrate_inv (T : Tool D κ K) (market symbol : List Char) (start stop : Month) (ow : Bool) (net : Month → MonthNet D)
    (order : List (TaskResult K) → List (TaskResult K)) (disk disk' : Disk D κ K)
    (h : orchestrate T market symbol start stop ow net order disk = .ok disk') :
    ∃ label months, marketLabel market = .ok label ∧ monthRange start stop = .ok months ∧
      (∀ s, s ≠ symbol → disk'.raw s = disk.raw s) ∧
      ((availableMonths (disk'.raw symbol) months = [] ∧ disk'.h5 = disk.h5) ∨
       ∃ a b f, (availableMonths (disk'.raw symbol) months).head? = some a ∧ (availableMonths (disk'.raw symbol) months).getLast? = some b ∧
        ingestInto T ow (fileAt (targetName symbol label a b) (extendRename symbol label a.yymm b.yymm (targetName symbol label a b) disk.h5))
          (order (tasksOf T (disk'.raw symbol) months)) = .ok f ∧
        disk'.h5 = fileSet (targetName symbol label a b) f
          (extendRename symbol label a.yymm b.yymm (targetName symbol label a b) disk.h5)) := by
  unfold orchestrate at h
  cases hl : marketLabel market with
  | error e => rw [hl] at h; cases h
  | ok label =>
    rw [hl] at h
    dsimp only at h
    cases hm : monthRange start stop with
    | error e => rw [hm] at h; cases h
    | ok months =>
      rw [hm] at h
      dsimp only at h
      cases hd : downloadAll T.verify net months (disk.raw symbol) with
      | none => rw [hd] at h; cases h
      | some raw =>
        rw [hd] at h
        dsimp only at h
        refine ⟨label, months, rfl, rfl, ?_⟩
        cases hh : (availableMonths raw months).head? with
        | none =>
          rw [hh] at h
          obtain rfl := Except.ok.inj h
          refine ⟨fun s hs => by simp [Function.update, hs], Or.inl ⟨?_, rfl⟩⟩
          simpa [Function.update] using hh
        | some a =>
          cases ht : (availableMonths raw months).getLast? with
          | none =>
            rw [List.getLast?_eq_none_iff] at ht
            rw [ht] at hh
            cases hh
          | some b =>
            rw [hh, ht] at h
            dsimp only at h
            cases hi : ingestInto T ow (fileAt (targetName symbol label a b)
                (extendRename symbol label a.yymm b.yymm (targetName symbol label a b) disk.h5))
                (order ((availableMonths raw months).map (fun m => taskOf T.verify T.read (raw m)))) with
            | error e => rw [hi] at h; cases h
            | ok f =>
              rw [hi] at h
              obtain rfl := Except.ok.inj h
              refine ⟨fun s hs => by simp [Function.update, hs], Or.inr ⟨a, b, f, ?_⟩⟩
              have e : Function.update disk.raw symbol raw symbol = raw := by simp
              dsimp only
              rw [e]
              exact ⟨hh, ht, hi, rfl⟩

theorem monthRange_facts (start stop : Month) (h1 : start.Valid) (h2 : stop.Valid) (months : List Month) (h : monthRange start stop = .ok months) :
    (∀ m, m ∈ months ↔ m.Valid ∧ start.num ≤ m.num ∧ m.num ≤ stop.num) ∧ months.Pairwise (fun a b => a.num < b.num) ∧ months.Nodup := by
  obtain ⟨c1, c2⟩ := C22_month_range start stop h1 h2
  rcases Nat.lt_or_ge stop.num start.num with hlt | hge
  · obtain ⟨e, he⟩ := c1 hlt
    rw [he] at h; cases h
  · obtain ⟨out, he, hm, hp, -⟩ := c2 hge
    rw [he] at h
    obtain rfl := Except.ok.inj h
    exact ⟨hm, hp, hp.imp fun {x y} hxy e => by rw [e] at hxy; exact Nat.lt_irrefl _ hxy⟩

theorem goodBatch_perm (monthOf : Int → κ) (c c' : List (TaskResult K)) (hp : c.Perm c') (h : GoodBatch monthOf c') : GoodBatch monthOf c := by
  have hpe : (enqueued c).Perm (enqueued c') := hp.filterMap _
  exact ⟨fun f hf => h.rows f (hpe.mem_iff.mp hf), (hpe.map _).nodup_iff.mpr h.months⟩

/-- The file a run extends: the target after the renaming step. -/
theorem tidy_base (symbol label : List Char) (a b : Month) (ha : a.Valid) (hb : b.Valid) (dir : List (List Char × H5File κ K))
    (ht : ∀ n f, fileAt n dir = some f → TidyFile f) (n : List Char) (f : H5File κ K)
    (h : fileAt n (extendRename symbol label a.yymm b.yymm (targetName symbol label a b) dir) = some f) : TidyFile f := by
  rw [fileAt_extendRename _ _ _ _ ha hb] at h
  split at h
  · exact ht _ _ h
  · split at h
    · exact ht _ _ h
    · split at h
      · cases h
      · exact ht _ _ h

/-- **C147.** After a successful run over months of which an archive is present, the target file - named after the first and the last month with an
archive - holds for every readable archive exactly its trades, metadata and integrity records, for every other month what the file had
before (after the renaming step), and the time bars of every stored month: those from before when they are not to be overwritten, else those
built from the stored trades.  The order in which the workers finish does not matter. -/
theorem C147_run (T : Tool D κ K) (market symbol : List Char) (start stop : Month) (ow : Bool) (net : Month → MonthNet D)
    (order : List (TaskResult K) → List (TaskResult K)) (hord : ∀ l, (order l).Perm l) (disk disk' : Disk D κ K) (months : List Month)
    (h : orchestrate T market symbol start stop ow net order disk = .ok disk') (h1 : start.Valid) (h2 : stop.Valid)
    (hm : monthRange start stop = .ok months) (hav : availableMonths (disk'.raw symbol) months ≠ [])
    (hg : ArchivesGood T (disk'.raw symbol) months) (ht : ∀ n f, fileAt n disk.h5 = some f → TidyFile f) :
    ∃ label a b f base, marketLabel market = .ok label ∧ (availableMonths (disk'.raw symbol) months).head? = some a ∧
      (availableMonths (disk'.raw symbol) months).getLast? = some b ∧
      fileAt (targetName symbol label a b) disk'.h5 = some f ∧
      base = baseFile (match toExtend (disk.h5.map Prod.fst) symbol label a.yymm b.yymm with
        | none => fileAt (targetName symbol label a b) disk.h5
        | some path => fileAt path disk.h5) ∧
      (∀ m ∈ months, ∀ fr, Readable T (disk'.raw symbol m) fr →
        aget (saveTarget T.monthOf (none, fr)) f.trades.trades = some fr.rows ∧
        aget (saveTarget T.monthOf (none, fr)) f.trades.metas = some (frameMeta fr) ∧
        aget (saveTarget T.monthOf (none, fr)) f.trades.integrity = if fr.discontinuities = [] then none else some fr.discontinuities) ∧
      (∀ k, (∀ m ∈ months, ∀ fr, Readable T (disk'.raw symbol m) fr → saveTarget T.monthOf (none, fr) ≠ k) →
        aget k f.trades.trades = aget k base.trades.trades ∧ aget k f.trades.metas = aget k base.trades.metas ∧
        aget k f.trades.integrity = aget k base.trades.integrity) ∧
      (∀ k, aget k f.bars.klines =
        if (aget k f.trades.trades).isSome then barsOf ow (secondBars T.sortIdx f.trades k) (aget k base.bars.klines)
        else aget k base.bars.klines) ∧
      (∀ n g, fileAt n disk'.h5 = some g → TidyFile g) := by
  obtain ⟨label, months', hl, hm', -, hc⟩ := orchestrate_inv T market symbol start stop ow net order disk disk' h
  rw [hm] at hm'
  obtain rfl := Except.ok.inj hm'
  rcases hc with ⟨he, -⟩ | ⟨a, b, f, hA, hB, hi, hd⟩
  · exact absurd he hav
  · obtain ⟨hmem, hpw, hnd⟩ := monthRange_facts start stop h1 h2 months hm
    have va : a.Valid := ((hmem a).mp (List.mem_of_mem_filter (List.mem_of_mem_head? hA))).1
    have vb : b.Valid := ((hmem b).mp (List.mem_of_mem_filter (List.mem_of_getLast? hB))).1
    have gb := goodBatch_perm T.monthOf _ _ (hord (tasksOf T (disk'.raw symbol) months)) (goodBatch_tasks T (disk'.raw symbol) months hnd hg)
    have hen : ∀ fr, fr ∈ enqueued (order (tasksOf T (disk'.raw symbol) months)) ↔ ∃ m ∈ months, Readable T (disk'.raw symbol m) fr := by
      intro fr
      rw [← mem_tasks]
      exact ((hord (tasksOf T (disk'.raw symbol) months)).filterMap _).mem_iff
    have ebase : fileAt (targetName symbol label a b) (extendRename symbol label a.yymm b.yymm (targetName symbol label a b) disk.h5) =
        (match toExtend (disk.h5.map Prod.fst) symbol label a.yymm b.yymm with
        | none => fileAt (targetName symbol label a b) disk.h5
        | some path => fileAt path disk.h5) := by
      rw [fileAt_extendRename _ _ _ _ va vb]
      split <;> simp
    have tb : TidyFile (baseFile (fileAt (targetName symbol label a b)
        (extendRename symbol label a.yymm b.yymm (targetName symbol label a b) disk.h5))) := by
      cases hb : fileAt (targetName symbol label a b) (extendRename symbol label a.yymm b.yymm (targetName symbol label a b) disk.h5) with
      | none => exact TidyFile.empty
      | some g => exact tidy_base symbol label a b va vb disk.h5 ht _ g hb
    refine ⟨label, a, b, f, baseFile _, hl, hA, hB, by rw [hd, fileAt_fileSet, if_pos rfl], congrArg baseFile ebase, ?_, ?_, ?_, ?_⟩
    · intro m hmm fr hfr
      exact (ingest_get T ow _ _ f hi tb gb _).1 fr ((hen fr).mpr ⟨m, hmm, hfr⟩) rfl
    · intro k hk
      refine (ingest_get T ow _ _ f hi tb gb k).2.1 fun fr hfr => ?_
      obtain ⟨m, hmm, hr⟩ := (hen fr).mp hfr
      exact hk m hmm fr hr
    · intro k
      exact (ingest_get T ow _ _ f hi tb gb k).2.2
    · intro n g hg'
      rw [hd, fileAt_fileSet] at hg'
      split at hg'
      · obtain rfl := Option.some.inj hg'
        exact ingest_tidy T ow _ _ f hi tb gb
      · exact tidy_base symbol label a b va vb disk.h5 ht _ g hg'

/-- **C147.** A run leaves the archives of other symbols and every file whose name is not one of this symbol and market as they were. -/
theorem C147_other_files (T : Tool D κ K) (market symbol : List Char) (start stop : Month) (ow : Bool) (net : Month → MonthNet D)
    (order : List (TaskResult K) → List (TaskResult K)) (disk disk' : Disk D κ K)
    (h : orchestrate T market symbol start stop ow net order disk = .ok disk') (h1 : start.Valid) (h2 : stop.Valid) :
    (∀ s, s ≠ symbol → disk'.raw s = disk.raw s) ∧
    ∀ n, (∀ label, marketLabel market = .ok label → isExisting symbol label n = false) → fileAt n disk'.h5 = fileAt n disk.h5 := by
  obtain ⟨label, months, hl, hm, hr, hc⟩ := orchestrate_inv T market symbol start stop ow net order disk disk' h
  refine ⟨hr, fun n hn => ?_⟩
  have hn' := hn label hl
  rcases hc with ⟨-, hd⟩ | ⟨a, b, f, hA, hB, hi, hd⟩
  · rw [hd]
  · obtain ⟨hmem, -, -⟩ := monthRange_facts start stop h1 h2 months hm
    have va : a.Valid := ((hmem a).mp (List.mem_of_mem_filter (List.mem_of_mem_head? hA))).1
    have vb : b.Valid := ((hmem b).mp (List.mem_of_mem_filter (List.mem_of_getLast? hB))).1
    have hnt : n ≠ targetName symbol label a b := by
      intro e
      rw [e, isExisting_target] at hn'
      cases hn'
    rw [hd, fileAt_fileSet, if_neg hnt, fileAt_extendRename _ _ _ _ va vb]
    split
    · rfl
    · rename_i path hp
      rw [if_neg hnt]
      split
      · rename_i e
        subst e
        unfold toExtend at hp
        have := List.mem_of_find?_eq_some hp
        rw [(List.perm_insertionSort _ _).mem_iff, List.mem_filter] at this
        rw [this.2] at hn'
        cases hn'
      · rfl

/-! ### Two runs -/

theorem SameFile.refl (f : H5File κ K) : SameFile f f := fun _ => ⟨rfl, rfl, rfl, rfl⟩

/-- The same file names with the same content. -/
def SameDir (d d' : List (List Char × H5File κ K)) : Prop := ∀ n, Option.Rel SameFile (fileAt n d) (fileAt n d')

theorem option_rel_refl (x : Option (H5File κ K)) : Option.Rel SameFile x x := by
  cases x with
  | none => exact Option.Rel.none
  | some f => exact Option.Rel.some (SameFile.refl f)

/-- **C147.** Running again with the same arguments and the same archives changes no file, unless a file with the same first month and an earlier
last month is there to be renamed over the target. -/
theorem C147_rerun (T : Tool D κ K) (market symbol : List Char) (start stop : Month) (ow : Bool) (net net' : Month → MonthNet D)
    (order order' : List (TaskResult K) → List (TaskResult K)) (hord : ∀ l, (order l).Perm l) (hord' : ∀ l, (order' l).Perm l)
    (disk disk1 disk2 : Disk D κ K) (months : List Month) (hm : monthRange start stop = .ok months) (h1 : start.Valid) (h2 : stop.Valid)
    (ha : orchestrate T market symbol start stop ow net order disk = .ok disk1)
    (hb : orchestrate T market symbol start stop ow net' order' disk1 = .ok disk2)
    (hsame : ∀ m ∈ months, disk2.raw symbol m = disk1.raw symbol m)
    (hg : ArchivesGood T (disk1.raw symbol) months) (ht : ∀ n f, fileAt n disk.h5 = some f → TidyFile f)
    (hno : ∀ label a b, marketLabel market = .ok label → (availableMonths (disk1.raw symbol) months).head? = some a →
      (availableMonths (disk1.raw symbol) months).getLast? = some b → toExtend (disk1.h5.map Prod.fst) symbol label a.yymm b.yymm = none) :
    SameDir disk2.h5 disk1.h5 := by
  obtain ⟨label, ms, hl, hm1, -, hc1⟩ := orchestrate_inv T market symbol start stop ow net order disk disk1 ha
  obtain ⟨label', ms', hl', hm2, -, hc2⟩ := orchestrate_inv T market symbol start stop ow net' order' disk1 disk2 hb
  rw [hl] at hl'
  obtain rfl := Except.ok.inj hl'
  rw [hm] at hm1 hm2
  obtain rfl := Except.ok.inj hm1
  obtain rfl := Except.ok.inj hm2
  have eav : availableMonths (disk2.raw symbol) months = availableMonths (disk1.raw symbol) months := by
    unfold availableMonths
    exact List.filter_congr fun m hmm => by rw [hsame m hmm]
  have etk : tasksOf T (disk2.raw symbol) months = tasksOf T (disk1.raw symbol) months := by
    unfold tasksOf
    rw [eav]
    exact List.map_congr_left fun m hmm => by rw [hsame m (List.mem_of_mem_filter hmm)]
  rw [eav, etk] at hc2
  rcases hc2 with ⟨-, hd2⟩ | ⟨a, b, f2, hA, hB, hi2, hd2⟩
  · intro n
    rw [hd2]
    exact option_rel_refl _
  · rcases hc1 with ⟨he, -⟩ | ⟨a', b', f1, hA', hB', hi1, hd1⟩
    · rw [he] at hA; cases hA
    · rw [hA] at hA'
      obtain rfl := Option.some.inj hA'
      rw [hB] at hB'
      obtain rfl := Option.some.inj hB'
      obtain ⟨hmem, hpw, hnd⟩ := monthRange_facts start stop h1 h2 months hm
      have va : a.Valid := ((hmem a).mp (List.mem_of_mem_filter (List.mem_of_mem_head? hA))).1
      have vb : b.Valid := ((hmem b).mp (List.mem_of_mem_filter (List.mem_of_getLast? hB))).1
      have hno' := hno label a b hl hA hB
      have er : ∀ n, fileAt n (extendRename symbol label a.yymm b.yymm (targetName symbol label a b) disk1.h5) = fileAt n disk1.h5 := by
        intro n
        rw [fileAt_extendRename _ _ _ _ va vb, hno']
      have e1 : fileAt (targetName symbol label a b) disk1.h5 = some f1 := by rw [hd1, fileAt_fileSet, if_pos rfl]
      rw [er, e1] at hi2
      have gb := goodBatch_tasks T (disk1.raw symbol) months hnd hg
      have tb : TidyFile (baseFile (fileAt (targetName symbol label a b)
          (extendRename symbol label a.yymm b.yymm (targetName symbol label a b) disk.h5))) := by
        cases hb : fileAt (targetName symbol label a b) (extendRename symbol label a.yymm b.yymm (targetName symbol label a b) disk.h5) with
        | none => exact TidyFile.empty
        | some g => exact tidy_base symbol label a b va vb disk.h5 ht _ g hb
      have hp1 := hord (tasksOf T (disk1.raw symbol) months)
      have hp2 := hord' (tasksOf T (disk1.raw symbol) months)
      have hpe : (enqueued (order (tasksOf T (disk1.raw symbol) months))).Perm (enqueued (order' (tasksOf T (disk1.raw symbol) months))) :=
        (hp1.trans hp2.symm).filterMap _
      have key := C147_two_ingestions T ow _ _ _ _ f1 f2 f1 hi1 hi2 hi1 tb (goodBatch_perm _ _ _ hp1 gb) (goodBatch_perm _ _ _ hp2 gb)
        (hp2.trans hp1.symm) (fun fr hfr => hpe.mem_iff.mp hfr) (fun fr hfr hn => absurd (hpe.mem_iff.mpr hfr) hn)
      intro n
      rw [hd2, fileAt_fileSet]
      split
      · rename_i e
        subst e
        rw [e1]
        exact Option.Rel.some key
      · rw [er]
        exact option_rel_refl _

theorem head_num_le {l : List Month} (hp : l.Pairwise (fun a b => a.num < b.num)) (a m : Month) (ha : l.head? = some a) (hm : m ∈ l) : a.num ≤ m.num := by
  cases l with
  | nil => cases ha
  | cons x l =>
    obtain rfl := Option.some.inj ha
    rcases List.mem_cons.mp hm with rfl | h
    · exact Nat.le_refl _
    · exact Nat.le_of_lt (List.rel_of_pairwise_cons hp h)

theorem le_last_num {l : List Month} (hp : l.Pairwise (fun a b => a.num < b.num)) (b m : Month) (hb : l.getLast? = some b) (hm : m ∈ l) : m.num ≤ b.num := by
  obtain ⟨l', rfl⟩ := List.getLast?_eq_some_iff.mp hb
  rcases List.mem_append.mp hm with h | h
  · exact Nat.le_of_lt ((List.pairwise_append.mp hp).2.2 m h b (by simp))
  · rw [List.mem_singleton.mp h]

theorem filter_fileSet_names (p : List Char → Bool) (t : List Char) (f : F) (dir : List (List Char × F)) (ht : p t = true)
    (hn : ∀ n ∈ dir.map Prod.fst, p n = false) : ((fileSet t f dir).map Prod.fst).filter p = [t] := by
  unfold fileSet
  rw [List.map_cons, List.filter_cons, if_pos ht]
  congr 1
  rw [List.filter_eq_nil_iff]
  intro n hn'
  obtain ⟨e, he, rfl⟩ := List.mem_map.mp hn'
  rw [hn e.1 (List.mem_map.mpr ⟨e, List.mem_of_mem_filter he, rfl⟩)]
  simp

theorem toExtend_clean (names : List (List Char)) (symbol label ys ye : List Char) (hn : ∀ n ∈ names, isExisting symbol label n = false) :
    toExtend names symbol label ys ye = none := by
  unfold toExtend
  have : names.filter (isExisting symbol label) = [] := by
    rw [List.filter_eq_nil_iff]
    intro n h
    rw [hn n h]; simp
  rw [this]
  rfl

theorem toExtend_single (names : List (List Char)) (symbol label : List Char) (a b c : Month) (ha : a.Valid) (hb : b.Valid) (hc : c.Valid)
    (hcen : b.year / 100 = c.year / 100) (hn : names.filter (isExisting symbol label) = [targetName symbol label a b]) :
    toExtend names symbol label a.yymm c.yymm = if b.num < c.num then some (targetName symbol label a b) else none := by
  unfold toExtend
  rw [hn]
  have hne : b.yymm ≠ [] := by
    obtain ⟨b1, b2, b3, b4, hB, -⟩ := yymm_digits b hb
    rw [hB]; simp
  have hlt := C78_yymm_order b c hb hc hcen
  simp only [List.insertionSort_cons, List.insertionSort_nil, List.orderedInsert_nil, List.find?_cons, List.find?_nil, C78_parse_target symbol label a b ha hb]
  by_cases h : b.num < c.num
  · simp [h, hlt, bne_iff_ne.mpr hne]
  · simp [h, hlt]

/-- **C147.** Ingesting a range of months in two runs - first up to one month, later up to another - leaves the same directory as ingesting the
whole range in one run: the file of the first run is renamed and extended.  The archives that were there stay as they are, none appears before
the first one, the last months are of one century, and no file of the symbol and market is there at the beginning. -/
theorem C147_incremental (T : Tool D κ K) (market symbol : List Char) (start stop1 stop2 : Month) (ow : Bool) (net1 net2 net3 : Month → MonthNet D)
    (order1 order2 order3 : List (TaskResult K) → List (TaskResult K)) (ho1 : ∀ l, (order1 l).Perm l) (ho2 : ∀ l, (order2 l).Perm l)
    (ho3 : ∀ l, (order3 l).Perm l) (disk disk1 disk2 diskG : Disk D κ K) (months1 months2 : List Month)
    (v0 : start.Valid) (v1 : stop1.Valid) (v2 : stop2.Valid) (hle : stop1.num ≤ stop2.num) (hcen : start.year / 100 = stop2.year / 100)
    (hm1 : monthRange start stop1 = .ok months1) (hm2 : monthRange start stop2 = .ok months2)
    (r1 : orchestrate T market symbol start stop1 ow net1 order1 disk = .ok disk1)
    (r2 : orchestrate T market symbol start stop2 ow net2 order2 disk1 = .ok disk2)
    (r3 : orchestrate T market symbol start stop2 ow net3 order3 disk = .ok diskG)
    (hav : availableMonths (disk1.raw symbol) months1 ≠ [])
    (hkeep : ∀ m ∈ months1, (disk1.raw symbol m).zip.isSome = true → disk2.raw symbol m = disk1.raw symbol m)
    (hfirst : ∀ m ∈ months1, (disk2.raw symbol m).zip.isSome = true →
      ∃ m' ∈ months1, m'.num ≤ m.num ∧ (disk1.raw symbol m').zip.isSome = true)
    (hsame : ∀ m ∈ months2, diskG.raw symbol m = disk2.raw symbol m)
    (hg : ArchivesGood T (disk2.raw symbol) months2)
    (hclean : ∀ label, marketLabel market = .ok label → ∀ n ∈ disk.h5.map Prod.fst, isExisting symbol label n = false) :
    SameDir disk2.h5 diskG.h5 := by
  obtain ⟨label, ms1, hl, hm1', -, hc1⟩ := orchestrate_inv T market symbol start stop1 ow net1 order1 disk disk1 r1
  obtain ⟨label', ms2, hl', hm2', -, hc2⟩ := orchestrate_inv T market symbol start stop2 ow net2 order2 disk1 disk2 r2
  obtain ⟨label'', ms3, hl'', hm3', -, hc3⟩ := orchestrate_inv T market symbol start stop2 ow net3 order3 disk diskG r3
  rw [hl] at hl' hl''
  obtain rfl := Except.ok.inj hl'
  obtain rfl := Except.ok.inj hl''
  rw [hm1] at hm1'
  obtain rfl := Except.ok.inj hm1'
  rw [hm2] at hm2' hm3'
  obtain rfl := Except.ok.inj hm2'
  obtain rfl := Except.ok.inj hm3'
  have hcl := hclean label hl
  obtain ⟨mem1, pw1, nd1⟩ := monthRange_facts start stop1 v0 v1 months1 hm1
  obtain ⟨mem2, pw2, nd2⟩ := monthRange_facts start stop2 v0 v2 months2 hm2
  have hsub : ∀ m ∈ months1, m ∈ months2 := fun m hm => by
    obtain ⟨a, b, c⟩ := (mem1 m).mp hm
    exact (mem2 m).mpr ⟨a, b, c.trans hle⟩
  -- the one-run side reads the same archives
  have eav : availableMonths (diskG.raw symbol) months2 = availableMonths (disk2.raw symbol) months2 := by
    unfold availableMonths
    exact List.filter_congr fun m hmm => by rw [hsame m hmm]
  have etk : tasksOf T (diskG.raw symbol) months2 = tasksOf T (disk2.raw symbol) months2 := by
    unfold tasksOf
    rw [eav]
    exact List.map_congr_left fun m hmm => by rw [hsame m (List.mem_of_mem_filter hmm)]
  rw [eav, etk] at hc3
  rcases hc1 with ⟨he, -⟩ | ⟨a, b, f1, hA, hB, hi1, hd1⟩
  · exact absurd he hav
  have pA := pw1.filter (fun m => (disk1.raw symbol m).zip.isSome)
  have pB := pw2.filter (fun m => (disk2.raw symbol m).zip.isSome)
  have memA : ∀ m, m ∈ availableMonths (disk1.raw symbol) months1 ↔ m ∈ months1 ∧ (disk1.raw symbol m).zip.isSome = true := fun m => List.mem_filter
  have memB : ∀ m, m ∈ availableMonths (disk2.raw symbol) months2 ↔ m ∈ months2 ∧ (disk2.raw symbol m).zip.isSome = true := fun m => List.mem_filter
  have inAB : ∀ m, m ∈ availableMonths (disk1.raw symbol) months1 → m ∈ availableMonths (disk2.raw symbol) months2 := by
    intro m hm
    obtain ⟨x, y⟩ := (memA m).mp hm
    exact (memB m).mpr ⟨hsub m x, by rw [hkeep m x y]; exact y⟩
  have aA := List.mem_of_mem_head? hA
  have bA := List.mem_of_getLast? hB
  rcases hc2 with ⟨he, -⟩ | ⟨a2, b2, f2, hA2, hB2, hi2, hd2⟩
  · have := inAB a aA
    rw [he] at this
    simp at this
  rcases hc3 with ⟨he, -⟩ | ⟨a3, b3, g, hA3, hB3, hi3, hd3⟩
  · rw [he] at hA2; cases hA2
  rw [hA2] at hA3
  obtain rfl := Option.some.inj hA3
  rw [hB2] at hB3
  obtain rfl := Option.some.inj hB3
  have a2B := List.mem_of_mem_head? hA2
  have b2B := List.mem_of_getLast? hB2
  have va : a.Valid := ((mem1 a).mp ((memA a).mp aA).1).1
  have vb : b.Valid := ((mem1 b).mp ((memA b).mp bA).1).1
  have va2 : a2.Valid := ((mem2 a2).mp ((memB a2).mp a2B).1).1
  have vb2 : b2.Valid := ((mem2 b2).mp ((memB b2).mp b2B).1).1
  -- the first months agree
  have ea : a2 = a := by
    refine Month.num_inj va2 va (Nat.le_antisymm (head_num_le pB a2 a hA2 (inAB a aA)) ?_)
    by_cases hin : a2 ∈ months1
    · obtain ⟨m', x, y, z⟩ := hfirst a2 hin ((memB a2).mp a2B).2
      exact (head_num_le pA a m' hA ((memA m').mpr ⟨x, z⟩)).trans y
    · have h1 := (mem1 a).mp ((memA a).mp aA).1
      have h2 := (mem2 a2).mp ((memB a2).mp a2B).1
      by_contra hlt
      exact hin ((mem1 a2).mpr ⟨va2, h2.2.1, by omega⟩)
  subst ea
  have hbb : b.num ≤ b2.num := le_last_num pB b2 b hB2 (inAB b bA)
  have hcb : b.year / 100 = b2.year / 100 := by
    have h1 := (mem1 b).mp ((memA b).mp bA).1
    have h2 := (mem2 b2).mp ((memB b2).mp b2B).1
    unfold Month.num Month.Valid at *
    have q1 : start.year ≤ b.year := by omega
    have q2 : b.year ≤ b2.year := by omega
    have q3 : b2.year ≤ stop2.year := by omega
    have w1 := Nat.div_le_div_right (c := 100) q1
    have w2 := Nat.div_le_div_right (c := 100) q2
    have w3 := Nat.div_le_div_right (c := 100) q3
    omega
  -- where the runs start from
  have fnone : ∀ n, isExisting symbol label n = true → fileAt n disk.h5 = none := by
    intro n hn
    cases hf : fileAt n disk.h5 with
    | none => rfl
    | some x =>
      have := hcl n (List.mem_map.mpr ⟨(n, x), fileAt_mem n _ _ hf, rfl⟩)
      rw [hn] at this; cases this
  have er1 : extendRename symbol label a2.yymm b.yymm (targetName symbol label a2 b) disk.h5 = disk.h5 := by
    unfold extendRename
    rw [toExtend_clean _ _ _ _ _ hcl]
  have er3 : extendRename symbol label a2.yymm b2.yymm (targetName symbol label a2 b2) disk.h5 = disk.h5 := by
    unfold extendRename
    rw [toExtend_clean _ _ _ _ _ hcl]
  rw [er1, fnone _ (isExisting_target _ _ _ _)] at hi1
  rw [er3, fnone _ (isExisting_target _ _ _ _)] at hi3
  rw [er1] at hd1
  rw [er3] at hd3
  have hx := toExtend_single (disk1.h5.map Prod.fst) symbol label a2 b b2 va vb vb2 hcb
    (by rw [hd1]; exact filter_fileSet_names _ _ _ _ (isExisting_target _ _ _ _) hcl)
  have e1 : ∀ n, fileAt n disk1.h5 = if n = targetName symbol label a2 b then some f1 else fileAt n disk.h5 := by
    intro n; rw [hd1, fileAt_fileSet]
  have er2 : ∀ n, fileAt n (extendRename symbol label a2.yymm b2.yymm (targetName symbol label a2 b2) disk1.h5) =
      if n = targetName symbol label a2 b2 then some f1 else fileAt n disk.h5 := by
    intro n
    rw [fileAt_extendRename _ _ _ _ va vb2, hx]
    by_cases hlt : b.num < b2.num
    · rw [if_pos hlt]
      dsimp only
      rw [e1, e1, if_pos rfl]
      by_cases hn : n = targetName symbol label a2 b2
      · rw [if_pos hn, if_pos hn]
      · rw [if_neg hn, if_neg hn]
        by_cases hn' : n = targetName symbol label a2 b
        · rw [if_pos hn', hn', fnone _ (isExisting_target _ _ _ _)]
        · rw [if_neg hn', if_neg hn']
    · rw [if_neg hlt]
      dsimp only
      have eb : b = b2 := Month.num_inj vb vb2 (by omega)
      rw [e1, eb]
  rw [er2, if_pos rfl] at hi2
  -- the batches
  have gb2 := goodBatch_tasks T (disk2.raw symbol) months2 nd2 hg
  have rd : ∀ m ∈ months1, ∀ fr, Readable T (disk1.raw symbol m) fr → Readable T (disk2.raw symbol m) fr := by
    intro m hm fr hr
    have hz : (disk1.raw symbol m).zip.isSome = true := by
      obtain ⟨z, hz, -⟩ := hr
      rw [hz]; rfl
    rw [hkeep m hm hz]
    exact hr
  have hg1 : ArchivesGood T (disk1.raw symbol) months1 :=
    ⟨fun m hm fr hr => hg.rows m (hsub m hm) fr (rd m hm fr hr),
      fun m hm m' hm' fr fr' hr hr' => hg.keys m (hsub m hm) m' (hsub m' hm') fr fr' (rd m hm fr hr) (rd m' hm' fr' hr')⟩
  have gb1 := goodBatch_tasks T (disk1.raw symbol) months1 nd1 hg1
  have hp1 := ho1 (tasksOf T (disk1.raw symbol) months1)
  have hp2 := ho2 (tasksOf T (disk2.raw symbol) months2)
  have hp3 := ho3 (tasksOf T (disk2.raw symbol) months2)
  have key := C147_two_ingestions T ow none _ _ _ f1 f2 g hi1 hi2 hi3 TidyFile.empty (goodBatch_perm _ _ _ hp1 gb1) (goodBatch_perm _ _ _ hp2 gb2)
    (hp2.trans hp3.symm)
    (fun fr hfr => by
      have := ((hp1.filterMap _).mem_iff).mp hfr
      obtain ⟨m, hm, hr⟩ := (mem_tasks T _ _ fr).mp this
      exact ((hp2.filterMap _).mem_iff).mpr ((mem_tasks T _ _ fr).mpr ⟨m, hsub m hm, rd m hm fr hr⟩))
    (fun fr _ _ => rfl)
  intro n
  rw [hd2, hd3, fileAt_fileSet, fileAt_fileSet, er2]
  by_cases hn : n = targetName symbol label a2 b2
  · rw [if_pos hn, if_pos hn]
    exact Option.Rel.some key
  · rw [if_neg hn, if_neg hn, if_neg hn]
    exact option_rel_refl _

/-! ### A concrete tool -/

/-- A check that implies `ArchivesGood`. -/
def goodCheck (T : Tool D κ K) (raw : Month → MonthFiles D) (months : List Month) : Bool :=
  months.all fun m => match taskOf T.verify T.read (raw m) with
    | .trades fr => !fr.rows.isEmpty && months.all fun m' => match taskOf T.verify T.read (raw m') with
      | .trades fr' => decide (saveTarget T.monthOf (none, fr) = saveTarget T.monthOf (none, fr') → m = m')
      | _ => true
    | _ => true

theorem archivesGood_of_check (T : Tool D κ K) (raw : Month → MonthFiles D) (months : List Month) (h : goodCheck T raw months = true) :
    ArchivesGood T raw months := by
  unfold goodCheck at h
  rw [List.all_eq_true] at h
  refine ⟨fun m hm fr hr => ?_, fun m hm m' hm' fr fr' hr hr' e => ?_⟩
  · have := h m hm
    rw [(taskOf_trades T _ _).mpr hr] at this
    simp only [Bool.and_eq_true, Bool.not_eq_true', List.isEmpty_eq_false_iff] at this
    exact this.1
  · have := h m hm
    rw [(taskOf_trades T _ _).mpr hr] at this
    simp only [Bool.and_eq_true, List.all_eq_true] at this
    have := this.2 m' hm'
    rw [(taskOf_trades T _ _).mpr hr'] at this
    simp only [decide_eq_true_eq] at this
    exact this e

theorem ok_of_isSome {α : Type} (x : Except String α) (d : α) (h : x.toOption.isSome = true) : x = .ok (x.toOption.getD d) := by
  cases x with
  | error e => cases h
  | ok a => rfl

/-- Archive `z` is version `z % 10` of month `z / 10` and holds one trade; its checksum file is a copy of it. -/
def demoTool : Tool Nat Nat ℚ where
  verify := fun z c => decide (c = some z)
  read := fun z => .ok ⟨[⟨(z / 10 : Nat) * 10000000000 + 500000000, 1 + (z % 10 : Nat), 1, 1⟩], some true, 0, []⟩
  monthOf := fun t => (t / 10000000000).toNat
  sortIdx := id

/-- Every archive can be downloaded. -/
def demoNet : Month → MonthNet Nat := fun m => ⟨[.done (10 * m.month)], [.done (10 * m.month)], [.done (10 * m.month)]⟩

/-- Every archive arrives damaged. -/
def badNet : Month → MonthNet Nat := fun m => ⟨[.done (10 * m.month + 1)], [.done (10 * m.month)], [.done (10 * m.month + 1)]⟩

/-- No archive yet; one file of another symbol. -/
def demoDisk : Disk Nat Nat ℚ := ⟨fun _ _ => ⟨none, none⟩, [("ETHUSDT_SPOT_2301-2301.h5".toList, H5File.empty)]⟩

/-- A run for BTCUSDT on the spot market; the workers finish in reverse order. -/
def runDemo (a b : Month) (ow : Bool) (net : Month → MonthNet Nat) (d : Disk Nat Nat ℚ) : Except String (Disk Nat Nat ℚ) :=
  orchestrate demoTool "spot".toList "BTCUSDT".toList a b ow net List.reverse d

/-- A file name with the prices of the stored trades and the opens of the stored bars of every month. -/
structure FileView where
  name : List Char
  prices : List (Nat × List ℚ)
  opens : List (Nat × List ℚ)
deriving DecidableEq

/-- The names of the HDF5 files with, for every month, the prices of the stored trades and the opens of the stored bars. -/
def viewDisk (d : Disk Nat Nat ℚ) : List FileView :=
  d.h5.map (fun e => ⟨e.1, e.2.trades.trades.map (fun p => (p.1, p.2.map (·.price))), e.2.bars.klines.map (fun p => (p.1, p.2.map (·.opn)))⟩)

/-- After January and February. -/
def demoA : Disk Nat Nat ℚ := (runDemo ⟨2023, 1⟩ ⟨2023, 2⟩ false demoNet demoDisk).toOption.getD demoDisk
/-- Then up to March. -/
def demoB : Disk Nat Nat ℚ := (runDemo ⟨2023, 1⟩ ⟨2023, 3⟩ false demoNet demoA).toOption.getD demoDisk
/-- January to March in one run. -/
def demoG : Disk Nat Nat ℚ := (runDemo ⟨2023, 1⟩ ⟨2023, 3⟩ false demoNet demoDisk).toOption.getD demoDisk
/-- January and February again. -/
def demoC : Disk Nat Nat ℚ := (runDemo ⟨2023, 1⟩ ⟨2023, 2⟩ false demoNet demoA).toOption.getD demoDisk

theorem demoA_run : runDemo ⟨2023, 1⟩ ⟨2023, 2⟩ false demoNet demoDisk = .ok demoA := ok_of_isSome _ _ (by decide +kernel)
theorem demoB_run : runDemo ⟨2023, 1⟩ ⟨2023, 3⟩ false demoNet demoA = .ok demoB := ok_of_isSome _ _ (by decide +kernel)
theorem demoG_run : runDemo ⟨2023, 1⟩ ⟨2023, 3⟩ false demoNet demoDisk = .ok demoG := ok_of_isSome _ _ (by decide +kernel)
theorem demoC_run : runDemo ⟨2023, 1⟩ ⟨2023, 2⟩ false demoNet demoA = .ok demoC := ok_of_isSome _ _ (by decide +kernel)

theorem spot_label (label : List Char) (h : marketLabel "spot".toList = .ok label) : label = "SPOT".toList := by
  have e : marketLabel "spot".toList = .ok "SPOT".toList := by decide +kernel
  rw [e] at h
  exact (Except.ok.inj h).symm

/-- The concrete file holds the three months. -/
theorem C147_demo : viewDisk demoB = [⟨"BTCUSDT_SPOT_2301-2303.h5".toList, [(1, [1]), (2, [1]), (3, [1])], [(3, [1, 1]), (2, [1, 1]), (1, [1, 1])]⟩,
    ⟨"ETHUSDT_SPOT_2301-2301.h5".toList, [], []⟩] ∧ viewDisk demoA = [⟨"BTCUSDT_SPOT_2301-2302.h5".toList, [(1, [1]), (2, [1])], [(2, [1, 1]), (1, [1, 1])]⟩,
    ⟨"ETHUSDT_SPOT_2301-2301.h5".toList, [], []⟩] := by decide +kernel

-- an instance of `C147_incremental`
example : SameDir demoB.h5 demoG.h5 :=
  C147_incremental demoTool "spot".toList "BTCUSDT".toList ⟨2023, 1⟩ ⟨2023, 2⟩ ⟨2023, 3⟩ false demoNet demoNet demoNet List.reverse List.reverse
    List.reverse (fun l => l.reverse_perm) (fun l => l.reverse_perm) (fun l => l.reverse_perm) demoDisk demoA demoB demoG
    [⟨2023, 1⟩, ⟨2023, 2⟩] [⟨2023, 1⟩, ⟨2023, 2⟩, ⟨2023, 3⟩] (by unfold Month.Valid; decide) (by unfold Month.Valid; decide)
    (by unfold Month.Valid; decide) (by decide) (by decide) (by decide +kernel)
    (by decide +kernel) demoA_run demoB_run demoG_run (by decide +kernel) (by decide +kernel) (by decide +kernel) (by decide +kernel)
    (archivesGood_of_check _ _ _ (by decide +kernel))
    (fun label hl n hn => by
      rw [spot_label label hl]
      have : n = "ETHUSDT_SPOT_2301-2301.h5".toList := by simpa [demoDisk] using hn
      rw [this]
      decide +kernel)

-- an instance of `C147_rerun`
example : SameDir demoC.h5 demoA.h5 :=
  C147_rerun demoTool "spot".toList "BTCUSDT".toList ⟨2023, 1⟩ ⟨2023, 2⟩ false demoNet demoNet List.reverse List.reverse (fun l => l.reverse_perm)
    (fun l => l.reverse_perm) demoDisk demoA demoC [⟨2023, 1⟩, ⟨2023, 2⟩] (by decide +kernel) (by unfold Month.Valid; decide)
    (by unfold Month.Valid; decide) demoA_run demoC_run
    (by decide +kernel) (archivesGood_of_check _ _ _ (by decide +kernel))
    (fun n f h => by
      have h' := fileAt_mem _ _ _ h
      simp only [demoDisk, List.mem_singleton, Prod.mk.injEq] at h'
      rw [h'.2]
      exact TidyFile.empty)
    (fun label a b hl ha hb => by
      have e : (availableMonths (demoA.raw "BTCUSDT".toList) [⟨2023, 1⟩, ⟨2023, 2⟩]) = [⟨2023, 1⟩, ⟨2023, 2⟩] := by decide +kernel
      rw [e] at ha hb
      obtain rfl := Option.some.inj ha
      obtain rfl := Option.some.inj hb
      rw [spot_label label hl]
      decide +kernel)

-- the hypotheses of `C147_run` for the second run, which extends a file, and its conclusion for the first trade
example : ∃ f, fileAt "BTCUSDT_SPOT_2301-2303.h5".toList demoB.h5 = some f ∧
    aget 2 f.trades.trades = some [⟨2 * 10000000000 + 500000000, 1, 1, 1⟩] := by
  have tA : ∀ n f, fileAt n demoA.h5 = some f → TidyFile f := by
    obtain ⟨_, _, _, _, _, -, -, -, -, -, -, -, -, h⟩ := C147_run demoTool "spot".toList "BTCUSDT".toList ⟨2023, 1⟩ ⟨2023, 2⟩ false demoNet List.reverse
      (fun l => l.reverse_perm) demoDisk demoA [⟨2023, 1⟩, ⟨2023, 2⟩] demoA_run (by unfold Month.Valid; decide) (by unfold Month.Valid; decide)
      (by decide +kernel) (by decide +kernel) (archivesGood_of_check _ _ _ (by decide +kernel))
      (fun n f h => by
        have h' := fileAt_mem _ _ _ h
        simp only [demoDisk, List.mem_singleton, Prod.mk.injEq] at h'
        rw [h'.2]
        exact TidyFile.empty)
    exact h
  obtain ⟨label, a, b, f, base, hl, ha, hb, hf, -, hr, -⟩ := C147_run demoTool "spot".toList "BTCUSDT".toList ⟨2023, 1⟩ ⟨2023, 3⟩ false demoNet List.reverse
    (fun l => l.reverse_perm) demoA demoB [⟨2023, 1⟩, ⟨2023, 2⟩, ⟨2023, 3⟩] demoB_run (by unfold Month.Valid; decide) (by unfold Month.Valid; decide)
    (by decide +kernel) (by decide +kernel) (archivesGood_of_check _ _ _ (by decide +kernel)) tA
  have e : (availableMonths (demoB.raw "BTCUSDT".toList) [⟨2023, 1⟩, ⟨2023, 2⟩, ⟨2023, 3⟩]) = [⟨2023, 1⟩, ⟨2023, 2⟩, ⟨2023, 3⟩] := by decide +kernel
  rw [e] at ha hb
  obtain rfl := Option.some.inj ha
  obtain rfl := Option.some.inj hb
  rw [spot_label label hl] at hf
  have en : targetName "BTCUSDT".toList "SPOT".toList ⟨2023, 1⟩ ⟨2023, 3⟩ = "BTCUSDT_SPOT_2301-2303.h5".toList := by decide +kernel
  have hf : fileAt (targetName "BTCUSDT".toList "SPOT".toList ⟨2023, 1⟩ ⟨2023, 3⟩) demoB.h5 = some f := hf
  rw [en] at hf
  have key := (hr ⟨2023, 2⟩ (by decide) ⟨[⟨2 * 10000000000 + 500000000, 1, 1, 1⟩], some true, 0, []⟩
    ⟨20, by decide +kernel, by decide +kernel, by simp [demoTool]⟩).1
  have es : saveTarget demoTool.monthOf (none, (⟨[⟨2 * 10000000000 + 500000000, 1, 1, 1⟩], some true, 0, []⟩ : Frame ℚ)) = 2 := by decide +kernel
  rw [es] at key
  exact ⟨f, hf, key⟩

-- an instance of `C147_other_files`
example : fileAt "ETHUSDT_SPOT_2301-2301.h5".toList demoB.h5 = fileAt "ETHUSDT_SPOT_2301-2301.h5".toList demoA.h5 :=
  (C147_other_files demoTool "spot".toList "BTCUSDT".toList ⟨2023, 1⟩ ⟨2023, 3⟩ false demoNet List.reverse demoA demoB demoB_run
    (by unfold Month.Valid; decide) (by unfold Month.Valid; decide)).2 _
    (fun label hl => by rw [spot_label label hl]; decide +kernel)

-- the hypotheses of `C147_two_ingestions`: the tasks of the two runs
example : GoodBatch demoTool.monthOf (tasksOf demoTool (demoB.raw "BTCUSDT".toList) [⟨2023, 1⟩, ⟨2023, 2⟩, ⟨2023, 3⟩]) ∧
    (enqueued (tasksOf demoTool (demoA.raw "BTCUSDT".toList) [⟨2023, 1⟩, ⟨2023, 2⟩])).length = 2 ∧
    (∀ fr ∈ enqueued (tasksOf demoTool (demoA.raw "BTCUSDT".toList) [⟨2023, 1⟩, ⟨2023, 2⟩]),
      fr ∈ enqueued (tasksOf demoTool (demoB.raw "BTCUSDT".toList) [⟨2023, 1⟩, ⟨2023, 2⟩, ⟨2023, 3⟩])) :=
  ⟨goodBatch_tasks _ _ _ (by decide) (archivesGood_of_check _ _ _ (by decide +kernel)), by decide +kernel, by decide +kernel⟩

/-! ### Where the run departs from what one would expect -/

/-- **C147 (violation).** Without the overwrite flag the bars of a month are not rebuilt when its archive was replaced: the trades are the new
ones (price 3), the bars still those of the old ones (open 1). -/
theorem C147_stale_bars :
    let d : Disk Nat Nat ℚ := ⟨fun _ m => ⟨some (10 * m.month + 2), some (10 * m.month + 2)⟩, demoA.h5⟩
    (runDemo ⟨2023, 1⟩ ⟨2023, 2⟩ false demoNet d).toOption.map (fun d => (viewDisk d).take 1) =
      some [⟨"BTCUSDT_SPOT_2301-2302.h5".toList, [(1, [3]), (2, [3])], [(2, [1, 1]), (1, [1, 1])]⟩] ∧
    (runDemo ⟨2023, 1⟩ ⟨2023, 2⟩ true demoNet d).toOption.map (fun d => (viewDisk d).take 1) =
      some [⟨"BTCUSDT_SPOT_2301-2302.h5".toList, [(1, [3]), (2, [3])], [(2, [3, 3]), (1, [3, 3])]⟩] := by
  decide +kernel

/-- **C147 (violation).** The file name covers a month whose archive is damaged, though the file has no data of it. -/
theorem C147_name_of_damaged_month :
    let net : Month → MonthNet Nat := fun m => if m.month = 2 then badNet m else demoNet m
    (runDemo ⟨2023, 1⟩ ⟨2023, 2⟩ false net demoDisk).toOption.map (fun d => (viewDisk d).take 1) =
      some [⟨"BTCUSDT_SPOT_2301-2302.h5".toList, [(1, [1])], [(1, [1, 1])]⟩] := by
  decide +kernel

/-- **C147 (violation).** If every archive of a symbol is damaged and it has no file yet, the run ends with an error, and the symbols after it
are not processed. -/
theorem C147_damaged_symbol_ends_run :
    let net : List Char → Month → MonthNet Nat := fun s => if s = "BTCUSDT".toList then badNet else demoNet
    (runTool demoTool "spot".toList ⟨2023, 1⟩ ⟨2023, 2⟩ false net List.reverse ["btcusdt".toList, "xrpusdt".toList] demoDisk).2 =
      some "FileNotFoundError" ∧
    (runTool demoTool "spot".toList ⟨2023, 1⟩ ⟨2023, 2⟩ false net List.reverse ["btcusdt".toList, "xrpusdt".toList] demoDisk).1.h5.map Prod.fst =
      ["ETHUSDT_SPOT_2301-2301.h5".toList] ∧
    (runTool demoTool "spot".toList ⟨2023, 1⟩ ⟨2023, 2⟩ false net List.reverse ["xrpusdt".toList] demoDisk).1.h5.map Prod.fst =
      ["XRPUSDT_SPOT_2301-2302.h5".toList, "ETHUSDT_SPOT_2301-2301.h5".toList] := by
  decide +kernel

/-- **C147 (violation).** A file of January left beside the file of January and February is renamed over it: if the archive of February no longer
verifies, its stored trades and bars are lost. -/
theorem C147_shorter_file_wins :
    let jan := (runDemo ⟨2023, 1⟩ ⟨2023, 1⟩ false demoNet demoDisk).toOption.getD demoDisk
    let d : Disk Nat Nat ℚ := ⟨fun _ m => if m.month = 2 then ⟨some 21, some 20⟩ else ⟨some (10 * m.month), some (10 * m.month)⟩, jan.h5 ++ demoA.h5⟩
    let net : Month → MonthNet Nat := fun m => if m.month = 2 then badNet m else demoNet m
    (fileAt "BTCUSDT_SPOT_2301-2302.h5".toList d.h5).map (fun f => f.trades.trades.map Prod.fst) = some [1, 2] ∧
    (runDemo ⟨2023, 1⟩ ⟨2023, 2⟩ false net d).toOption.map
      (fun d => (fileAt "BTCUSDT_SPOT_2301-2302.h5".toList d.h5).map (fun f => f.trades.trades.map Prod.fst)) = some (some [1]) := by
  decide +kernel

end FinML
