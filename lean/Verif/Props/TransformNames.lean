/-
C82: which parameters of a transform its output name identifies, and which it does not.
-/
import Verif.Model.TransformNames
import Verif.Model.Indicators
import Verif.Model.DayFeatures
import Verif.Props.FeatureNames

set_option linter.unusedSectionVars false

namespace FinML

/-- What the name records: a class number, the integer parameters, a duration and the flags. -/
structure Recorded where
  cls : Nat
  ints : List Int
  time : Option Rat
  flags : List Bool
deriving DecidableEq

/-- The parameters a name records.  Not recorded: `is_log` of `Return`, `ReturnT` and `VWAPDistance`; `ddof` of
`ZScore` and `VarianceRatio14`; `is_sample`; `num_std`; `ret_type`; `m` and `tolerance`; the window of `ReturnT` up
to a microsecond, which counts as one period; the window of `BarRate` in whole minutes. -/
def Tx.recorded : Tx → Recorded
  | .lag p => ⟨0, [p], none, []⟩
  | .returnT s _ => if s > 1 / 1000000 then ⟨1, [], some s, []⟩ else ⟨1, [1], none, []⟩
  | .ret p _ => ⟨1, [p], none, []⟩
  | .roc p => ⟨2, [p], none, []⟩
  | .pctChange w => ⟨3, [w], none, []⟩
  | .rsi w => ⟨4, [w], none, []⟩
  | .stochK l => ⟨5, [l], none, []⟩
  | .ewmst s => ⟨6, [], some s, []⟩
  | .zscore w _ => ⟨7, [w], none, []⟩
  | .burst w => ⟨8, [w], none, []⟩
  | .vwap p _ => ⟨9, [p], none, []⟩
  | .realized w _ => ⟨10, [w], none, []⟩
  | .bollinger w _ => ⟨11, [w], none, []⟩
  | .parkinson => ⟨12, [], none, []⟩
  | .sma w => ⟨13, [w], none, []⟩
  | .ewma s => ⟨14, [s], none, []⟩
  | .flow w r => ⟨15, [w, r], none, []⟩
  | .atr w e n => ⟨16, [w], none, [e, n]⟩
  | .corr w => ⟨17, [w], none, []⟩
  | .vpin w => ⟨18, [w], none, []⟩
  | .varRatio w _ _ => ⟨19, [w], none, []⟩
  | .kurt w => ⟨20, [w], none, []⟩
  | .slope w => ⟨21, [w], none, []⟩
  | .adx l => ⟨22, [l], none, []⟩
  | .meanRev w => ⟨23, [w], none, []⟩
  | .gap => ⟨24, [], none, []⟩
  | .barRate s => if (s / 60).den = 1 then ⟨25, [], none, []⟩ else ⟨26, [], some (s / 60), []⟩
  | .hurst w => ⟨27, [w], none, []⟩
  | .apen w _ _ => ⟨28, [w], none, []⟩
  | .durEwma s => ⟨29, [s], none, []⟩
  | .dur p => ⟨30, [p], none, []⟩
  | .biPower w => ⟨31, [w], none, []⟩
  | .runLen => ⟨32, [], none, []⟩

/-- The class of each leading text. -/
def headTable : List (String × Nat) :=
  [("lag", 0), ("ret", 1), ("roc", 2), ("pctc", 3), ("rsiw", 4), ("stochk", 5), ("ewms", 6), ("z", 7), ("burst", 8),
   ("vwapd", 9), ("rv", 10), ("bollb", 11), ("parkrange", 12), ("sma", 13), ("ewma", 14), ("flowacc_", 15), ("atr", 16),
   ("corr_pv_", 17), ("vpin_", 18), ("var_ratio_", 19), ("kurt_", 20), ("trend_slope_", 21), ("adx_", 22),
   ("mr_z_", 23), ("daily_gap", 24), ("bars_per_hour", 25), ("rate_", 26), ("hurst", 27), ("apen", 28),
   ("dur_ewma", 29), ("dur_", 30), ("bv_", 31), ("dir_run_len", 32)]

/-- The class of a leading text. -/
def headCode (h : String) : Option Nat := (headTable.find? (fun p => p.1 == h)).map Prod.snd

theorem head_mem (t : Tx) : (t.head, t.recorded.cls) ∈ headTable := by
  cases t with
  | returnT s l => simp only [Tx.head, Tx.recorded]; split <;> dsimp only <;> decide
  | barRate s => simp only [Tx.head, Tx.recorded]; split <;> dsimp only <;> decide
  | _ => simp only [Tx.head, Tx.recorded]; decide

theorem headCode_head (t : Tx) : headCode t.head = some t.recorded.cls := by
  have key : ∀ p ∈ headTable, headCode p.1 = some p.2 := by decide +kernel
  exact key _ (head_mem t)

/-- Start of a number. -/
def NumStart (c : Char) : Bool := c = '-' || (48 ≤ c.toNat && c.toNat ≤ 57)

theorem head_letters (t : Tx) : ∀ c ∈ t.head.toList, NumStart c = false := by
  have key : ∀ p ∈ headTable, ∀ c ∈ p.1.toList, NumStart c = false := by decide +kernel
  exact key _ (head_mem t)

theorem intText_start (z : Int) : ∃ c r, intText z = c :: r ∧ NumStart c = true := by
  have h1 : intText z ≠ [] := by
    intro h
    have := parseInt_intText z
    rw [h] at this
    cases this
  obtain ⟨c, r, hc⟩ := List.exists_cons_of_ne_nil h1
  refine ⟨c, r, hc, ?_⟩
  have key : ∀ d : Fin 10, NumStart (Char.ofNat (48 + d.val)) = true := by decide +kernel
  rcases intText_digits z c (by rw [hc]; simp) with rfl | ⟨d, rfl⟩
  · decide
  · exact key d

/-- Python prints numbers starting with a digit or a minus sign. -/
structure FloatText.Numeric (F : FloatText) : Prop extends F.Tidy where
  start : ∀ q, ∃ c r, F.text q = c :: r ∧ NumStart c = true

theorem tail_start {F : FloatText} (hF : F.Numeric) (t : Tx) :
    t.tail F = [] ∨ ∃ c r, t.tail F = c :: r ∧ NumStart c = true := by
  have app : ∀ (u v : List Char), (∃ c r, u = c :: r ∧ NumStart c = true) →
      (u ++ v = [] ∨ ∃ c r, u ++ v = c :: r ∧ NumStart c = true) := by
    rintro u v ⟨c, r, rfl, h⟩
    exact Or.inr ⟨c, r ++ v, rfl, h⟩
  have one : ∀ z, intText z = [] ∨ ∃ c r, intText z = c :: r ∧ NumStart c = true := fun z => Or.inr (intText_start z)
  cases t with
  | returnT s l =>
    simp only [Tx.tail]
    split
    · exact app _ _ (hF.start s)
    · exact Or.inr ⟨'1', [], rfl, by decide⟩
  | ewmst s => exact app _ _ (hF.start s)
  | parkinson => exact Or.inl rfl
  | flow w r => exact app _ _ (intText_start w)
  | atr w e n =>
    simp only [Tx.tail, List.append_assoc]
    exact app _ _ (intText_start w)
  | varRatio w r d => exact Or.inr ⟨'1', _, rfl, by decide⟩
  | gap => exact Or.inl rfl
  | barRate s =>
    simp only [Tx.tail]
    split
    · exact Or.inl rfl
    · exact app _ _ (hF.start _)
  | dur p => exact app _ _ (intText_start p)
  | runLen => exact Or.inl rfl
  | _ => exact one _

theorem split_num (u : List Char) : ∀ (v r s : List Char), (∀ c ∈ u, NumStart c = false) → (∀ c ∈ v, NumStart c = false) →
    (r = [] ∨ ∃ c r', r = c :: r' ∧ NumStart c = true) → (s = [] ∨ ∃ c s', s = c :: s' ∧ NumStart c = true) →
    u ++ r = v ++ s → u = v ∧ r = s := by
  induction u with
  | nil =>
    intro v r s _ hv hr _ h
    cases v with
    | nil => exact ⟨rfl, h⟩
    | cons b v =>
      rcases hr with rfl | ⟨c, r', rfl, hc⟩
      · simp at h
      · simp only [List.nil_append, List.cons_append, List.cons.injEq] at h
        rw [h.1] at hc
        rw [hv b (by simp)] at hc
        cases hc
  | cons a u ih =>
    intro v r s hu hv hr hs h
    cases v with
    | nil =>
      rcases hs with rfl | ⟨c, s', rfl, hc⟩
      · simp at h
      · simp only [List.nil_append, List.cons_append, List.cons.injEq] at h
        rw [← h.1] at hc
        rw [hu a (by simp)] at hc
        cases hc
    | cons b v =>
      simp only [List.cons_append, List.cons.injEq] at h
      obtain ⟨h1, h2⟩ := ih v r s (fun c hc => hu c (by simp [hc])) (fun c hc => hv c (by simp [hc])) hr hs h.2
      exact ⟨by rw [h.1, h1], h2⟩

/-- Read an integer parameter. -/
def readInts (cls : Nat) (s : List Char) : Recorded := ⟨cls, (parseInt s).toList, none, []⟩

/-- Read the parameters back from the part of the name after the leading text. -/
def readTail (F : FloatText) (cls : Nat) (s : List Char) : Recorded :=
  if cls = 1 then
    (if s.getLastD ' ' = 's' then ⟨1, [], F.parse s.dropLast, []⟩ else readInts 1 s)
  else if cls = 6 then ⟨6, [], F.parse s.dropLast, []⟩
  else if cls = 26 then ⟨26, [], F.parse s.dropLast, []⟩
  else if cls = 12 ∨ cls = 24 ∨ cls = 25 ∨ cls = 32 then ⟨cls, [], none, []⟩
  else if cls = 15 then ⟨15, (splitU s).flatMap (fun w => (parseInt w).toList), none, []⟩
  else if cls = 16 then
    ⟨16, (parseInt ((splitU s).headD [])).toList, none,
      [decide (['e', 'm', 'a'] ∈ splitU s), decide (['n', 'o', 'r', 'm'] ∈ splitU s)]⟩
  else if cls = 19 then readInts 19 (s.drop 4)
  else if cls = 30 then readInts 30 (s.dropLast.dropLast.dropLast)
  else readInts cls s

theorem getLastD_snoc (u : List Char) (c d : Char) : (u ++ [c]).getLastD d = c := by
  rw [List.getLastD_eq_getLast?, List.getLast?_concat]; rfl

theorem intText_last (z : Int) : (intText z).getLastD ' ' ≠ 's' := by
  obtain ⟨c, r, hc, _⟩ := intText_start z
  have hne : intText z ≠ [] := by rw [hc]; simp
  have hm : (intText z).getLastD ' ' ∈ intText z := by
    rw [List.getLastD_eq_getLast?, List.getLast?_eq_getLast_of_ne_nil hne]
    exact List.getLast_mem hne
  have key : ∀ d : Fin 10, Char.ofNat (48 + d.val) ≠ 's' := by decide +kernel
  rcases intText_digits z _ hm with h | ⟨d, h⟩
  · rw [h]; decide
  · rw [h]; exact key d

theorem readInts_eq (cls : Nat) (z : Int) : readInts cls (intText z) = ⟨cls, [z], none, []⟩ := by
  unfold readInts; rw [parseInt_intText]; rfl

theorem readTail_eq {F : FloatText} (hF : F.Numeric) (t : Tx) :
    readTail F t.recorded.cls (t.tail F) = t.recorded := by
  have hu : ∀ z, '_' ∉ intText z := fun z => intText_not z _ (by simp)
  cases t with
  | returnT s l =>
    simp only [Tx.recorded, Tx.tail]
    split
    · simp only [readTail, if_true, getLastD_snoc, List.dropLast_concat, hF.read]
    · rfl
  | ret p l =>
    show (if (intText p).getLastD ' ' = 's' then _ else readInts 1 (intText p)) = _
    rw [if_neg (intText_last p), readInts_eq]
    rfl
  | ewmst s => simp [Tx.recorded, Tx.tail, readTail, hF.read]
  | barRate s =>
    simp only [Tx.recorded, Tx.tail]
    split
    · rfl
    · simp [readTail, hF.read]
  | flow w r =>
    simp only [Tx.recorded, Tx.tail]
    show (⟨15, (splitU (intText w ++ '_' :: intText r)).flatMap (fun w => (parseInt w).toList), none, []⟩ : Recorded) = _
    rw [splitU_head _ _ (hu w), splitU_last _ (hu r)]
    simp [parseInt_intText]
  | atr w e n =>
    have hne : ∀ s : List Char, (∃ c ∈ s, c = 'a' ∨ c = 'o') → s ≠ intText w := by
      rintro s ⟨c, hc, hc'⟩ rfl
      have key : ∀ d : Fin 10, Char.ofNat (48 + d.val) ≠ 'a' ∧ Char.ofNat (48 + d.val) ≠ 'o' := by decide +kernel
      rcases intText_digits w c hc with h | ⟨d, h⟩
      · subst h; revert hc'; decide
      · subst h
        rcases hc' with h | h
        · exact (key d).1 h
        · exact (key d).2 h
    have h1 : ['e', 'm', 'a'] ≠ intText w := hne _ ⟨'a', by simp, by simp⟩
    have h2 : ['n', 'o', 'r', 'm'] ≠ intText w := hne _ ⟨'o', by simp, by simp⟩
    have hsplit : splitU ((Tx.atr w e n).tail F)
        = intText w :: ((if e then [['e', 'm', 'a']] else []) ++ (if n then [['n', 'o', 'r', 'm']] else [])) := by
      cases e <;> cases n
      · simp only [Tx.tail, Bool.false_eq_true, if_false, List.append_nil]
        rw [splitU_last _ (hu w)]
      · simp only [Tx.tail, Bool.false_eq_true, if_false, if_true, List.append_nil]
        rw [splitU_head _ _ (hu w)]; rfl
      · simp only [Tx.tail, Bool.false_eq_true, if_false, if_true, List.append_nil]
        rw [splitU_head _ _ (hu w)]; rfl
      · simp only [Tx.tail, if_true, List.append_assoc]
        rw [List.cons_append, splitU_head _ _ (hu w)]; rfl
    show (⟨16, (parseInt ((splitU ((Tx.atr w e n).tail F)).headD [])).toList, none,
      [decide (['e', 'm', 'a'] ∈ splitU ((Tx.atr w e n).tail F)),
       decide (['n', 'o', 'r', 'm'] ∈ splitU ((Tx.atr w e n).tail F))]⟩ : Recorded) = _
    rw [hsplit, List.headD_cons, parseInt_intText]
    cases e <;> cases n <;> simp [Tx.recorded, h1, h2]
  | varRatio w r d =>
    show readInts 19 (intText w) = _
    exact readInts_eq 19 w
  | dur p =>
    show readInts 30 ((intText p ++ ['b', 'a', 'r']).dropLast.dropLast.dropLast) = _
    have : intText p ++ ['b', 'a', 'r'] = ((intText p ++ ['b']) ++ ['a']) ++ ['r'] := by simp
    rw [this, List.dropLast_concat, List.dropLast_concat, List.dropLast_concat]
    exact readInts_eq 30 p
  | parkinson => rfl
  | gap => rfl
  | runLen => rfl
  | _ => exact readInts_eq _ _

/-- Two transforms have the same output name exactly if they agree in everything that the name records:
the class and the recorded parameters. -/
theorem C82_names_record (F : FloatText) (hF : F.Numeric) (t1 t2 : Tx) :
    t1.suffix F = t2.suffix F ↔ t1.recorded = t2.recorded := by
  constructor
  · intro h
    obtain ⟨h1, h2⟩ := split_num _ _ _ _ (head_letters t1) (head_letters t2) (tail_start hF t1) (tail_start hF t2) h
    have hh : t1.head = t2.head := String.toList_inj.mp h1
    have hc : t1.recorded.cls = t2.recorded.cls := by
      have a := headCode_head t1
      rw [hh, headCode_head t2] at a
      exact (Option.some.inj a).symm
    rw [← readTail_eq hF t1, ← readTail_eq hF t2, hc, h2]
  · intro h
    have hh : t1.head = t2.head := by
      have key : ∀ p ∈ headTable, ∀ q ∈ headTable, p.2 = q.2 → p.1 = q.1 := by decide +kernel
      exact key _ (head_mem t1) _ (head_mem t2) (by rw [h])
    -- the tail is a function of the recorded data
    have tails : ∀ t : Tx, t.tail F =
        (match t.recorded with
         | ⟨1, [], some s, _⟩ => F.text s ++ ['s']
         | ⟨6, _, some s, _⟩ => F.text s ++ ['s']
         | ⟨26, _, some s, _⟩ => F.text s ++ ['m']
         | ⟨15, [w, r], _, _⟩ => intText w ++ '_' :: intText r
         | ⟨16, [w], _, [e, n]⟩ =>
            intText w ++ (if e then ['_', 'e', 'm', 'a'] else []) ++ (if n then ['_', 'n', 'o', 'r', 'm'] else [])
         | ⟨19, [w], _, _⟩ => ['1', '_', '4', '_'] ++ intText w
         | ⟨30, [p], _, _⟩ => intText p ++ ['b', 'a', 'r']
         | ⟨_, [z], _, _⟩ => intText z
         | _ => []) := by
      intro t
      cases t with
      | returnT s l =>
        simp only [Tx.tail, Tx.recorded]
        by_cases hs : s > 1 / 1000000
        · simp only [hs, if_true]
        · simp only [hs, if_false]
          decide
      | barRate s =>
        simp only [Tx.tail, Tx.recorded]
        by_cases hs : (s / 60).den = 1
        · simp only [hs, if_true]
        · simp only [hs, if_false]
      | _ => rfl
    unfold Tx.suffix
    rw [hh, tails t1, tails t2, h]

/-- For single-input classes on the same input column the same holds for the column name. -/
theorem C82_columns (F : FloatText) (hF : F.Numeric) (t1 t2 : Tx) (col : List Char)
    (h1 : t1.miso = false) (h2 : t2.miso = false) :
    t1.outName F [col] = t2.outName F [col] ↔ t1.recorded = t2.recorded := by
  rw [← C82_names_record F hF]
  unfold Tx.outName
  rw [h1, h2]
  simp

/-- **C82 (which part of the input is in the name).** A column name is the parameters' text alone for the seven classes with
several inputs, whatever the inputs; for all others it is the *first* input column, an underscore and that text. -/
theorem C82_out_name (F : FloatText) (t : Tx) (col : List Char) (more : List (List Char)) :
    (t.head ∈ ["stochk", "vwapd", "parkrange", "atr", "corr_pv_", "vpin_", "adx_"] →
      t.outName F (col :: more) = t.head.toList ++ t.tail F) ∧
    (t.head ∉ ["stochk", "vwapd", "parkrange", "atr", "corr_pv_", "vpin_", "adx_"] →
      t.outName F (col :: more) = col ++ ['_'] ++ t.head.toList ++ t.tail F) := by
  unfold Tx.outName Tx.suffix
  cases t <;> simp [Tx.head, Tx.miso]
  split <;> simp

/-- Violation: the column name of a multi-input transform does not depend on its input columns at all. -/
theorem C82_inputs_not_recorded (F : FloatText) (t : Tx) (h : t.miso = true) (in1 in2 : List (List Char)) :
    t.outName F in1 = t.outName F in2 := by
  unfold Tx.outName; rw [h]; rfl

example (F : FloatText) : (Tx.vpin 32).miso = true ∧
    (Tx.vpin 32).outName F ["volume_buy".toList, "volume_sell".toList] = "vpin_32".toList := ⟨by decide, by rfl⟩

/-- Violation: the parameters missing in the names, for all values. -/
theorem C82_parameters_not_recorded (F : FloatText) (w d d' m m' : Int) (b b' : Bool) (q q' s s' : Rat) (r r' : String) :
    (Tx.ret w b).suffix F = (Tx.ret w b').suffix F ∧ (Tx.returnT s b).suffix F = (Tx.returnT s b').suffix F ∧
    (Tx.vwap w b).suffix F = (Tx.vwap w b').suffix F ∧ (Tx.realized w b).suffix F = (Tx.realized w b').suffix F ∧
    (Tx.zscore w d).suffix F = (Tx.zscore w d').suffix F ∧ (Tx.bollinger w q).suffix F = (Tx.bollinger w q').suffix F ∧
    (Tx.varRatio w r d).suffix F = (Tx.varRatio w r' d').suffix F ∧
    (Tx.apen w m q).suffix F = (Tx.apen w m' q').suffix F ∧
    ((s / 60).den = 1 → (s' / 60).den = 1 → (Tx.barRate s).suffix F = (Tx.barRate s').suffix F) ∧
    (s ≤ 1 / 1000000 → (Tx.returnT s b).suffix F = (Tx.ret 1 b').suffix F) := by
  refine ⟨rfl, rfl, rfl, rfl, rfl, rfl, rfl, rfl, ?_, ?_⟩
  · intro h h'
    simp [Tx.suffix, Tx.head, Tx.tail, h, h']
  · intro h
    have : ¬ s > 1 / 1000000 := not_lt.mpr h
    simp only [Tx.suffix, Tx.head, Tx.tail, this, if_false]
    rfl

/-- Violation: two transforms on different columns can share a column name. -/
theorem C82_column_mixup (F : FloatText) (s : Int) (x : List Char) :
    (Tx.durEwma s).outName F [x] = (Tx.ewma s).outName F [x ++ ['_', 'd', 'u', 'r']] := by
  simp [Tx.outName, Tx.miso, Tx.suffix, Tx.head, Tx.tail]

/-- The unrecorded parameters matter: the z-scores with `ddof` 0 and 1 of one window differ, and so do the bar rates
of one and two minutes, while their names agree. -/
theorem C82_unrecorded_matter :
    zscore (fun x : ℚ => x) [1, 2, 4] 3 0 ≠ zscore (fun x : ℚ => x) [1, 2, 4] 3 1 ∧
    (barRate 60000000000 [0, 70000000000] : List ℚ) ≠ barRate 120000000000 [0, 70000000000] ∧
    (Tx.zscore 3 0).suffix ratText = (Tx.zscore 3 1).suffix ratText ∧
    (Tx.barRate 60).suffix ratText = (Tx.barRate 120).suffix ratText := by
  decide +kernel

/-! ### Classes with several outputs -/

theorem cusum_name_inj (p p' q q' : List Char) (w w' : Int) (hp : ∀ c ∈ p, NumStart c = false)
    (hp' : ∀ c ∈ p', NumStart c = false) (h : p ++ intText w ++ '_' :: q = p' ++ intText w' ++ '_' :: q') :
    p = p' ∧ w = w' ∧ q = q' := by
  have hs : ∀ (z : Int) (r : List Char), intText z ++ '_' :: r = [] ∨
      ∃ c r', intText z ++ '_' :: r = c :: r' ∧ NumStart c = true := by
    intro z r
    obtain ⟨c, r', hc, hn⟩ := intText_start z
    exact Or.inr ⟨c, r' ++ '_' :: r, by rw [hc]; rfl, hn⟩
  rw [List.append_assoc, List.append_assoc] at h
  obtain ⟨h1, h2⟩ := split_num _ _ _ _ hp hp' (hs w q) (hs w' q') h
  obtain ⟨h3, h4⟩ := split_at '_' _ _ _ _ (intText_not w '_' (by simp)) (intText_not w' '_' (by simp))
    (Or.inr ⟨_, rfl⟩) (Or.inr ⟨_, rfl⟩) h2
  refine ⟨h1, ?_, (List.cons.inj h4).2⟩
  have := congrArg parseInt h3
  rw [parseInt_intText, parseInt_intText] at this
  exact Option.some.inj this

/-- The names of a CUSUM test as leading text, window and ending. -/
theorem cusum_names (ins : List (List Char)) (w u m : Int) :
    (MTx.cusum w u m).outNames ins =
      ([("cumote_up", "score"), ("cumote_down", "score"), ("cumote_up", "flag"), ("cumote_down", "flag"),
        ("cumote_up", "age"), ("cumote_down", "age")] : List (String × String)).map
        (fun x => x.1.toList ++ intText w ++ '_' :: x.2.toList) := by
  simp [MTx.outNames, MTx.produces]

theorem cusum_heads : ∀ x ∈ ([("cumote_up", "score"), ("cumote_down", "score"), ("cumote_up", "flag"),
    ("cumote_down", "flag"), ("cumote_up", "age"), ("cumote_down", "age")] : List (String × String)),
    ∀ c ∈ x.1.toList, NumStart c = false := by decide +kernel

/-- Two CUSUM tests share a column name exactly if their windows are equal, and then they share all six. -/
theorem C82_cusum_names (in1 in2 : List (List Char)) (w w' u u' m m' : Int) :
    ((∃ x, x ∈ (MTx.cusum w u m).outNames in1 ∧ x ∈ (MTx.cusum w' u' m').outNames in2) ↔ w = w') ∧
    (w = w' → (MTx.cusum w u m).outNames in1 = (MTx.cusum w' u' m').outNames in2) := by
  refine ⟨⟨?_, ?_⟩, ?_⟩
  · rintro ⟨x, h1, h2⟩
    rw [cusum_names] at h1 h2
    obtain ⟨y, hy, rfl⟩ := List.mem_map.mp h1
    obtain ⟨z, hz, e⟩ := List.mem_map.mp h2
    exact (cusum_name_inj _ _ _ _ _ _ (cusum_heads z hz) (cusum_heads y hy) e).2.1.symm
  · rintro rfl
    exact ⟨_, List.mem_cons_self, List.mem_cons_self⟩
  · rintro rfl; rfl

/-- The columns of one transform have different names. -/
theorem C82_multi_distinct (ins : List (List Char)) (t : MTx) : (t.outNames ins).Nodup := by
  cases t with
  | cusum w u m =>
    rw [cusum_names]
    refine List.Nodup.map_on ?_ (by decide +kernel)
    intro x hx y hy h
    obtain ⟨h1, _, h2⟩ := cusum_name_inj _ _ _ _ _ _ (cusum_heads x hx) (cusum_heads y hy) h
    exact Prod.ext (String.toList_inj.mp h1) (String.toList_inj.mp h2)
  | timeCues => show MTx.timeCues.produces.Nodup; decide +kernel
  | orb => show MTx.orb.produces.Nodup; decide +kernel
  | candle => show MTx.candle.produces.Nodup; decide +kernel

/-- The class number of a multi-output transform. -/
def MTx.cls : MTx → Nat
  | .timeCues => 0
  | .cusum _ _ _ => 1
  | .orb => 2
  | .candle => 3

/-- The class that the first two characters of a column name identify. -/
def multiClass : List Char → Option Nat
  | 'c' :: 'u' :: _ => some 1
  | 'o' :: 'r' :: _ => some 2
  | 'w' :: 'i' :: _ => some 3
  | 'b' :: 'o' :: _ => some 3
  | 'v' :: 'w' :: _ => some 3
  | _ => some 0

theorem multiClass_eq (ins : List (List Char)) (t : MTx) : ∀ x ∈ t.outNames ins, multiClass x = some t.cls := by
  cases t with
  | cusum w u m =>
    rw [cusum_names]
    intro x hx
    simp only [List.map_cons, List.map_nil, List.mem_cons, List.not_mem_nil, or_false] at hx
    rcases hx with rfl | rfl | rfl | rfl | rfl | rfl <;> rfl
  | timeCues => show ∀ x ∈ MTx.timeCues.produces, _; decide +kernel
  | orb => show ∀ x ∈ MTx.orb.produces, _; decide +kernel
  | candle => show ∀ x ∈ MTx.candle.produces, _; decide +kernel

/-- Multi-output transforms of different classes never share a column name. -/
theorem C82_multi_classes (in1 in2 : List (List Char)) (t1 t2 : MTx) (x : List Char) (h1 : x ∈ t1.outNames in1)
    (h2 : x ∈ t2.outNames in2) : t1.cls = t2.cls := by
  have := (multiClass_eq in1 t1 x h1).symm.trans (multiClass_eq in2 t2 x h2)
  exact Option.some.inj this

example : "cumote_up50_score".toList ∈ (MTx.cusum 50 30 144).outNames ["close".toList] := by decide +kernel

/-- Violation: no column name of a multi-output transform depends on its input columns, the warm-up period or the
maximal age. -/
theorem C82_multi_not_recorded (in1 in2 : List (List Char)) (t : MTx) (w u u' m m' : Int) :
    t.outNames in1 = t.outNames in2 ∧
    (MTx.cusum w u m).outNames in1 = (MTx.cusum w u' m').outNames in2 := ⟨rfl, rfl⟩

/-! ### Examples -/

/-- Non-vacuity: printing rationals as fractions is numeric. -/
theorem ratText_numeric : ratText.Numeric where
  toTidy := ratText_tidy
  start := by
    intro q
    obtain ⟨c, r, h, hc⟩ := intText_start q.num
    exact ⟨c, r ++ '/' :: intText q.den, by simp [ratText, h], hc⟩

example : (Tx.atr 14 true true).suffix ratText = "atr14_ema_norm".toList ∧
    (Tx.flow 20 5).suffix ratText = "flowacc_20_5".toList ∧ (Tx.barRate 300).suffix ratText = "bars_per_hour".toList ∧
    (Tx.dur 3).outName ratText ["close".toList] = "close_dur_3bar".toList ∧
    (Tx.vpin 32).outName ratText ["volume_buy".toList, "volume_sell".toList] = "vpin_32".toList := by
  decide +kernel

example : (MTx.cusum 50 30 144).outNames ["close".toList] = ["cumote_up50_score".toList, "cumote_down50_score".toList,
    "cumote_up50_flag".toList, "cumote_down50_flag".toList, "cumote_up50_age".toList, "cumote_down50_age".toList] ∧
    (MTx.cusum 50 30 144).outNames ["close".toList] ≠ (MTx.cusum 51 30 144).outNames ["close".toList] := by decide +kernel

example : (Tx.atr 14 true false).recorded ≠ (Tx.atr 14 false true).recorded ∧
    (Tx.zscore 3 0).recorded = (Tx.zscore 3 1).recorded := by decide +kernel

end FinML
