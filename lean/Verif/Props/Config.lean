/-
C46: saved feature configurations reload to equivalent features.
-/
import Verif.Model.Config
import Verif.Props.FeatureKit
import Mathlib.Data.Nat.Digits.Lemmas
import Mathlib.Tactic.FieldSimp
import Mathlib.Tactic.Ring
import Mathlib.Tactic.NormNum

set_option linter.unusedSectionVars false

namespace FinML

/-! ### Parameter values -/

mutual
/-- Values that survive the round trip: no tuples, no objects known only by their text, and no
dictionary with the reserved key. -/
def Val.Plain : Val → Prop
  | .list vs => vs.Plain
  | .tup _ => False
  | .dict fs => fs.Plain
  | .other _ => False
  | _ => True
/-- Elementwise. -/
def Vals.Plain : Vals → Prop
  | .nil => True
  | .cons v vs => v.Plain ∧ vs.Plain
/-- Elementwise, and no reserved key. -/
def Fields.Plain : Fields → Prop
  | .nil => True
  | .cons k v fs => k ≠ "__timedelta__" ∧ v.Plain ∧ fs.Plain
end

theorem serFields_get (fs : Fields) (h : fs.Plain) : (serFields fs).get? "__timedelta__" = none := by
  match fs with
  | .nil => rfl
  | .cons k v fs =>
    simp only [serFields, Fields.get?]
    rw [if_neg h.1]
    exact serFields_get fs h.2.2

mutual
theorem deVal_serVal (v : Val) (h : v.Plain) : deVal (serVal v) = v := by
  match v with
  | .none => simp [serVal, deVal]
  | .bool b => simp [serVal, deVal]
  | .int z => simp [serVal, deVal]
  | .flt q => simp [serVal, deVal]
  | .str s => simp [serVal, deVal]
  | .td ns =>
    simp [serVal, deVal, Fields.get?, truthy, secondsToTd]
  | .list vs =>
    simp only [serVal, deVal]
    rw [deVals_serVals vs h]
  | .tup vs => exact absurd h (by simp [Val.Plain])
  | .dict fs =>
    simp only [serVal, deVal]
    rw [serFields_get fs h]
    simp only [truthy]
    rw [deFields_serFields fs h]
    rfl
  | .other r => exact absurd h (by simp [Val.Plain])
theorem deVals_serVals (vs : Vals) (h : vs.Plain) : deVals (serVals vs) = vs := by
  match vs with
  | .nil => simp [serVals, deVals]
  | .cons v vs =>
    simp only [serVals, deVals]
    rw [deVal_serVal v h.1, deVals_serVals vs h.2]
theorem deFields_serFields (fs : Fields) (h : fs.Plain) : deFields (serFields fs) = fs := by
  match fs with
  | .nil => simp [serFields, deFields]
  | .cons k v fs =>
    simp only [serFields, deFields]
    rw [deVal_serVal v h.2.1, deFields_serFields fs h.2.2]
end

/-- Numbers, strings, durations and nested lists and dictionaries of them survive exactly. -/
theorem C46_values_round_trip (v : Val) (h : v.Plain) : deVal (serVal v) = v := deVal_serVal v h

/-! ### Names of unary operations -/

theorem digit_char (d : Nat) (h : d < 10) : digit? (Char.ofNat (48 + d)) = some d := by
  unfold digit?
  have : ∀ d : Fin 10, (if 48 ≤ (Char.ofNat (48 + d.val)).toNat ∧ (Char.ofNat (48 + d.val)).toNat ≤ 57
      then some ((Char.ofNat (48 + d.val)).toNat - 48) else none) = some d.val := by decide +kernel
  exact this ⟨d, h⟩

theorem natOf_append (xs : List Char) (c : Char) (d : Nat) (hc : digit? c = some d) :
    ∀ acc, natOf (xs ++ [c]) acc = (natOf xs acc).map fun n => 10 * n + d := by
  induction xs with
  | nil => intro acc; simp [natOf, hc]
  | cons x xs ih =>
    intro acc
    simp only [List.cons_append, natOf]
    cases digit? x with
    | none => rfl
    | some e => exact ih _

theorem natOf_digits (ds : List Nat) (h : ∀ d ∈ ds, d < 10) :
    natOf ((ds.map fun d => Char.ofNat (48 + d)).reverse) 0 = some (Nat.ofDigits 10 ds) := by
  induction ds with
  | nil => rfl
  | cons d ds ih =>
    rw [List.map_cons, List.reverse_cons, natOf_append _ _ d (digit_char d (h d (by simp))),
      ih (fun e he => h e (List.mem_cons_of_mem _ he)), Nat.ofDigits_cons]
    simp only [Option.map_some, Option.some.injEq]
    exact Nat.add_comm _ _

theorem natOf_natText (n : Nat) : natOf (natText n) 0 = some n := by
  unfold natText
  split
  · rename_i h; subst h; rfl
  · rw [natOf_digits _ (fun d hd => Nat.digits_lt_base (by omega) hd), Nat.ofDigits_digits]

theorem natText_ne_nil (n : Nat) : natText n ≠ [] := by
  unfold natText
  split
  · simp
  · rename_i h
    intro hc
    rw [List.reverse_eq_nil_iff, List.map_eq_nil_iff, Nat.digits_eq_nil_iff_eq_zero] at hc
    exact h hc

theorem natOf_some_head {c : Char} {cs : List Char} {acc n : Nat} (h : natOf (c :: cs) acc = some n) :
    c ≠ '-' := by
  rintro rfl
  simp [natOf, digit?] at h

theorem parseInt_intText (z : Int) : parseInt (intText z) = some z := by
  unfold intText
  split
  · rename_i h
    unfold parseInt
    simp only []
    rw [if_neg (natText_ne_nil _), natOf_natText]
    show some (-((z.natAbs : Nat) : Int)) = some z
    rw [Int.ofNat_natAbs_of_nonpos (by omega), neg_neg]
  · rename_i h
    have hn := natOf_natText z.natAbs
    cases hc : natText z.natAbs with
    | nil => exact absurd hc (natText_ne_nil _)
    | cons c cs =>
      rw [hc] at hn
      have hne := natOf_some_head hn
      have : parseInt (c :: cs) = (natOf (c :: cs) 0).map fun n => (n : Int) := by
        unfold parseInt
        split
        · rename_i h1; cases h1
        · rename_i h1; cases h1; exact absurd rfl hne
        · rfl
      rw [this, hn]
      show some ((z.natAbs : Nat) : Int) = some z
      rw [Int.natAbs_of_nonneg (by omega)]

theorem strip_self (p s : List Char) : strip? p (p ++ s) = some s := by
  unfold strip?
  rw [if_pos]
  · simp
  · rw [List.isPrefixOf_iff_prefix]; exact List.prefix_append p s

theorem splitU_head (w r : List Char) (h : '_' ∉ w) :
    splitU (w ++ '_' :: r) = w :: splitU r := by
  induction w with
  | nil => simp [splitU]
  | cons c w ih =>
    have hc : c ≠ '_' := fun e => h (by simp [e])
    rw [List.cons_append, splitU, if_neg hc, ih (fun e => h (List.mem_cons_of_mem _ e))]

theorem splitU_last (w : List Char) (h : '_' ∉ w) : splitU w = [w] := by
  induction w with
  | nil => rfl
  | cons c w ih =>
    have hc : c ≠ '_' := fun e => h (by simp [e])
    rw [splitU, if_neg hc, ih (fun e => h (List.mem_cons_of_mem _ e))]

/-- Float text as Python writes it: it can be read back, is not empty and has no underscore. -/
structure FloatText.Lawful (F : FloatText) : Prop where
  read : ∀ q, F.parse (F.text q) = some q
  nonempty : ∀ q, F.text q ≠ []
  noUnderscore : ∀ q, '_' ∉ F.text q

theorem readBound_text {F : FloatText} (hF : F.Lawful) (b : Option Rat) :
    readBound F (some (boundText F b)) = b := by
  cases b with
  | none => rfl
  | some q =>
    show readBound F (some (F.text q)) = _
    unfold readBound
    have := hF.nonempty q
    cases ht : F.text q with
    | nil => exact absurd ht this
    | cons c cs => simp only []; rw [← ht, hF.read]

theorem boundText_noUnderscore {F : FloatText} (hF : F.Lawful) (b : Option Rat) : '_' ∉ boundText F b := by
  cases b with
  | none => simp [boundText]
  | some q => exact hF.noUnderscore q

/-- The operations offered by `Feature` whose name determines the function. -/
def UFn.Named : UFn → Prop
  | .ema _ adjust => adjust = true
  | .custom _ _ => False
  | _ => True

/-- Every named operation is recognised from its name, for all parameters. -/
theorem C46_operation_names_round_trip (F : FloatText) (hF : F.Lawful) (fn : UFn) (h : fn.Named) :
    unaryFromName F (fn.opName F) = some fn := by
  cases fn with
  | abs => rfl
  | log => rfl
  | log1p => rfl
  | exp => rfl
  | square => rfl
  | sqrt => rfl
  | clip lo hi =>
    have hname : (UFn.clip lo hi).opName F =
        ['c', 'l', 'i', 'p', '_'] ++ (boundText F lo ++ '_' :: boundText F hi) := by
      simp [UFn.opName]
    have hsplit : splitU ((UFn.clip lo hi).opName F) =
        [['c', 'l', 'i', 'p'], boundText F lo, boundText F hi] := by
      rw [hname]
      have : ['c', 'l', 'i', 'p', '_'] ++ (boundText F lo ++ '_' :: boundText F hi)
          = ['c', 'l', 'i', 'p'] ++ '_' :: (boundText F lo ++ '_' :: boundText F hi) := rfl
      rw [this, splitU_head _ _ (by decide), splitU_head _ _ (boundText_noUnderscore hF lo),
        splitU_last _ (boundText_noUnderscore hF hi)]
    unfold unaryFromName
    rw [hsplit, hname, strip_self]
    simp only [List.getElem?_cons_succ, List.getElem?_cons_zero]
    rw [readBound_text hF, readBound_text hF]
  | rmean n =>
    have h1 : unaryFromName F ((UFn.rmean n).opName F) =
      match parseInt (intText n) with
      | some n => some (.rmean n)
      | none => staticUnary ((UFn.rmean n).opName F) := rfl
    rw [h1, parseInt_intText]
  | rstd n =>
    have h1 : unaryFromName F ((UFn.rstd n).opName F) =
      match parseInt (intText n) with
      | some n => some (.rstd n)
      | none => staticUnary ((UFn.rstd n).opName F) := rfl
    rw [h1, parseInt_intText]
  | rsum n =>
    have h1 : unaryFromName F ((UFn.rsum n).opName F) =
      match parseInt (intText n) with
      | some n => some (.rsum n)
      | none => staticUnary ((UFn.rsum n).opName F) := rfl
    rw [h1, parseInt_intText]
  | ema n adjust =>
    have hadj : adjust = true := h
    subst hadj
    have h1 : unaryFromName F ((UFn.ema n true).opName F) =
      match parseInt (intText n) with
      | some n => some (.ema n true)
      | none => staticUnary ((UFn.ema n true).opName F) := rfl
    rw [h1, parseInt_intText]
  | lag n =>
    have h1 : unaryFromName F ((UFn.lag n).opName F) =
      match parseInt (intText n) with
      | some n => some (.lag n)
      | none => staticUnary ((UFn.lag n).opName F) := rfl
    rw [h1, parseInt_intText]
  | custom s i => exact absurd h (by simp [UFn.Named])

/-! ### Generic transforms -/

/-- An instance made by a constructor call: one value per parameter, in order. -/
def WellConstructed (cls : ClassInfo) (args : List (String × Val)) : Prop :=
  (cls.params.map Prod.fst).Nodup ∧ args.map Prod.fst = cls.params.map Prod.fst

/-- A parameter survives: it can be read back and is plain, or it had its default value. -/
def ParamSurvives (cls : ClassInfo) (n : String) (v : Val) : Prop :=
  (n ∈ cls.kept ∧ v.Plain) ∨ (n ∉ cls.kept ∧ (n, some v) ∈ cls.params)

theorem find_kept (kept : List String) (args : List (String × Val)) (hn : (args.map Prod.fst).Nodup)
    (n : String) (v : Val) (h : (n, v) ∈ args) (hk : n ∈ kept) :
    ((args.filter fun p => p.1 ∈ kept).map fun p => (p.1, deVal (serVal p.2))).find? (fun q => q.1 = n)
      = some (n, deVal (serVal v)) := by
  induction args with
  | nil => cases h
  | cons a args ih =>
    rw [List.map_cons, List.nodup_cons] at hn
    rcases List.mem_cons.mp h with e | e
    · subst e
      rw [List.filter_cons_of_pos (by simpa using hk)]
      simp
    · have hne : a.1 ≠ n := fun e' => hn.1 (e' ▸ List.mem_map_of_mem (f := Prod.fst) e)
      rw [List.filter_cons]
      split
      · rw [List.map_cons, List.find?_cons_of_neg (by simpa using hne)]
        exact ih hn.2 e
      · exact ih hn.2 e

theorem find_not_kept (kept : List String) (args : List (String × Val)) (n : String) (hk : n ∉ kept) :
    ((args.filter fun p => p.1 ∈ kept).map fun p => (p.1, deVal (serVal p.2))).find? (fun q => q.1 = n)
      = none := by
  rw [List.find?_eq_none]
  intro q hq
  obtain ⟨p, hp, rfl⟩ := List.mem_map.mp hq
  have := (List.mem_filter.mp hp).2
  simp only [decide_eq_true_eq] at this ⊢
  intro e
  exact hk (e ▸ this)

theorem mapM_eq_some {α β : Type} (f : α → Option β) (l : List α) (r : List β)
    (hl : l.length = r.length) (h : ∀ (i : Nat) (a : α) (b : β), l[i]? = some a → r[i]? = some b → f a = some b) :
    l.mapM f = some r := by
  induction l generalizing r with
  | nil => cases r with
    | nil => rfl
    | cons b r => simp at hl
  | cons a l ih =>
    cases r with
    | nil => simp at hl
    | cons b r =>
      rw [List.mapM_cons, h 0 a b rfl rfl]
      have := ih r (by simpa using hl) (fun i x y hx hy => h (i + 1) x y (by simpa using hx) (by simpa using hy))
      rw [this]
      rfl

theorem construct_kept (cls : ClassInfo) (args : List (String × Val)) (hw : WellConstructed cls args)
    (hs : ∀ p ∈ args, ParamSurvives cls p.1 p.2) :
    construct cls ((keptParams cls args).map fun p => (p.1, deVal (serVal p.2))) = some args := by
  obtain ⟨hnd, hnames⟩ := hw
  have hnd' : (args.map Prod.fst).Nodup := by rw [hnames]; exact hnd
  unfold construct
  rw [if_pos]
  · apply mapM_eq_some
    · have := congrArg List.length hnames
      simpa using this.symm
    · rintro i ⟨n, dv⟩ ⟨m, v⟩ hi hj
      have hnm : n = m := by
        have h1 : (cls.params.map Prod.fst)[i]? = some n := by rw [List.getElem?_map, hi]; rfl
        have h2 : (args.map Prod.fst)[i]? = some m := by rw [List.getElem?_map, hj]; rfl
        rw [hnames, h1] at h2
        exact Option.some.inj h2
      subst hnm
      have hmem : (n, v) ∈ args := List.mem_of_getElem? hj
      have hpm : (n, dv) ∈ cls.params := List.mem_of_getElem? hi
      unfold keptParams
      rcases hs (n, v) hmem with ⟨hk, hp⟩ | ⟨hk, hd⟩
      · rw [find_kept cls.kept args hnd' n v hmem hk, deVal_serVal v hp]
      · rw [find_not_kept cls.kept args n hk]
        have : dv = some v := by
          have hinj := List.inj_on_of_nodup_map hnd hpm hd rfl
          exact (Prod.mk.inj hinj).2
        rw [this]
        rfl
  · rw [List.all_eq_true]
    intro q hq
    obtain ⟨p, hp, rfl⟩ := List.mem_map.mp hq
    have hp' := (List.mem_filter.mp hp).1
    simp only [decide_eq_true_eq]
    rw [← hnames]
    exact List.mem_map_of_mem hp'

/-! ### The round trip of a whole expression -/

mutual
/-- The expression without the output names set by `Feature.apply`. -/
def Obj.erase : Obj → Obj
  | .gen c a => .gen c a
  | .shallow c a => .shallow c a
  | .ext f rq pr a k pn => .ext f rq pr a k pn
  | .bin op l r => .bin op l.erase r.erase
  | .minmax op l r => .minmax op l.erase r.erase
  | .cst op k t => .cst op k t.erase
  | .un fn _ t => .un fn none t.erase
  | .comp os => .comp os.erase
/-- Elementwise. -/
def Objs.erase : Objs → Objs
  | .nil => .nil
  | .cons o os => .cons o.erase os.erase
end

mutual
/-- Expressions whose computation survives saving and loading. -/
def Obj.Savable : Obj → Prop
  | .gen cls args => WellConstructed cls args ∧ ∀ p ∈ args, ParamSurvives cls p.1 p.2
  | .shallow _ _ => False
  | .ext f rq _ a k _ => f.isSome ∧ rq ≠ [] ∧ a.Plain ∧ k.Plain
  | .bin op l r => op ∈ binaryOps ∧ l.Savable ∧ r.Savable
  | .minmax op l r => op ∈ minmaxOps ∧ l.Savable ∧ r.Savable
  | .cst op _ t => op ∈ constOps ∧ t.Savable
  | .un fn _ t => fn.Named ∧ t.Savable
  | .comp os => os ≠ .nil ∧ os.Savable
/-- Elementwise. -/
def Objs.Savable : Objs → Prop
  | .nil => True
  | .cons o os => o.Savable ∧ os.Savable
end

mutual
theorem reload_obj (F : FloatText) (hF : F.Lawful) (o : Obj) (h : o.Savable) :
    fromConfig F (toConfig F o) = .ok o.erase := by
  match o with
  | .gen cls args =>
    simp only [toConfig, fromConfig, List.map_map]
    have hcomp : ((fun p : String × Val => (p.1, deVal p.2)) ∘ fun p => (p.1, serVal p.2))
        = fun p : String × Val => (p.1, deVal (serVal p.2)) := rfl
    rw [hcomp, construct_kept cls args h.1 h.2]
    simp only [Obj.erase]
  | .shallow cls args => exact absurd h (by simp [Obj.Savable])
  | .ext f rq pr a k pn =>
    obtain ⟨h1, h2, h3, h4⟩ := h
    obtain ⟨p, rfl⟩ := Option.isSome_iff_exists.mp h1
    simp only [toConfig, fromConfig]
    rw [if_neg h2, deVals_serVals a h3, deFields_serFields k h4]
    simp only [Obj.erase]
  | .bin op l r =>
    obtain ⟨h1, h2, h3⟩ := h
    simp only [toConfig, fromConfig, Obj.erase]
    rw [reload_obj F hF l h2, reload_obj F hF r h3]
    simp only [if_pos h1]
  | .minmax op l r =>
    obtain ⟨h1, h2, h3⟩ := h
    simp only [toConfig, fromConfig, Obj.erase]
    rw [reload_obj F hF l h2, reload_obj F hF r h3]
    simp only [if_pos h1]
  | .cst op k t =>
    obtain ⟨h1, h2⟩ := h
    simp only [toConfig, fromConfig, Obj.erase]
    rw [reload_obj F hF t h2]
    simp only [if_pos h1]
  | .un fn nm t =>
    obtain ⟨h1, h2⟩ := h
    simp only [toConfig, fromConfig, Obj.erase]
    rw [reload_obj F hF t h2]
    simp only []
    rw [C46_operation_names_round_trip F hF fn h1]
  | .comp os =>
    obtain ⟨h1, h2⟩ := h
    simp only [toConfig, fromConfig, Obj.erase]
    rw [reload_objs F hF os h2]
    match os with
    | .nil => exact absurd rfl h1
    | .cons o os => simp only [Objs.erase]
theorem reload_objs (F : FloatText) (hF : F.Lawful) (os : Objs) (h : os.Savable) :
    fromConfigs F (toConfigs F os) = .ok os.erase := by
  match os with
  | .nil => simp only [toConfigs, fromConfigs, Objs.erase]
  | .cons o os =>
    obtain ⟨h1, h2⟩ := h
    simp only [toConfigs, fromConfigs, Objs.erase]
    rw [reload_obj F hF o h1]
    simp only []
    rw [reload_objs F hF os h2]
end

/-- A savable expression reloads to the same operations on the same transforms with the same
parameters; only output names set by `Feature.apply` are not restored. -/
theorem C46_reload_same_computation (F : FloatText) (hF : F.Lawful) (o : Obj) (h : o.Savable) :
    fromConfig F (toConfig F o) = .ok o.erase := reload_obj F hF o h

/-- `Feature.to_config` / `Feature.from_config` (`kit.py:220-241`): the saved name is set again. -/
def reloadFeature (F : FloatText) (f : String × Obj) : Except String (String × Obj) :=
  match fromConfig F (toConfig F f.2) with
  | .error e => .error e
  | .ok o => .ok (f.1, o)

/-- `FeatureKit.to_config` / `FeatureKit.from_dict` (`kit.py:958-976`). -/
def reloadKit (F : FloatText) (k : List String × List (String × Obj)) :
    Except String (List String × List (String × Obj)) :=
  match k.2.mapM (fun f => (reloadFeature F f).toOption) with
  | none => .error "unsupported"
  | some fs => .ok (k.1, fs)

/-- A kit of savable features reloads with the same retained columns, the same feature names in the
same order, and the same computations. -/
theorem C46_reload_kit (F : FloatText) (hF : F.Lawful) (retain : List String) (fs : List (String × Obj))
    (h : ∀ f ∈ fs, f.2.Savable) :
    reloadKit F (retain, fs) = .ok (retain, fs.map fun f => (f.1, f.2.erase)) := by
  unfold reloadKit
  have : fs.mapM (fun f => (reloadFeature F f).toOption) = some (fs.map fun f => (f.1, f.2.erase)) := by
    apply mapM_eq_some
    · simp
    · intro i a b ha hb
      rw [List.getElem?_map, ha] at hb
      simp only [Option.map_some, Option.some.injEq] at hb
      subst hb
      unfold reloadFeature
      rw [reload_obj F hF a.2 (h a (List.mem_of_getElem? ha))]
      rfl
  simp only [this]

mutual
theorem toConfig_erase (F : FloatText) (o : Obj) : toConfig F o.erase = toConfig F o := by
  match o with
  | .gen cls args => simp only [Obj.erase]
  | .shallow cls args => simp only [Obj.erase]
  | .ext f rq pr a k pn => simp only [Obj.erase]
  | .bin op l r => simp only [Obj.erase, toConfig]; rw [toConfig_erase F l, toConfig_erase F r]
  | .minmax op l r => simp only [Obj.erase, toConfig]; rw [toConfig_erase F l, toConfig_erase F r]
  | .cst op k t => simp only [Obj.erase, toConfig]; rw [toConfig_erase F t]
  | .un fn nm t => simp only [Obj.erase, toConfig]; rw [toConfig_erase F t]
  | .comp os => simp only [Obj.erase, toConfig]; rw [toConfigs_erase F os]
theorem toConfigs_erase (F : FloatText) (os : Objs) : toConfigs F os.erase = toConfigs F os := by
  match os with
  | .nil => simp only [Objs.erase]
  | .cons o os => simp only [Objs.erase, toConfigs]; rw [toConfig_erase F o, toConfigs_erase F os]
end

/-- Saving a reloaded expression gives the same configuration: one round trip reaches a fixed
point. -/
theorem C46_second_save_identical (F : FloatText) (hF : F.Lawful) (o : Obj) (h : o.Savable) (o' : Obj)
    (ho : fromConfig F (toConfig F o) = .ok o') : toConfig F o' = toConfig F o := by
  rw [reload_obj F hF o h] at ho
  rw [← Except.ok.inj ho]
  exact toConfig_erase F o

/-! ### Where the property fails -/

/-- The classes of `transforms.py` with a constructor parameter that cannot be read back. -/
theorem C46_unfaithful_classes :
    ((transformClasses.filter fun c => c.params.any fun p => p.1 ∉ c.kept).map ClassInfo.name)
      = ["ReturnT", "PctChange", "EWMST", "BarRate"] := by decide +kernel

/-- Decimal text: no sign for zero and the naturals, a minus sign for negative numbers. -/
theorem C46_integer_text (n : Nat) : intText (n : Int) = natText n ∧ intText (-((n : Int) + 1)) = '-' :: natText (n + 1) := by
  constructor
  · unfold intText; rw [if_neg (by omega), Int.natAbs_natCast]
  · unfold intText
    rw [if_pos (by omega)]
    have : (-((n : Int) + 1)).natAbs = n + 1 := by omega
    rw [this]

/-- A stored dictionary is read as a time difference exactly when its flag is set to something true: a number other than
zero, a non-empty text, list or dictionary, or `true`. -/
theorem C46_time_difference_flag (fs : Fields) :
    (truthy (fs.get? "__timedelta__") = true → deVal (.dict fs) = secondsToTd (fs.get? "seconds")) ∧
    (truthy (fs.get? "__timedelta__") = false → deVal (.dict fs) = .dict (deFields fs)) ∧
    (truthy (fs.get? "__timedelta__") = true ↔ ∃ v, fs.get? "__timedelta__" = some v ∧
      v ≠ .none ∧ v ≠ .bool false ∧ v ≠ .int 0 ∧ v ≠ .flt 0 ∧ v ≠ .str "" ∧ v ≠ .list .nil ∧ v ≠ .dict .nil) := by
  refine ⟨fun h => by simp only [deVal]; rw [if_pos h], fun h => by simp only [deVal]; rw [if_neg (by rw [h]; simp)], ?_⟩
  cases h : fs.get? "__timedelta__" with
  | none => simp [truthy]
  | some v =>
    simp only [Option.some.injEq, exists_eq_left']
    cases v with
    | bool b => cases b <;> simp [truthy]
    | list l => cases l <;> simp [truthy]
    | dict l => cases l <;> simp [truthy]
    | _ => simp [truthy]

/-- The integer among some parameter values, if they begin with one. -/
def leadingInt : List (String × Val) → Option Int
  | (_, .int z) :: _ => some z
  | _ => none

/-- Classes configured without parameters are built with these periods, windows or lengths; the classes with a required
parameter are not built. -/
theorem C46_default_periods :
    (transformClasses.filterMap fun c => (construct c []).bind fun a => (leadingInt a).map fun z => (c.name, z))
      = [("Lag", 1), ("Return", 1), ("RSIWilder", 14), ("StochK", 14), ("CUSUMTest", 50), ("ATR", 14),
         ("PriceVolumeCorrelation", 8), ("VPIN", 32), ("VarianceRatio14", 32), ("KurtosisTransform", 32), ("TrendSlope", 24),
         ("ADX", 14), ("MeanReversionZScore", 48), ("HurstExponent", 24), ("ApproximateEntropy", 24), ("BarDurationEWMA", 20),
         ("BarDuration", 1), ("BiPowerVariation", 12)] ∧
    (transformClasses.filter fun c => (construct c []).isNone).map ClassInfo.name
      = ["ROC", "PctChange", "EWMST", "ZScore", "BurstRatio", "VWAPDistance", "RealizedVolatility", "BollingerPercentB",
         "SMA", "EWMA", "FlowAcceleration", "BarRate"] := by decide +kernel

/-- Find a class by name. -/
def classNamed (n : String) : ClassInfo := (transformClasses.find? fun c => c.name = n).getD ⟨"", [], []⟩

/-- Violation: `ReturnT(window)` silently reloads with the default window, whatever the window was. -/
theorem C46_returnT_window_lost (F : FloatText) (ns : Int) (b : Bool) (col : String) :
    fromConfig F (toConfig F (.gen (classNamed "ReturnT")
      [("window", .td ns), ("is_log", .bool b), ("input_col", .str col)]))
    = .ok (.gen (classNamed "ReturnT")
      [("window", .td 1000), ("is_log", .bool b), ("input_col", .str col)]) := by
  rfl

/-- Violation: `PctChange`, `EWMST` and `BarRate` cannot be reconstructed; they reload as objects
without their window, for every parameter value. -/
theorem C46_shallow_reload (F : FloatText) (v : Val) (col : String) :
    (∀ c ∈ ["PctChange", "BarRate"],
      fromConfig F (toConfig F (.gen (classNamed c) [("window", v), ("input_col", .str col)]))
        = .ok (.shallow (classNamed c) [("input_col", .str col)])) ∧
    fromConfig F (toConfig F (.gen (classNamed "EWMST") [("half_life", v), ("input_col", .str col)]))
      = .ok (.shallow (classNamed "EWMST") [("input_col", .str col)]) := by
  refine ⟨?_, rfl⟩
  intro c hc
  simp only [List.mem_cons, List.not_mem_nil, or_false] at hc
  rcases hc with rfl | rfl <;> rfl

/-- Violation: `ema(span, adjust=False)` reloads as `ema(span, adjust=True)`, for every span. -/
theorem C46_ema_adjust_lost (F : FloatText) (n : Int) :
    unaryFromName F ((UFn.ema n false).opName F) = some (.ema n true) := by
  have h1 : unaryFromName F ((UFn.ema n false).opName F) =
      match parseInt (intText n) with
      | some n => some (.ema n true)
      | none => staticUnary ((UFn.ema n false).opName F) := rfl
  rw [h1, parseInt_intText]

/-- Violation: a rolling operation whose window is not an integer (`rolling_mean("1h")`, `ema(2.5)`) is saved under a name
that cannot be loaded: the error is raised only when the file is read.  (Such an operation is a `custom` function of the
model.) -/
theorem C46_offset_window_not_loaded (F : FloatText) (t : List Char) (ht : parseInt t = none) (o : Obj) (o' : Obj)
    (ho : fromConfig F (toConfig F o) = .ok o') :
    ∀ p ∈ ["rmean".toList, "rstd".toList, "rsum".toList, "ema".toList, "lag".toList],
      ∀ fn : UFn, fn.opName F = p ++ t → fromConfig F (toConfig F (.un fn none o)) = .error "Unsupported unary op" := by
  intro p hp fn hfn
  have key : unaryFromName F (p ++ t) = none := by
    simp only [List.mem_cons, List.not_mem_nil, or_false] at hp
    rcases hp with rfl | rfl | rfl | rfl | rfl
    · show (match parseInt t with | some n => some (UFn.rmean n) | none => staticUnary ('r' :: 'm' :: 'e' :: 'a' :: 'n' :: t)) = none
      rw [ht]; simp [staticUnary]
    · show (match parseInt t with | some n => some (UFn.rstd n) | none => staticUnary ('r' :: 's' :: 't' :: 'd' :: t)) = none
      rw [ht]; simp [staticUnary]
    · show (match parseInt t with | some n => some (UFn.rsum n) | none => staticUnary ('r' :: 's' :: 'u' :: 'm' :: t)) = none
      rw [ht]; simp [staticUnary]
    · show (match parseInt t with | some n => some (UFn.ema n true) | none => staticUnary ('e' :: 'm' :: 'a' :: t)) = none
      rw [ht]; simp [staticUnary]
    · show (match parseInt t with | some n => some (UFn.lag n) | none => staticUnary ('l' :: 'a' :: 'g' :: t)) = none
      rw [ht]; simp [staticUnary]
  have h1 : toConfig F (.un fn none o) = .unary (p ++ t) (toConfig F o) := by
    simp only [toConfig]; rw [hfn]
  rw [h1]
  simp only [fromConfig]
  rw [ho]
  simp only [key]

example (F : FloatText) : parseInt "1h".toList = none ∧ parseInt "2.5".toList = none ∧
    (UFn.custom "rmean1h".toList 0).opName F = "rmean".toList ++ "1h".toList := by
  refine ⟨by decide +kernel, by decide +kernel, rfl⟩

/-- Violation: a user function never survives.  Loading fails or a library function of that name
takes its place. -/
theorem C46_custom_function_replaced (F : FloatText) (s : List Char) (i : Nat) :
    unaryFromName F ((UFn.custom s i).opName F) ≠ some (.custom s i) := by
  show unaryFromName F s ≠ _
  unfold unaryFromName
  have hst : staticUnary s ≠ some (.custom s i) := by
    unfold staticUnary
    repeat' split
    all_goals simp
  split
  · simp
  · split
    · exact hst
    · rename_i r mk hr
      split
      · rename_i n hn
        unfold rollingPattern at hr
        repeat' split at hr
        all_goals
          first
          | (simp only [Option.some.injEq, Prod.mk.injEq] at hr
             obtain ⟨_, rfl⟩ := hr
             simp)
          | cases hr
      · exact hst

/-- Violation: a user function with suffix `lag5` silently becomes a five-step lag. -/
theorem C46_custom_lag_silently_changed (F : FloatText) (i : Nat) (t : Obj) (t' : Obj)
    (ht : fromConfig F (toConfig F t) = .ok t') :
    fromConfig F (toConfig F (.un (.custom ['l', 'a', 'g', '5'] i) none t)) = .ok (.un (.lag 5) none t') := by
  simp only [toConfig, fromConfig]
  rw [ht]
  rfl

/-- Violation: a tuple argument of an external function reloads as a list. -/
theorem C46_tuple_becomes_list (vs : Vals) : deVal (serVal (.tup vs)) = .list (deVals (serVals vs)) := by
  simp only [serVal, deVal]

/-- Violation: after reloading, a feature made by `Feature.apply` is cached under another column
name, so a feature that reads its column builds before saving and fails after loading. -/
theorem C46_reload_breaks_dependent_feature :
    ∃ (d : ColFrame Int) (before after : List (Feat Int)),
      before = [.single "close_ret1_log" (.un "close_ret1_log" (· + 1) (.leaf (sisoEx "close" "ret1" (· + 1)))),
                .single "close_ret1_log_sma5" (.leaf (sisoEx "close_ret1_log" "sma5" (10 * ·)))] ∧
      after = [.single "close_ret1_log" (.un "log(close_ret1)" (· + 1) (.leaf (sisoEx "close" "ret1" (· + 1)))),
                .single "close_ret1_log_sma5" (.leaf (sisoEx "close_ret1_log" "sma5" (10 * ·)))] ∧
      (buildKit d [] before).isOk = true ∧ (buildKit d [] after).isOk = false :=
  ⟨frameEx, _, _, rfl, rfl, by decide +kernel, by decide +kernel⟩

/-! ### Non-vacuity -/

/-- Text of integers is lawful float text for integers; a complete example of `Lawful` needs only
some injective text. -/
def textEx : FloatText where
  text := fun q => intText q.num ++ '/' :: natText q.den
  parse := fun s =>
    match parseInt (s.takeWhile (· ≠ '/')), natOf ((s.dropWhile (· ≠ '/')).drop 1) 0 with
    | some n, some d => some (mkRat n d)
    | _, _ => none

theorem natText_chars (n : Nat) : ∀ c ∈ natText n, c ≠ '/' ∧ c ≠ '_' := by
  intro c hc
  unfold natText at hc
  split at hc
  · simp at hc; subst hc; decide
  · rw [List.mem_reverse, List.mem_map] at hc
    obtain ⟨d, hd, rfl⟩ := hc
    have hlt := Nat.digits_lt_base (by omega : 1 < 10) hd
    have : ∀ d : Fin 10, Char.ofNat (48 + d.val) ≠ '/' ∧ Char.ofNat (48 + d.val) ≠ '_' := by decide
    exact this ⟨d, hlt⟩

theorem intText_chars (z : Int) : ∀ c ∈ intText z, c ≠ '/' ∧ c ≠ '_' := by
  intro c hc
  unfold intText at hc
  split at hc
  · rcases List.mem_cons.mp hc with rfl | h
    · decide
    · exact natText_chars _ c h
  · exact natText_chars _ c hc

example : textEx.Lawful where
  read := by
    intro q
    show (match parseInt ((intText q.num ++ '/' :: natText q.den).takeWhile (· ≠ '/')),
      natOf (((intText q.num ++ '/' :: natText q.den).dropWhile (· ≠ '/')).drop 1) 0 with
      | some n, some d => some (mkRat n d)
      | _, _ => none) = some q
    have ht : (intText q.num ++ '/' :: natText q.den).takeWhile (· ≠ '/') = intText q.num := by
      rw [List.takeWhile_append_of_pos (by intro c hc; simpa using (intText_chars _ c hc).1)]
      simp
    have hd : (intText q.num ++ '/' :: natText q.den).dropWhile (· ≠ '/') = '/' :: natText q.den := by
      rw [List.dropWhile_append_of_pos (by intro c hc; simpa using (intText_chars _ c hc).1)]
      simp
    rw [ht, hd, parseInt_intText]
    simp only [List.drop_succ_cons, List.drop_zero]
    rw [natOf_natText]
    simp only [Rat.mkRat_self]
  nonempty := by intro q; simp [textEx]
  noUnderscore := by
    intro q h
    rcases List.mem_append.mp h with h | h
    · exact (intText_chars _ _ h).2 rfl
    · rcases List.mem_cons.mp h with h | h
      · cases h
      · exact (natText_chars _ _ h).2 rfl

/-- A savable expression. -/
example : (Obj.un (.rmean 20) (some "x_rmean20")
    (.bin "sub" (.gen (classNamed "Return") [("periods", .int 1), ("input_col", .str "close"), ("is_log", .bool true)])
      (.cst "rdiv" 2 (.gen (classNamed "Identity") [("input_col", .str "volume")])))).Savable := by
  refine ⟨trivial, by decide, ⟨⟨by decide +kernel, by decide +kernel⟩, ?_⟩, by decide, ⟨by decide +kernel, by decide +kernel⟩, ?_⟩
  · intro p hp
    simp only [List.mem_cons, List.not_mem_nil, or_false] at hp
    rcases hp with rfl | rfl | rfl <;> exact Or.inl ⟨by decide +kernel, by simp [Val.Plain]⟩
  · intro p hp
    simp only [List.mem_cons, List.not_mem_nil, or_false] at hp
    subst hp
    exact Or.inl ⟨by decide +kernel, by simp [Val.Plain]⟩

/-- A kit whose configuration reads back. -/
example (F : FloatText) (hF : F.Lawful) : reloadKit F (["close"], [("v", .gen (classNamed "Identity") [("input_col", .str "volume")])]) =
    .ok (["close"], [("v", (Obj.gen (classNamed "Identity") [("input_col", .str "volume")]).erase)]) := by
  refine C46_reload_kit F hF _ _ fun f hf => ?_
  rw [List.mem_singleton.mp hf]
  refine ⟨⟨by decide +kernel, by decide +kernel⟩, fun p hp => ?_⟩
  rw [List.mem_singleton.mp hp]
  exact Or.inl ⟨by decide +kernel, by simp [Val.Plain]⟩

end FinML
