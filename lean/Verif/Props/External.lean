/-
C84: calling a wrapped external function.
-/
import Verif.Model.External
import Mathlib.Data.List.Basic

set_option linter.unusedSectionVars false

namespace FinML

variable {V A W : Type}

theorem all_some_of {x : XFrame V} : ∀ {req : List String} (cols : String → List V), (∀ c ∈ req, x.col c = some (cols c)) →
    req.all (fun c => (x.col c).isSome) = true := by
  intro req cols h
  rw [List.all_eq_true]
  intro c hc
  rw [h c hc]; rfl

/-- A module `m` with a function `add` of two columns and a number, and a value `pi`. -/
def demoWorld : World Int Int Unit where
  look m n :=
    if m = "a.m".toList ∧ n = "add".toList then
      .ok (some (fun xs a _ =>
        match xs, a with
        | [.array u, .array v], [c] => .ok (.one (.array (List.zipWith (fun p q => p + q + c) u v)))
        | _, _ => .error "TypeError"))
    else if m = "a.m".toList ∧ n = "pi".toList then .ok none
    else .error "AttributeError"

def demoFrame : XFrame Int := ⟨[10, 20], fun c => if c = "x" then some [1, 2] else if c = "y" then some [5, 7] else none⟩

/-- **C84.** With all required columns present, the function receives exactly these columns, in the order of
`input_cols`, as arrays or as series with the index of the frame, followed by the further arguments; its error is
passed on, its result is turned into columns. -/
theorem C84_call (w : World V A W) (x : XFrame V) (t : XTransform V A W) (f : XFn V A W) (cols : String → List V)
    (hf : t.resolve w = .ok f) (hne : t.requires ≠ []) (hc : ∀ c ∈ t.requires, x.col c = some (cols c)) :
    (t.call w x).1 =
      match f (t.requires.map (fun c => if t.passNumpy then XItem.array (cols c) else .series x.index (cols c)))
          t.args t.kwargs with
      | .error e => .error e
      | .ok r => t.outputs x.index r := by
  unfold XTransform.call
  rw [all_some_of cols hc, if_neg (by simp), hf]
  dsimp only
  rw [if_neg hne]
  have : t.inputs x = t.requires.map (fun c => if t.passNumpy then XItem.array (cols c) else .series x.index (cols c)) := by
    unfold XTransform.inputs
    refine List.map_congr_left (fun c h => ?_)
    rw [hc c h]
    rfl
  rw [this]
  cases f (t.requires.map (fun c => if t.passNumpy then XItem.array (cols c) else .series x.index (cols c)))
    t.args t.kwargs <;> rfl

example : let t : XTransform Int Int Unit := .make (.path "a.m.add".toList) ["x", "y"] none [100] () true
    (t.resolve demoWorld).isOk = true ∧ t.requires ≠ [] ∧ (∀ c ∈ t.requires, demoFrame.col c = some (if c = "x" then [1, 2] else [5, 7])) ∧
    (t.call demoWorld demoFrame).1 = .ok (.inl ⟨"ext_add".toList, [10, 20], [106, 109]⟩) := by decide +kernel

/-- A missing column is reported before the function is even looked up, and nothing is changed. -/
theorem C84_missing (w : World V A W) (x : XFrame V) (t : XTransform V A W) (c : String) (hc : c ∈ t.requires)
    (hx : x.col c = none) : t.call w x = (.error "Missing required columns", t) := by
  unfold XTransform.call
  rw [if_pos]
  rw [List.all_eq_false]
  exact ⟨c, hc, by rw [hx]; simp⟩

example : "z" ∈ ["x", "z"] ∧ (⟨[10, 20], fun c => if c = "x" then some [1, 2] else none⟩ : XFrame Int).col "z" = none := by decide +kernel

/-- The column of one output item. -/
def XItem.Becomes (index : List Int) (x : XItem V) (c : XCol V) : Prop :=
  match x with
  | .series ix vs => c.index = ix ∧ c.vals = vs
  | .array vs => vs.length = index.length ∧ c.index = index ∧ c.vals = vs
  | .scalar v => c.index = index ∧ c.vals = List.replicate index.length v

theorem toCol_ok (index : List Int) (n : List Char) (x : XItem V) (c : XCol V) :
    toCol index n x = .ok c ↔ c.name = n ∧ x.Becomes index c := by
  cases x with
  | series ix vs =>
    simp only [toCol, XItem.Becomes, Except.ok.injEq]
    constructor
    · rintro rfl; exact ⟨rfl, rfl, rfl⟩
    · rintro ⟨h1, h2, h3⟩; cases c; simp_all
  | array vs =>
    simp only [toCol, XItem.Becomes]
    by_cases h : vs.length = index.length
    · simp only [h, if_true, Except.ok.injEq, true_and]
      constructor
      · rintro rfl; exact ⟨rfl, rfl, rfl⟩
      · rintro ⟨h1, h2, h3⟩; cases c; simp_all
    · simp [h]
  | scalar v =>
    simp only [toCol, XItem.Becomes, Except.ok.injEq, List.map_const']
    constructor
    · rintro rfl; exact ⟨rfl, rfl, rfl⟩
    · rintro ⟨h1, h2, h3⟩; cases c; simp_all

theorem toCols_ok (index : List Int) : ∀ (l : List (List Char × XItem V)) (cs : List (XCol V)),
    toCols index l = .ok cs ↔ List.Forall₂ (fun p c => c.name = p.1 ∧ p.2.Becomes index c) l cs
  | [], cs => by
    simp only [toCols, Except.ok.injEq, List.forall₂_nil_left_iff]
    exact eq_comm
  | (n, x) :: r, cs => by
    have ih := toCols_ok index r
    rw [List.forall₂_cons_left_iff]
    simp only [toCols]
    constructor
    · intro h
      cases hc : toCol index n x with
      | error e => rw [hc] at h; cases h
      | ok c =>
        rw [hc] at h
        dsimp only at h
        cases hr : toCols index r with
        | error e => rw [hr] at h; cases h
        | ok cs' =>
          rw [hr] at h
          exact ⟨c, cs', (toCol_ok index n x c).mp hc, (ih cs').mp hr, (Except.ok.inj h).symm⟩
    · rintro ⟨c, cs', h1, h2, rfl⟩
      rw [(toCol_ok index n x c).mpr h1, (ih cs').mpr h2]

/-- A tuple of results gives a tuple of columns exactly if there are as many results as names and every array fits the
index; the columns then carry the names in order and the results' values. -/
theorem C84_several (t : XTransform V A W) (index : List Int) (xs : List (XItem V)) (cs : List (XCol V)) :
    t.outputs index (.many xs) = .ok (.inr cs) ↔
      xs.length = t.produces.length ∧
        List.Forall₂ (fun p c => c.name = p.1 ∧ p.2.Becomes index c) (t.produces.zip xs) cs := by
  unfold XTransform.outputs
  by_cases h : xs.length = t.produces.length
  · simp only [h, ne_eq, not_true_eq_false, if_false, true_and]
    rw [← toCols_ok]
    cases toCols index (t.produces.zip xs) <;> simp
  · simp [h]

/-- One result gives one column with the first name. -/
theorem C84_one (t : XTransform V A W) (index : List Int) (x : XItem V) (n : List Char) (ns : List (List Char))
    (hp : t.produces = n :: ns) (c : XCol V) :
    t.outputs index (.one x) = .ok (.inl c) ↔ c.name = n ∧ x.Becomes index c := by
  unfold XTransform.outputs
  rw [hp, ← toCol_ok]
  dsimp only
  cases toCol index n x <;> simp

example : (XTransform.make (V := Int) (A := Int) (.path "a.f".toList) ["x"] none [] () true).outputs [10, 20] (.one (.array [1, 2])) =
    .ok (.inl ⟨"ext_f".toList, [10, 20], [1, 2]⟩) := by decide +kernel

/-- Violation: "you must provide `output_cols` with matching length" is not checked for one result.  With any
number of further names the call succeeds and these outputs are silently absent. -/
theorem C84_names_not_checked (t : XTransform V A W) (vs : List V) (index : List Int) (n : List Char)
    (ns : List (List Char)) (hp : t.produces = n :: ns) (hl : vs.length = index.length) :
    t.outputs index (.one (.array vs)) = .ok (.inl ⟨n, index, vs⟩) := by
  rw [C84_one t index _ n ns hp]
  exact ⟨rfl, hl, rfl, rfl⟩

example : (XTransform.make (V := Int) (A := Int) (.path "a.f".toList) ["x"] (some ["p".toList, "q".toList]) [] () true).outputs [10, 20]
    (.one (.array [1, 2])) = .ok (.inl ⟨"p".toList, [10, 20], [1, 2]⟩) := by decide +kernel

/-- Violation: a function that returns its values in a Python list is taken for a multi-output function.  It fails
unless it returns as many values as there are names, and then each value fills a whole column. -/
theorem C84_value_list (t : XTransform V A W) (index : List Int) (vs : List V) :
    (vs.length ≠ t.produces.length →
      t.outputs index (.many (vs.map XItem.scalar)) = .error "ValueError: wrong number of outputs") ∧
    (vs.length = t.produces.length →
      t.outputs index (.many (vs.map XItem.scalar)) =
        .ok (.inr (List.zipWith (fun n v => ⟨n, index, List.replicate index.length v⟩) t.produces vs))) := by
  constructor
  · intro h
    simp [XTransform.outputs, h]
  · intro h
    rw [C84_several]
    refine ⟨by simpa using h, ?_⟩
    generalize t.produces = ns at h ⊢
    induction ns generalizing vs with
    | nil => simp
    | cons n ns ih =>
      cases vs with
      | nil => simp at h
      | cons v vs =>
        simp only [List.map_cons, List.zip_cons_cons, List.zipWith_cons_cons, List.forall₂_cons]
        exact ⟨by simp [XItem.Becomes], ih vs (by simpa using h)⟩

/-! ### Which function is called -/

/-- A function given as an object is used without consulting the import system. -/
theorem C84_object (w : World V A W) (md nm : Option (List Char)) (f : XFn V A W) (i : List String)
    (o : Option (List (List Char))) (a : List A) (k : W) (b : Bool) :
    (XTransform.make (.obj md nm f) i o a k b).resolve w = .ok f := rfl

theorem takeWhile_all {α : Type} (p : α → Bool) : ∀ (a b : List α), (∀ c ∈ a, p c = true) →
    (a ++ b).takeWhile p = a ++ b.takeWhile p ∧ (a ++ b).dropWhile p = b.dropWhile p
  | [], _, _ => ⟨rfl, rfl⟩
  | x :: a, b, h => by
    obtain ⟨h1, h2⟩ := takeWhile_all p a b (fun c hc => h c (by simp [hc]))
    simp [h x (by simp), h1, h2]

theorem rsplitDot_dot (m n : List Char) (hn : '.' ∉ n) : rsplitDot (m ++ '.' :: n) = some (m, n) ∧
    afterDot (m ++ '.' :: n) = n := by
  have hrev : (m ++ '.' :: n).reverse = n.reverse ++ '.' :: m.reverse := by simp
  have hall : ∀ c ∈ n.reverse, decide (c ≠ '.') = true := by
    intro c hc
    rw [decide_eq_true_eq]
    rintro rfl
    exact hn (by simpa using hc)
  obtain ⟨h1, h2⟩ := takeWhile_all (fun c => decide (c ≠ '.')) n.reverse ('.' :: m.reverse) hall
  have ha : afterDot (m ++ '.' :: n) = n := by
    unfold afterDot
    rw [hrev, h1]
    simp
  refine ⟨?_, ha⟩
  unfold rsplitDot
  simp only []
  rw [ha, hrev, h2]
  simp

theorem rsplitDot_none (n : List Char) (hn : '.' ∉ n) : rsplitDot n = none ∧ afterDot n = n := by
  have hall : ∀ c ∈ n.reverse, decide (c ≠ '.') = true := by
    intro c hc
    rw [decide_eq_true_eq]
    rintro rfl
    exact hn (by simpa using hc)
  obtain ⟨h1, h2⟩ := takeWhile_all (fun c => decide (c ≠ '.')) n.reverse [] hall
  rw [List.append_nil] at h1 h2
  constructor
  · unfold rsplitDot
    simp only []
    rw [h2]
    rfl
  · unfold afterDot
    rw [h1]
    simp

theorem nonEmpty_dot (m n : List Char) : nonEmptyText (some (m ++ '.' :: n)) = some (m ++ '.' :: n) := by
  cases m <;> rfl

/-- A path `module.name` is looked up as attribute `name` of `module`, cut at the last dot. -/
theorem C84_path (w : World V A W) (m n : List Char) (hn : '.' ∉ n) (i : List String)
    (o : Option (List (List Char))) (a : List A) (k : W) (b : Bool) :
    (XTransform.make (.path (m ++ '.' :: n)) i o a k b).resolve w =
      match w.look m n with
      | .error e => .error e
      | .ok none => .error "TypeError: not callable"
      | .ok (some f) => .ok f := by
  unfold XTransform.resolve XTransform.make
  simp only [XFunc.object?, XFunc.path?, nonEmpty_dot, (rsplitDot_dot m n hn).1]
  cases w.look m n with
  | error e => rfl
  | ok r => cases r <;> rfl

/-- Violation: a path without a dot, such as the builtin `abs`, is accepted by the constructor but can never be
called. -/
theorem C84_bare_name (w : World V A W) (n : List Char) (hn : '.' ∉ n) (i : List String)
    (o : Option (List (List Char))) (a : List A) (k : W) (b : Bool) (x : XFrame V) (r : XCol V ⊕ List (XCol V)) :
    ((XTransform.make (.path n) i o a k b).call w x).1 ≠ .ok r := by
  have hr : ∃ e, (XTransform.make (.path n) i o a k b).resolve w = .error e := by
    unfold XTransform.resolve XTransform.make
    simp only [XFunc.object?, XFunc.path?]
    cases n with
    | nil => exact ⟨_, rfl⟩
    | cons c s =>
      simp only [nonEmptyText, (rsplitDot_none (c :: s) hn).1]
      exact ⟨_, rfl⟩
  obtain ⟨e, he⟩ := hr
  unfold XTransform.call
  split
  · simp
  · rw [he]
    simp

/-- The function is fixed by the first successful lookup: afterwards the import system is not consulted again, so later
changes of the module have no effect; nothing else of the transform changes. -/
theorem C84_fixed (w w' : World V A W) (x x' : XFrame V) (t : XTransform V A W) (f : XFn V A W)
    (hf : t.resolve w = .ok f) (hx : t.requires.all (fun c => (x.col c).isSome) = true) :
    (t.call w x).2 = { t with callable := some f } ∧
    ((t.call w x).2.call w' x').1 = (t.call w x').1 ∧ ((t.call w x).2.call w' x').2 = (t.call w x).2 := by
  have h2 : (t.call w x).2 = { t with callable := some f } := by
    unfold XTransform.call
    rw [hx, if_neg (by simp), hf]
    dsimp only
    split
    · rfl
    · cases f (t.inputs x) t.args t.kwargs <;> rfl
  refine ⟨h2, ?_, ?_⟩
  · rw [h2]
    unfold XTransform.call
    dsimp only
    by_cases hall : t.requires.all (fun c => (x'.col c).isSome) = false
    · rw [if_pos hall, if_pos hall]
    · rw [if_neg hall, if_neg hall, hf]
      have : XTransform.resolve w' { t with callable := some f } = .ok f := rfl
      rw [this]
      dsimp only
      split
      · rfl
      · show (match f (t.inputs x') t.args t.kwargs with | .error e => _ | .ok r => _ : _ × _).1 = _
        cases f (t.inputs x') t.args t.kwargs <;> rfl
  · rw [h2]
    unfold XTransform.call
    dsimp only
    split
    · rfl
    · have : XTransform.resolve w' { t with callable := some f } = .ok f := rfl
      rw [this]
      dsimp only
      split
      · rfl
      · show (match f (t.inputs x') t.args t.kwargs with | .error e => _ | .ok r => _ : _ × _).2 = _
        cases f (t.inputs x') t.args t.kwargs <;> rfl

example : let t : XTransform Int Int Unit := .make (.path "a.m.add".toList) ["x", "y"] none [100] () true
    (t.resolve demoWorld).isOk = true ∧ t.requires.all (fun c => (demoFrame.col c).isSome) = true ∧
    ((t.call demoWorld demoFrame).2.call ⟨fun _ _ => .error "gone"⟩ demoFrame).1 = .ok (.inl ⟨"ext_add".toList, [10, 20], [106, 109]⟩) := by
  decide +kernel

/-! ### Configurations -/

/-- A transform rebuilt from its configuration looks up `__name__` in `__module__`; it behaves like the original if
that lookup gives the original function. -/
theorem C84_rebuild (w : World V A W) (m n : List Char) (hm : m ≠ []) (hn : n ≠ []) (hd : '.' ∉ n) (f : XFn V A W)
    (i : List String) (hi : i ≠ []) (o : Option (List (List Char))) (a : List A) (k : W) (b : Bool)
    (hl : w.look m n = .ok (some f)) :
    ∃ t', (XTransform.make (.obj (some m) (some n) f) i o a k b).rebuild = .ok t' ∧
      ∀ x, (t'.call w x).1 = ((XTransform.make (.obj (some m) (some n) f) i o a k b).call w x).1 := by
  obtain ⟨c, m', rfl⟩ := List.exists_cons_of_ne_nil hm
  obtain ⟨c', n', rfl⟩ := List.exists_cons_of_ne_nil hn
  refine ⟨.make (.path ((c :: m') ++ '.' :: (c' :: n'))) i (some (o.getD ["ext_".toList ++ (c' :: n')])) a k b, ?_, ?_⟩
  · unfold XTransform.rebuild
    have : nonEmptyText (XTransform.make (.obj (some (c :: m')) (some (c' :: n')) f) i o a k b).path
        = some ((c :: m') ++ '.' :: (c' :: n')) := rfl
    rw [this]
    show (if i = [] then _ else _) = _
    rw [if_neg hi]
    rfl
  · intro x
    have hr := C84_path w (c :: m') (c' :: n') hd i (some (o.getD ["ext_".toList ++ (c' :: n')])) a k b
    rw [hl] at hr
    unfold XTransform.call
    rw [hr, C84_object]
    show (if i.all (fun c => (x.col c).isSome) = false then _ else _ : _ × _).1 = (if i.all (fun c => (x.col c).isSome) = false then _ else _ : _ × _).1
    split
    · rfl
    · dsimp only
      show (if i = [] then _ else _ : _ × _).1 = (if i = [] then _ else _ : _ × _).1
      rw [if_neg hi, if_neg hi]
      show (match f ((XTransform.make (.obj (some (c :: m')) (some (c' :: n')) f) i o a k b).inputs x) a k with
        | .error e => _ | .ok r => _ : _ × _).1 = (match f ((XTransform.make (.obj (some (c :: m')) (some (c' :: n')) f) i o a k b).inputs x) a k with
        | .error e => _ | .ok r => _ : _ × _).1
      cases f ((XTransform.make (.obj (some (c :: m')) (some (c' :: n')) f) i o a k b).inputs x) a k <;> rfl

example : ∃ f, demoWorld.look "a.m".toList "add".toList = .ok (some f) ∧ '.' ∉ "add".toList := ⟨_, rfl, by decide⟩

/-- Violation: if the lookup fails (a lambda, a method or a function defined inside another one), the rebuilt transform
fails on every frame. -/
theorem C84_rebuild_fails (w : World V A W) (m n : List Char) (hm : m ≠ []) (hn : n ≠ []) (hd : '.' ∉ n) (f : XFn V A W)
    (i : List String) (hi : i ≠ []) (o : Option (List (List Char))) (a : List A) (k : W) (b : Bool) (e : String)
    (hl : w.look m n = .error e) :
    ∃ t', (XTransform.make (.obj (some m) (some n) f) i o a k b).rebuild = .ok t' ∧
      ∀ x r, (t'.call w x).1 ≠ .ok r := by
  obtain ⟨c, m', rfl⟩ := List.exists_cons_of_ne_nil hm
  obtain ⟨c', n', rfl⟩ := List.exists_cons_of_ne_nil hn
  refine ⟨.make (.path ((c :: m') ++ '.' :: (c' :: n'))) i (some (o.getD ["ext_".toList ++ (c' :: n')])) a k b, ?_, ?_⟩
  · unfold XTransform.rebuild
    have : nonEmptyText (XTransform.make (.obj (some (c :: m')) (some (c' :: n')) f) i o a k b).path
        = some ((c :: m') ++ '.' :: (c' :: n')) := rfl
    rw [this]
    show (if i = [] then _ else _) = _
    rw [if_neg hi]
    rfl
  · intro x r
    have hr := C84_path w (c :: m') (c' :: n') hd i (some (o.getD ["ext_".toList ++ (c' :: n')])) a k b
    rw [hl] at hr
    unfold XTransform.call
    rw [hr]
    split <;> simp

example : ∃ e, demoWorld.look "a.m".toList "<lambda>".toList = .error e ∧ '.' ∉ "<lambda>".toList :=
  ⟨"AttributeError", rfl, by decide⟩

/-- The default output name is `ext_` and the last part of the path, so functions of one name in different modules
share it. -/
theorem C84_default_name (m m' n : List Char) (hn : '.' ∉ n) (i i' : List String) (a a' : List A) (k k' : W) (b b' : Bool) :
    (XTransform.make (V := V) (.path (m ++ '.' :: n)) i none a k b).produces = ["ext_".toList ++ n] ∧
    (XTransform.make (V := V) (.path (m ++ '.' :: n)) i none a k b).produces =
      (XTransform.make (V := V) (.path (m' ++ '.' :: n)) i' none a' k' b').produces := by
  simp [XTransform.make, XFunc.name, (rsplitDot_dot m n hn).2, (rsplitDot_dot m' n hn).2]

/-! ### Examples -/

example : ((XTransform.make (.path "a.m.add".toList) ["x", "y"] none [100] () true).call demoWorld demoFrame).1 =
    .ok (.inl ⟨"ext_add".toList, [10, 20], [106, 109]⟩) := by decide +kernel

example : ((XTransform.make (.path "a.m.pi".toList) ["x"] none [] () true).call demoWorld demoFrame).1 =
    .error "TypeError: not callable" := by decide +kernel

/-- `C84_value_list` on two rows and two names: each value fills a column. -/
example : (XTransform.make (V := Int) (A := Int) (.path "a.f".toList) ["x"] (some ["p".toList, "q".toList]) [] () true).outputs
    [10, 20, 30] (.many [.scalar 1, .scalar 2]) =
      .ok (.inr [⟨"p".toList, [10, 20, 30], [1, 1, 1]⟩, ⟨"q".toList, [10, 20, 30], [2, 2, 2]⟩]) := by decide +kernel

/-- A lambda cannot be rebuilt. -/
example : ∃ e, demoWorld.look "a.m".toList "<lambda>".toList = .error e ∧ '.' ∉ "<lambda>".toList :=
  ⟨"AttributeError", by rfl, by decide⟩

end FinML
