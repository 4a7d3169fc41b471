/-
C81: the automatically generated name of a feature expression identifies the expression, so the
name-keyed cache of a feature kit is harmless for such features; and where this fails.
-/
import Verif.Props.FeatureAlgebra
import Verif.Props.Config

set_option linter.unusedSectionVars false

namespace FinML

variable {K : Type} [Field K] [LinearOrder K] [IsStrictOrderedRing K]

/-! ### Texts -/

/-- No bracket and no comma. -/
def Plain (s : List Char) : Prop := '(' ∉ s ∧ ')' ∉ s ∧ ',' ∉ s

theorem plain_append {s t : List Char} (hs : Plain s) (ht : Plain t) : Plain (s ++ t) := by
  unfold Plain at *
  simp only [List.mem_append, not_or]
  exact ⟨⟨hs.1, ht.1⟩, ⟨hs.2.1, ht.2.1⟩, ⟨hs.2.2, ht.2.2⟩⟩

theorem split_at (c : Char) (u : List Char) : ∀ (v r s : List Char), c ∉ u → c ∉ v →
    (r = [] ∨ ∃ r', r = c :: r') → (s = [] ∨ ∃ s', s = c :: s') → u ++ r = v ++ s → u = v ∧ r = s := by
  induction u with
  | nil =>
    intro v r s _ hv hr _ h
    cases v with
    | nil => exact ⟨rfl, h⟩
    | cons b v =>
      rcases hr with rfl | ⟨r', rfl⟩
      · simp at h
      · simp only [List.nil_append, List.cons_append, List.cons.injEq] at h
        exact absurd (by simp [h.1]) hv
  | cons a u ih =>
    intro v r s hu hv hr hs h
    cases v with
    | nil =>
      rcases hs with rfl | ⟨s', rfl⟩
      · simp at h
      · simp only [List.nil_append, List.cons_append, List.cons.injEq] at h
        exact absurd (by simp [h.1]) hu
    | cons b v =>
      simp only [List.cons_append, List.cons.injEq] at h
      rw [List.mem_cons, not_or] at hu hv
      obtain ⟨h1, h2⟩ := ih v r s hu.2 hv.2 hr hs h.2
      exact ⟨by rw [h.1, h1], h2⟩

theorem intText_digits (z : Int) : ∀ c ∈ intText z, c = '-' ∨ ∃ d : Fin 10, c = Char.ofNat (48 + d.val) := by
  have hn : ∀ n : Nat, ∀ c ∈ natText n, ∃ d : Fin 10, c = Char.ofNat (48 + d.val) := by
    intro n c hc
    unfold natText at hc
    split at hc
    · rw [List.mem_singleton] at hc
      exact ⟨0, by rw [hc]; rfl⟩
    · rw [List.mem_reverse, List.mem_map] at hc
      obtain ⟨d, hd, rfl⟩ := hc
      exact ⟨⟨d, Nat.digits_lt_base (by norm_num) hd⟩, rfl⟩
  intro c hc
  unfold intText at hc
  split at hc
  · rcases List.mem_cons.mp hc with h | h
    · exact Or.inl h
    · exact Or.inr (hn _ c h)
  · exact Or.inr (hn _ c hc)

theorem intText_not (z : Int) (c : Char) (hc : c = '(' ∨ c = ')' ∨ c = ',' ∨ c = '_') : c ∉ intText z := by
  intro h
  have key : ∀ d : Fin 10, Char.ofNat (48 + d.val) ≠ '(' ∧ Char.ofNat (48 + d.val) ≠ ')' ∧
      Char.ofNat (48 + d.val) ≠ ',' ∧ Char.ofNat (48 + d.val) ≠ '_' := by decide +kernel
  rcases intText_digits z c h with h' | ⟨d, h'⟩
  · subst h'
    revert hc
    decide
  · obtain ⟨k1, k2, k3, k4⟩ := key d
    rw [← h'] at k1 k2 k3 k4
    rcases hc with h | h | h | h
    · exact k1 h
    · exact k2 h
    · exact k3 h
    · exact k4 h

/-- How constants are printed: readable, without brackets, commas and underscores. -/
structure FloatText.Tidy (F : FloatText) : Prop extends F.Lawful where
  plain : ∀ q, Plain (F.text q)

theorem boundText_plain {F : FloatText} (hF : F.Tidy) (b : Option Rat) : Plain (boundText F b) := by
  cases b with
  | none => simp [boundText, Plain]
  | some q => exact hF.plain q

theorem opName_plain {F : FloatText} (hF : F.Tidy) (fn : UFn) (h : fn.Named) : Plain (fn.opName F) := by
  have hi : ∀ z, Plain (intText z) := fun z =>
    ⟨intText_not z _ (by simp), intText_not z _ (by simp), intText_not z _ (by simp)⟩
  cases fn with
  | abs => simp [UFn.opName, Plain]
  | log => simp [UFn.opName, Plain]
  | log1p => simp [UFn.opName, Plain]
  | exp => simp [UFn.opName, Plain]
  | square => simp [UFn.opName, Plain]
  | sqrt => simp [UFn.opName, Plain]
  | clip lo hi =>
    have h1 := boundText_plain hF lo
    have h2 := boundText_plain hF hi
    simp only [UFn.opName]
    apply plain_append (plain_append (by simp [Plain]) h1)
    unfold Plain at *
    simp [h2]
  | rmean n => exact plain_append (by simp [Plain]) (hi n)
  | rstd n => exact plain_append (by simp [Plain]) (hi n)
  | rsum n => exact plain_append (by simp [Plain]) (hi n)
  | ema n a => exact plain_append (by simp [Plain]) (hi n)
  | lag n => exact plain_append (by simp [Plain]) (hi n)
  | custom s i => exact absurd h (by simp [UFn.Named])

/-! ### Suffixes of applied functions -/

/-- The text that a sequence of applied functions adds to a name. -/
def sufs (F : FloatText) (fs : List UFn) : List Char := fs.flatMap (fun f => '_' :: f.opName F)

theorem sufs_start (F : FloatText) (fs : List UFn) : sufs F fs = [] ∨ ∃ r, sufs F fs = '_' :: r := by
  cases fs with
  | nil => exact Or.inl rfl
  | cons f fs => exact Or.inr ⟨f.opName F ++ sufs F fs, rfl⟩

theorem opName_split (F : FloatText) (f : UFn) (h : f.Named) :
    ('_' ∉ f.opName F ∧ f.opName F ≠ ['c', 'l', 'i', 'p']) ∨
    ∃ lo hi, f = .clip lo hi ∧ f.opName F = ['c', 'l', 'i', 'p'] ++ '_' :: (boundText F lo ++ '_' :: boundText F hi) := by
  have hi : ∀ z, '_' ∉ intText z := fun z => intText_not z _ (by simp)
  cases f with
  | clip lo hi => exact Or.inr ⟨lo, hi, rfl, by simp [UFn.opName]⟩
  | abs => left; simp [UFn.opName]
  | log => left; simp [UFn.opName]
  | log1p => left; simp [UFn.opName]
  | exp => left; simp [UFn.opName]
  | square => left; simp [UFn.opName]
  | sqrt => left; simp [UFn.opName]
  | rmean n => left; simp [UFn.opName, hi]
  | rstd n => left; simp [UFn.opName, hi]
  | rsum n => left; simp [UFn.opName, hi]
  | ema n a => left; simp [UFn.opName, hi]
  | lag n => left; simp [UFn.opName, hi]
  | custom s i => exact absurd h (by simp [UFn.Named])

theorem sufs_injective {F : FloatText} (hF : F.Tidy) (fs : List UFn) : ∀ gs : List UFn,
    (∀ f ∈ fs, f.Named) → (∀ g ∈ gs, g.Named) → sufs F fs = sufs F gs → fs = gs := by
  induction fs with
  | nil =>
    intro gs _ _ h
    cases gs with
    | nil => rfl
    | cons g gs => simp [sufs] at h
  | cons f fs ih =>
    intro gs hf hg h
    cases gs with
    | nil => simp [sufs] at h
    | cons g gs =>
      have hfn := hf f (by simp)
      have hgn := hg g (by simp)
      have h' : f.opName F ++ sufs F fs = g.opName F ++ sufs F gs := by
        have : '_' :: (f.opName F ++ sufs F fs) = '_' :: (g.opName F ++ sufs F gs) := h
        exact (List.cons.inj this).2
      have done : f.opName F = g.opName F ∧ sufs F fs = sufs F gs := by
        rcases opName_split F f hfn with ⟨u1, n1⟩ | ⟨l1, r1, e1, t1⟩ <;>
          rcases opName_split F g hgn with ⟨u2, n2⟩ | ⟨l2, r2, e2, t2⟩
        · exact split_at '_' _ _ _ _ u1 u2 (sufs_start F fs) (sufs_start F gs) h'
        · rw [t2, List.append_assoc] at h'
          exact absurd (split_at '_' _ _ _ _ u1 (by decide) (sufs_start F fs) (Or.inr ⟨_, rfl⟩) h').1 n1
        · rw [t1, List.append_assoc] at h'
          exact absurd (split_at '_' _ _ _ _ (by decide) u2 (Or.inr ⟨_, rfl⟩) (sufs_start F gs) h').1.symm n2
        · have h2 : boundText F l1 ++ '_' :: (boundText F r1 ++ sufs F fs)
              = boundText F l2 ++ '_' :: (boundText F r2 ++ sufs F gs) := by
            rw [t1, t2] at h'
            simpa using h'
          obtain ⟨h3, h4⟩ := split_at '_' _ _ _ _ (boundText_noUnderscore hF.toLawful l1)
            (boundText_noUnderscore hF.toLawful l2) (Or.inr ⟨_, rfl⟩) (Or.inr ⟨_, rfl⟩) h2
          obtain ⟨h5, h6⟩ := split_at '_' _ _ _ _ (boundText_noUnderscore hF.toLawful r1)
            (boundText_noUnderscore hF.toLawful r2) (sufs_start F fs) (sufs_start F gs) (List.cons.inj h4).2
          exact ⟨by rw [t1, t2, h3, h5], h6⟩
      have e : f = g := by
        have a := C46_operation_names_round_trip F hF.toLawful f hfn
        have b := C46_operation_names_round_trip F hF.toLawful g hgn
        rw [done.1, b] at a
        exact (Option.some.inj a).symm
      rw [e, ih gs (fun x hx => hf x (by simp [hx])) (fun x hx => hg x (by simp [hx])) done.2]

theorem sufs_plain {F : FloatText} (hF : F.Tidy) (fs : List UFn) (h : ∀ f ∈ fs, f.Named) : Plain (sufs F fs) := by
  induction fs with
  | nil => simp [sufs, Plain]
  | cons f fs ih =>
    have h1 := opName_plain hF f (h f (by simp))
    have h2 := ih (fun x hx => h x (by simp [hx]))
    have : sufs F (f :: fs) = ['_'] ++ (f.opName F ++ sufs F fs) := rfl
    rw [this]
    exact plain_append (by simp [Plain]) (plain_append h1 h2)

/-! ### Cutting a name at its top-level separators -/

/-- The text before the first comma or closing bracket of the outermost level. -/
def cut : Nat → List Char → List Char
  | _, [] => []
  | k, c :: cs =>
    if c = '(' then c :: cut (k + 1) cs
    else if c = ')' then (if k = 0 then [] else c :: cut (k - 1) cs)
    else if c = ',' then (if k = 0 then [] else c :: cut k cs)
    else c :: cut k cs

theorem cut_open (k : Nat) (r : List Char) : cut k ('(' :: r) = '(' :: cut (k + 1) r := by simp [cut]

theorem cut_close (k : Nat) (r : List Char) : cut (k + 1) (')' :: r) = ')' :: cut k r := by simp [cut]

theorem cut_comma (k : Nat) (r : List Char) : cut (k + 1) (',' :: r) = ',' :: cut (k + 1) r := by simp [cut]

theorem cut_plain (s : List Char) (hs : Plain s) (k : Nat) (r : List Char) : cut k (s ++ r) = s ++ cut k r := by
  induction s with
  | nil => rfl
  | cons c s ih =>
    unfold Plain at hs
    simp only [List.mem_cons, not_or] at hs
    have := ih ⟨hs.1.2, hs.2.1.2, hs.2.2.2⟩
    rw [List.cons_append, cut, if_neg (fun h => hs.1.1 h.symm), if_neg (fun h => hs.2.1.1 h.symm),
      if_neg (fun h => hs.2.2.1 h.symm), this]
    rfl

/-- Expressions over the base transforms `S` whose applied functions are `Feature` methods. -/
def FX.Good (S : List (Leaf (SCol K)) ) : FX K → Prop
  | .atom l => l ∈ S
  | .bin _ a b => a.Good S ∧ b.Good S
  | .cst _ _ a => a.Good S
  | .absf a => a.Good S
  | .app fn a => fn.Named ∧ a.Good S

/-- Naming discipline of the base transforms: no brackets or commas; a base name followed by method names
determines the base transform; and such a name is not a number. -/
structure BaseNames (F : FloatText) (S : List (Leaf (SCol K))) : Prop where
  plain : ∀ a ∈ S, Plain a.output.toList
  base : ∀ a ∈ S, ∀ b ∈ S, ∀ fs gs, (∀ f ∈ fs, UFn.Named f) → (∀ g ∈ gs, UFn.Named g) →
    a.output.toList ++ sufs F fs = b.output.toList ++ sufs F gs → a = b
  number : ∀ a ∈ S, ∀ fs, (∀ f ∈ fs, UFn.Named f) → ∀ c, F.text c ≠ a.output.toList ++ sufs F fs

theorem binText_plain (op : BinOp) : Plain op.text := by cases op <;> simp [BinOp.text, Plain]

theorem cstText_plain (op : CstOp) : Plain op.text := by cases op <;> simp [CstOp.text, Plain]

theorem cut_name {F : FloatText} (hF : F.Tidy) {S : List (Leaf (SCol K))} (hS : BaseNames F S) (e : FX K)
    (he : e.Good S) : ∀ (k : Nat) (r : List Char), cut k (e.name F ++ r) = e.name F ++ cut k r := by
  induction e with
  | atom l => intro k r; exact cut_plain _ (hS.plain l he) k r
  | bin op a b iha ihb =>
    intro k r
    simp only [FX.name, List.append_assoc, List.cons_append, List.nil_append]
    rw [cut_plain _ (binText_plain op), cut_open, iha he.1, cut_comma, ihb he.2, cut_close]
  | cst op c a ih =>
    intro k r
    simp only [FX.name, List.append_assoc, List.cons_append, List.nil_append]
    rw [cut_plain _ (cstText_plain op), cut_open, ih he, cut_comma, cut_plain _ (hF.plain c), cut_close]
  | absf a ih =>
    intro k r
    have e : (FX.absf a).name F ++ r = ['a', 'b', 's'] ++ '(' :: (a.name F ++ ')' :: r) := by simp [FX.name]
    rw [e, cut_plain _ (by simp [Plain]), cut_open, ih he, cut_close]
    simp [FX.name]
  | app fn a ih =>
    intro k r
    simp only [FX.name, List.append_assoc, List.cons_append]
    rw [ih he.2]
    congr 1
    have h := cut_plain ('_' :: fn.opName F) (by
      have := opName_plain hF fn he.1
      have h2 : '_' :: fn.opName F = ['_'] ++ fn.opName F := rfl
      rw [h2]
      exact plain_append (by simp [Plain]) this) k r
    rw [List.cons_append] at h
    exact h

/-- The part of an expression below its applied functions. -/
def FX.core : FX K → FX K
  | .app _ a => a.core
  | e => e

/-- The functions applied on top, innermost first. -/
def FX.fns : FX K → List UFn
  | .app f a => a.fns ++ [f]
  | _ => []

theorem core_rebuild (e : FX K) : e = e.fns.foldl (fun t f => FX.app f t) e.core := by
  induction e with
  | app f a ih =>
    simp only [FX.fns, FX.core, List.foldl_append, List.foldl_cons, List.foldl_nil]
    rw [← ih]
  | _ => rfl

theorem name_core (F : FloatText) (e : FX K) : e.name F = e.core.name F ++ sufs F e.fns := by
  induction e with
  | app f a ih =>
    simp only [FX.fns, FX.core, FX.name]
    rw [ih]
    simp [sufs]
  | _ => simp [FX.fns, FX.core, sufs]

theorem fns_named {S : List (Leaf (SCol K))} (e : FX K) (h : e.Good S) : ∀ f ∈ e.fns, f.Named := by
  induction e with
  | app f a ih =>
    intro g hg
    simp only [FX.fns, List.mem_append, List.mem_singleton] at hg
    rcases hg with h' | h'
    · exact ih h.2 g h'
    · subst h'; exact h.1
  | _ => intro g hg; simp [FX.fns] at hg

theorem core_good {S : List (Leaf (SCol K))} (e : FX K) (h : e.Good S) : e.core.Good S := by
  induction e with
  | app f a ih => exact ih h.2
  | _ => exact h

theorem core_not_app (e : FX K) : ∀ f a, e.core ≠ .app f a := by
  induction e with
  | app f a ih => exact ih
  | _ => intro f a h; cases h

/-- Number of nodes. -/
def FX.size : FX K → Nat
  | .atom _ => 1
  | .bin _ a b => a.size + b.size + 1
  | .cst _ _ a => a.size + 1
  | .absf a => a.size + 1
  | .app _ a => a.size + 1

theorem core_size (e : FX K) : e.core.size ≤ e.size := by
  induction e with
  | app f a ih => simp only [FX.core, FX.size]; omega
  | _ => exact le_refl _

theorem two_args {F : FloatText} (hF : F.Tidy) {S : List (Leaf (SCol K))} (hS : BaseNames F S) {a b : FX K}
    (ha : a.Good S) (hb : b.Good S) {o p r s : List Char} (ho : Plain o) (hp : Plain p)
    (hr : ∃ r', r = ',' :: r' ∨ r = ')' :: r') (hs : ∃ s', s = ',' :: s' ∨ s = ')' :: s')
    (h : o ++ '(' :: (a.name F ++ r) = p ++ '(' :: (b.name F ++ s)) : o = p ∧ a.name F = b.name F ∧ r = s := by
  obtain ⟨h1, h2⟩ := split_at '(' _ _ _ _ ho.1 hp.1 (Or.inr ⟨_, rfl⟩) (Or.inr ⟨_, rfl⟩) h
  have h3 := (List.cons.inj h2).2
  have z : ∀ t : List Char, (∃ t', t = ',' :: t' ∨ t = ')' :: t') → cut 0 t = [] := by
    rintro t ⟨t', rfl | rfl⟩ <;> simp [cut]
  have h4 := congrArg (cut 0) h3
  rw [cut_name hF hS a ha, cut_name hF hS b hb, z r hr, z s hs, List.append_nil, List.append_nil] at h4
  rw [h4] at h3
  exact ⟨h1, h4, List.append_cancel_left h3⟩

/-- A name without brackets belongs to a base transform with applied functions. -/
theorem plain_name {F : FloatText} (e : FX K) (h : '(' ∉ e.name F) : ∃ l, e.core = .atom l := by
  rw [name_core] at h
  cases hc : e.core with
  | atom l => exact ⟨l, rfl⟩
  | app f a => exact absurd hc (core_not_app e f a)
  | bin op a b => rw [hc] at h; exact absurd (by simp [FX.name]) h
  | cst op c a => rw [hc] at h; exact absurd (by simp [FX.name]) h
  | absf a => rw [hc] at h; exact absurd (by simp [FX.name]) h

theorem number_not_name {F : FloatText} (hF : F.Tidy) {S : List (Leaf (SCol K))} (hS : BaseNames F S) (e : FX K)
    (he : e.Good S) (c : Rat) : F.text c ≠ e.name F := by
  intro h
  have h1 : '(' ∉ e.name F := by rw [← h]; exact (hF.plain c).1
  obtain ⟨l, hl⟩ := plain_name e h1
  have hg := core_good e he
  rw [hl] at hg
  rw [name_core, hl] at h
  exact hS.number l hg e.fns (fns_named e he) c h

theorem tail_eq {u v r s : List Char} (hu : Plain u) (hv : Plain v)
    (h : ',' :: (u ++ ')' :: r) = ',' :: (v ++ ')' :: s)) : u = v ∧ r = s := by
  obtain ⟨h1, h2⟩ := split_at ')' _ _ _ _ hu.2.1 hv.2.1 (Or.inr ⟨_, rfl⟩) (Or.inr ⟨_, rfl⟩) (List.cons.inj h).2
  exact ⟨h1, (List.cons.inj h2).2⟩

theorem tail_cut {F : FloatText} (hF : F.Tidy) {S : List (Leaf (SCol K))} (hS : BaseNames F S) {b : FX K}
    (hb : b.Good S) {v r s : List Char} (hv : ∀ r, cut 0 (v ++ ')' :: r) = v)
    (h : ',' :: (b.name F ++ ')' :: r) = ',' :: (v ++ ')' :: s)) : b.name F = v ∧ r = s := by
  have h1 := (List.cons.inj h).2
  have h2 := congrArg (cut 0) h1
  rw [cut_name hF hS b hb, hv] at h2
  have h3 : b.name F = v := by simpa [cut] using h2
  rw [h3] at h1
  exact ⟨h3, (List.cons.inj (List.append_cancel_left h1)).2⟩

theorem names_aux {F : FloatText} (hF : F.Tidy) {S : List (Leaf (SCol K))} (hS : BaseNames F S) :
    ∀ (n : Nat) (e1 e2 : FX K), e1.size ≤ n → e1.Good S → e2.Good S → e1.name F = e2.name F → e1 = e2 := by
  intro n
  induction n with
  | zero => intro e1 e2 h; cases e1 <;> simp [FX.size] at h
  | succ n ih =>
    intro e1 e2 hsz g1 g2 h
    have c1 := core_good e1 g1
    have c2 := core_good e2 g2
    have f1 := fns_named e1 g1
    have f2 := fns_named e2 g2
    have s1 := core_size e1
    rw [name_core F e1, name_core F e2] at h
    have p1 := sufs_plain hF e1.fns f1
    have p2 := sufs_plain hF e2.fns f2
    have cn : ∀ (b : FX K), b.Good S → ∀ r, cut 0 (b.name F ++ ')' :: r) = b.name F := by
      intro b hb r
      rw [cut_name hF hS b hb]
      simp [cut]
    have key : e1.core = e2.core ∧ sufs F e1.fns = sufs F e2.fns := by
      cases k1 : e1.core with
      | app f a => exact absurd k1 (core_not_app e1 f a)
      | atom a =>
        rw [k1] at h c1
        cases k2 : e2.core with
        | app f a => exact absurd k2 (core_not_app e2 f a)
        | atom b =>
          rw [k2] at h c2
          have := hS.base a c1 b c2 _ _ f1 f2 h
          subst this
          exact ⟨rfl, List.append_cancel_left h⟩
        | bin op b c =>
          rw [k2] at h
          have : '(' ∈ (FX.atom a).name F ++ sufs F e1.fns := by rw [h]; simp [FX.name]
          exact absurd this (plain_append (hS.plain a c1) p1).1
        | cst op b c =>
          rw [k2] at h
          have : '(' ∈ (FX.atom a).name F ++ sufs F e1.fns := by rw [h]; simp [FX.name]
          exact absurd this (plain_append (hS.plain a c1) p1).1
        | absf b =>
          rw [k2] at h
          have : '(' ∈ (FX.atom a).name F ++ sufs F e1.fns := by rw [h]; simp [FX.name]
          exact absurd this (plain_append (hS.plain a c1) p1).1
      | bin op a b =>
        rw [k1] at h c1 s1
        simp only [FX.size] at s1
        cases k2 : e2.core with
        | app f a => exact absurd k2 (core_not_app e2 f a)
        | atom b' =>
          rw [k2] at h c2
          have : '(' ∈ (FX.atom b').name F ++ sufs F e2.fns := by rw [← h]; simp [FX.name]
          exact absurd this (plain_append (hS.plain b' c2) p2).1
        | bin op' a' b' =>
          rw [k2] at h c2
          simp only [FX.name, List.append_assoc, List.cons_append, List.nil_append] at h
          obtain ⟨h1, h2, h3⟩ := two_args hF hS c1.1 c2.1 (binText_plain op) (binText_plain op')
            ⟨_, Or.inl rfl⟩ ⟨_, Or.inl rfl⟩ h
          obtain ⟨h4, h5⟩ := tail_cut hF hS c1.2 (cn b' c2.2) h3
          have e1' := ih a a' (by omega) c1.1 c2.1 h2
          have e2' := ih b b' (by omega) c1.2 c2.2 h4
          have eo : op = op' := by
            revert h1
            cases op <;> cases op' <;> simp [BinOp.text]
          exact ⟨by rw [e1', e2', eo], h5⟩
        | cst op' c a' =>
          rw [k2] at h c2
          simp only [FX.name, List.append_assoc, List.cons_append, List.nil_append] at h
          obtain ⟨h1, h2, h3⟩ := two_args (b := a') hF hS c1.1 c2 (binText_plain op) (cstText_plain op')
            ⟨_, Or.inl rfl⟩ ⟨_, Or.inl rfl⟩ h
          have hv : ∀ r, cut 0 (F.text c ++ ')' :: r) = F.text c := by
            intro r
            rw [cut_plain _ (hF.plain c)]
            simp [cut]
          obtain ⟨h4, _⟩ := tail_cut hF hS c1.2 hv h3
          exact absurd h4.symm (number_not_name hF hS b c1.2 c)
        | absf a' =>
          rw [k2] at h c2
          simp only [FX.name, List.append_assoc, List.cons_append, List.nil_append] at h
          obtain ⟨h1, _⟩ := two_args (o := op.text) (p := ['a', 'b', 's']) (b := a') hF hS c1.1 c2 (binText_plain op)
            (by simp [Plain]) ⟨_, Or.inl rfl⟩ ⟨_, Or.inr rfl⟩ h
          revert h1
          cases op <;> simp [BinOp.text]
      | cst op c a =>
        rw [k1] at h c1 s1
        simp only [FX.size] at s1
        cases k2 : e2.core with
        | app f a => exact absurd k2 (core_not_app e2 f a)
        | atom b' =>
          rw [k2] at h c2
          have : '(' ∈ (FX.atom b').name F ++ sufs F e2.fns := by rw [← h]; simp [FX.name]
          exact absurd this (plain_append (hS.plain b' c2) p2).1
        | bin op' a' b' =>
          rw [k2] at h c2
          simp only [FX.name, List.append_assoc, List.cons_append, List.nil_append] at h
          obtain ⟨h1, h2, h3⟩ := two_args (a := a) hF hS c1 c2.1 (cstText_plain op) (binText_plain op')
            ⟨_, Or.inl rfl⟩ ⟨_, Or.inl rfl⟩ h
          have hv : ∀ r, cut 0 (F.text c ++ ')' :: r) = F.text c := by
            intro r
            rw [cut_plain _ (hF.plain c)]
            simp [cut]
          obtain ⟨h4, _⟩ := tail_cut hF hS c2.2 hv h3.symm
          exact absurd h4.symm (number_not_name hF hS b' c2.2 c)
        | cst op' c' a' =>
          rw [k2] at h c2
          simp only [FX.name, List.append_assoc, List.cons_append, List.nil_append] at h
          obtain ⟨h1, h2, h3⟩ := two_args (a := a) (b := a') hF hS c1 c2 (cstText_plain op) (cstText_plain op')
            ⟨_, Or.inl rfl⟩ ⟨_, Or.inl rfl⟩ h
          obtain ⟨h4, h5⟩ := tail_eq (hF.plain c) (hF.plain c') h3
          have e1' := ih a a' (by omega) c1 c2 h2
          have ec : c = c' := by
            have := hF.read c
            rw [h4, hF.read c'] at this
            exact (Option.some.inj this).symm
          have eo : op = op' := by
            revert h1
            cases op <;> cases op' <;> simp [CstOp.text]
          exact ⟨by rw [e1', ec, eo], h5⟩
        | absf a' =>
          rw [k2] at h c2
          simp only [FX.name, List.append_assoc, List.cons_append, List.nil_append] at h
          obtain ⟨h1, _⟩ := two_args (o := op.text) (p := ['a', 'b', 's']) (a := a) (b := a') hF hS c1 c2 (cstText_plain op)
            (by simp [Plain]) ⟨_, Or.inl rfl⟩ ⟨_, Or.inr rfl⟩ h
          revert h1
          cases op <;> simp [CstOp.text]
      | absf a =>
        rw [k1] at h c1 s1
        simp only [FX.size] at s1
        cases k2 : e2.core with
        | app f a => exact absurd k2 (core_not_app e2 f a)
        | atom b' =>
          rw [k2] at h c2
          have : '(' ∈ (FX.atom b').name F ++ sufs F e2.fns := by rw [← h]; simp [FX.name]
          exact absurd this (plain_append (hS.plain b' c2) p2).1
        | bin op' a' b' =>
          rw [k2] at h c2
          simp only [FX.name, List.append_assoc, List.cons_append, List.nil_append] at h
          obtain ⟨h1, _⟩ := two_args (o := ['a', 'b', 's']) (p := op'.text) (a := a) hF hS c1 c2.1 (by simp [Plain])
            (binText_plain op') ⟨_, Or.inr rfl⟩ ⟨_, Or.inl rfl⟩ h
          revert h1
          cases op' <;> simp [BinOp.text]
        | cst op' c a' =>
          rw [k2] at h c2
          simp only [FX.name, List.append_assoc, List.cons_append, List.nil_append] at h
          obtain ⟨h1, _⟩ := two_args (o := ['a', 'b', 's']) (p := op'.text) (a := a) (b := a') hF hS c1 c2 (by simp [Plain])
            (cstText_plain op') ⟨_, Or.inr rfl⟩ ⟨_, Or.inl rfl⟩ h
          revert h1
          cases op' <;> simp [CstOp.text]
        | absf a' =>
          rw [k2] at h c2
          simp only [FX.name, List.append_assoc, List.cons_append, List.nil_append] at h
          obtain ⟨_, h2, h3⟩ := two_args (o := ['a', 'b', 's']) (p := ['a', 'b', 's']) (a := a) (b := a') hF hS c1 c2 (by simp [Plain])
            (by simp [Plain]) ⟨_, Or.inr rfl⟩ ⟨_, Or.inr rfl⟩ h
          exact ⟨by rw [ih a a' (by omega) c1 c2 h2], (List.cons.inj h3).2⟩
    have hf := sufs_injective hF e1.fns e2.fns f1 f2 key.2
    rw [core_rebuild e1, core_rebuild e2, key.1, hf]

/-- Two expressions over the same base transforms with the same generated name are the same
expression. -/
theorem C81_names_identify (F : FloatText) (hF : F.Tidy) (S : List (Leaf (SCol K))) (hS : BaseNames F S)
    (e1 e2 : FX K) (g1 : e1.Good S) (g2 : e2.Good S) (h : e1.name F = e2.name F) : e1 = e2 :=
  names_aux hF hS e1.size e1 e2 (le_refl _) g1 g2 h

/-- Base transforms with distinct names without underscores, brackets and commas that are not numbers
satisfy the discipline. -/
theorem C81_simple_columns (F : FloatText) (hF : F.Tidy) (S : List (Leaf (SCol K)))
    (hp : ∀ a ∈ S, Plain a.output.toList) (hu : ∀ a ∈ S, '_' ∉ a.output.toList)
    (hd : ∀ a ∈ S, ∀ b ∈ S, a.output = b.output → a = b) (hn : ∀ a ∈ S, ∀ c, F.text c ≠ a.output.toList) :
    BaseNames F S where
  plain := hp
  base := by
    intro a ha b hb fs gs _ _ h
    have := (split_at '_' _ _ _ _ (hu a ha) (hu b hb) (sufs_start F fs) (sufs_start F gs) h).1
    exact hd a ha b hb (String.toList_inj.mp this)
  number := by
    intro a ha fs _ c h
    have h0 : F.text c ++ [] = a.output.toList ++ sufs F fs := by rw [List.append_nil]; exact h
    exact hn a ha c (split_at '_' _ _ _ _ (hF.noUnderscore c) (hu a ha) (Or.inl rfl) (sufs_start F fs) h0).1

/-! ### Kits of such features -/

theorem toTr_output (F : FloatText) (G : Fns K) (e : FX K) : (e.toTr F G).output = String.ofList (e.name F) := by
  cases e with
  | atom l => simp [FX.toTr, Tr.output, FX.name]
  | _ => rfl

theorem toTr_subs (F : FloatText) (G : Fns K) (S : List (Leaf (SCol K))) (e : FX K) (he : e.Good S) :
    ∀ s ∈ (e.toTr F G).subs, ∃ e' : FX K, e'.Good S ∧ s = e'.toTr F G := by
  induction e with
  | atom l =>
    intro s hs
    simp only [FX.toTr, Tr.subs, List.mem_singleton] at hs
    exact ⟨.atom l, he, hs⟩
  | bin op a b iha ihb =>
    intro s hs
    simp only [FX.toTr, Tr.subs, List.mem_cons, List.mem_append] at hs
    rcases hs with h | h | h
    · exact ⟨.bin op a b, he, h⟩
    · exact iha he.1 s h
    · exact ihb he.2 s h
  | cst op c a ih =>
    intro s hs
    simp only [FX.toTr, Tr.subs, List.mem_cons] at hs
    rcases hs with h | h
    · exact ⟨.cst op c a, he, h⟩
    · exact ih he s h
  | absf a ih =>
    intro s hs
    simp only [FX.toTr, Tr.subs, List.mem_cons] at hs
    rcases hs with h | h
    · exact ⟨.absf a, he, h⟩
    · exact ih he s h
  | app fn a ih =>
    intro s hs
    simp only [FX.toTr, Tr.subs, List.mem_cons] at hs
    rcases hs with h | h
    · exact ⟨.app fn a, he, h⟩
    · exact ih he.2 s h

/-- The features of a kit, each with its own column name. -/
def kitOf (F : FloatText) (G : Fns K) (es : List (String × FX K)) : List (Feat (SCol K)) :=
  es.map (fun p => .single p.1 (p.2.toTr F G))

theorem kitOf_trees (F : FloatText) (G : Fns K) (S : List (Leaf (SCol K))) (es : List (String × FX K))
    (hg : ∀ p ∈ es, p.2.Good S) : ∀ s ∈ allTrees (kitOf F G es), ∃ e' : FX K, e'.Good S ∧ s = e'.toTr F G := by
  induction es with
  | nil => intro s hs; simp [kitOf, allTrees] at hs
  | cons p es ih =>
    intro s hs
    have hs' : s ∈ (p.2.toTr F G).subs ++ allTrees (kitOf F G es) := hs
    rcases List.mem_append.mp hs' with h | h
    · exact toTr_subs F G S p.2 (hg p (by simp)) s h
    · exact ih (fun q hq => hg q (by simp [hq])) s h

theorem kitOf_multi (F : FloatText) (G : Fns K) (es : List (String × FX K)) : multiOuts (kitOf F G es) = [] := by
  induction es with
  | nil => rfl
  | cons p es ih => exact ih

/-- A kit of such features gives every feature the values it has on its own, in every execution order:
the naming discipline that `C45` needs holds automatically.  The data frame may not already contain a
column named like a subexpression, unless it holds its value. -/
theorem C81_kit (F : FloatText) (hF : F.Tidy) (G : Fns K) (S : List (Leaf (SCol K))) (hS : BaseNames F S)
    (d : ColFrame (SCol K)) (hraw : ∀ l ∈ S, ∀ r ∈ l.requires, (d r).isSome)
    (es : List (String × FX K)) (hg : ∀ p ∈ es, p.2.Good S)
    (hd : ∀ s ∈ allTrees (kitOf F G es), ∀ x, d s.output = some x → s.denote d = .ok x)
    (retain : List String) (fs : List (Feat (SCol K))) (hfs : ∀ f ∈ fs, f ∈ kitOf F G es) :
    buildKit d retain fs = match retained d retain with
      | .error e => .error e
      | .ok o => collectAlone d fs o := by
  suffices hc : CleanNames d (kitOf F G es) by
    rw [C45_build_equals_standalone d retain (kitOf F G es) fs hc hfs]
    cases retained d retain <;> rfl
  have ht := kitOf_trees F G S es hg
  refine ⟨?_, ?_, ?_, ?_, ?_⟩
  · intro s hs
    obtain ⟨e, he, rfl⟩ := ht s hs
    cases e with
    | atom l => exact hraw l he
    | _ => exact trivial
  · intro s hs
    refine ⟨fun x hx => hd s hs x hx, ?_, by rw [kitOf_multi]; simp⟩
    intro s' hs' ho
    obtain ⟨e, he, rfl⟩ := ht s hs
    obtain ⟨e', he', rfl⟩ := ht s' hs'
    rw [toTr_output, toTr_output] at ho
    have := String.ofList_injective ho
    rw [C81_names_identify F hF S hS e' e he' he this]
  · intro f r h
    obtain ⟨e, he, h'⟩ := ht _ h
    cases e <;> cases h'
  · intro l rq outs run h
    simp [kitOf] at h
  · intro n hn
    rw [kitOf_multi] at hn
    cases hn

/-! ### Where names do not identify the feature -/

/-- `ema(span)` and `ema(span, adjust=False)` of one feature have the same name, as have two different
functions applied with one suffix (all lambdas are called `<lambda>`). -/
theorem C81_shared_names (F : FloatText) (t : FX K) (s : Int) (suffix : List Char) (i j : Nat) :
    (FX.app (.ema s true) t).name F = (FX.app (.ema s false) t).name F ∧
    (FX.app (.custom suffix i) t).name F = (FX.app (.custom suffix j) t).name F := ⟨rfl, rfl⟩

/-- In a kit, a later feature whose transform has the same name as an earlier one receives the values of
the earlier one, whatever it computes. -/
theorem C81_second_gets_first (d : ColFrame (SCol K)) (retain : List String) (n1 n2 : String) (hn : n1 ≠ n2)
    (t1 t2 : Tr (SCol K)) (h : t1.output = t2.output) (out : ColFrame (SCol K))
    (hb : buildKit d retain [.single n1 t1, .single n2 t2] = .ok out) : out n2 = out n1 ∧ (out n1).isSome := by
  unfold buildKit at hb
  cases hr : retained d retain with
  | error e => rw [hr] at hb; cases hb
  | ok o =>
    rw [hr] at hb
    simp only [buildLoop, Feat.results] at hb
    cases hf : featureCall d t1 with
    | error e => rw [hf] at hb; cases hb
    | ok x =>
      rw [hf] at hb
      simp only [KitState.store, List.foldl_cons, List.foldl_nil] at hb
      have h2 : featureCall (ColFrame.set d t1.output x) t2 = .ok x := by
        unfold featureCall cachedOr
        rw [← h]
        simp [ColFrame.set]
      rw [h2] at hb
      simp only [Except.ok.injEq] at hb
      subst hb
      simp [ColFrame.set, hn]

/-- The price column of the demonstration. -/
def emaFrame : ColFrame (SCol ℚ) := fun n => if n = "a" then some [.fin 2, .fin 4, .fin 5] else none

/-- Violation: a kit with the adjusted and, under another column name, the unadjusted average of one price
reports the adjusted values twice; on its own the unadjusted average is different. -/
theorem C81_ema_mixup :
    ((buildKit emaFrame [] [.single "adj" ((FX.app (.ema 3 true) (.atom (demoCol "a"))).toTr demoText demoFns),
        .single "raw" ((FX.app (.ema 3 false) (.atom (demoCol "a"))).toTr demoText demoFns)]).map fun o => (o "adj", o "raw"))
      = .ok (some [.fin 2, .fin (10/3), .fin (30/7)], some [.fin 2, .fin (10/3), .fin (30/7)]) ∧
    ((FX.app (.ema 3 false) (.atom (demoCol "a"))).toTr demoText demoFns).eval emaFrame = .ok [.fin 2, .fin 3, .fin 4] := by
  decide +kernel

/-! ### Examples -/

/-- A tidy printing of rationals: numerator, slash, denominator. -/
def ratText : FloatText :=
  ⟨fun q => intText q.num ++ '/' :: intText q.den, fun s =>
    match parseInt (s.takeWhile (· ≠ '/')), parseInt ((s.dropWhile (· ≠ '/')).drop 1) with
    | some a, some b => some ((a : Rat) / b)
    | _, _ => none⟩

theorem intText_no_slash (z : Int) : '/' ∉ intText z := by
  intro h
  have key : ∀ d : Fin 10, Char.ofNat (48 + d.val) ≠ '/' := by decide +kernel
  rcases intText_digits z _ h with h' | ⟨d, h'⟩
  · revert h'; decide
  · exact key d h'.symm

theorem ratText_tidy : ratText.Tidy where
  read := by
    intro q
    have h1 : (intText q.num ++ '/' :: intText q.den).takeWhile (· ≠ '/') = intText q.num := by
      rw [List.takeWhile_append_of_pos]
      · simp
      · intro c hc
        have := intText_no_slash q.num
        simp only [ne_eq, decide_not, Bool.not_eq_eq_eq_not, Bool.not_true, decide_eq_false_iff_not]
        rintro rfl
        exact this hc
    have h2 : (intText q.num ++ '/' :: intText q.den).dropWhile (· ≠ '/') = '/' :: intText q.den := by
      rw [List.dropWhile_append_of_pos]
      · simp
      · intro c hc
        have := intText_no_slash q.num
        simp only [ne_eq, decide_not, Bool.not_eq_eq_eq_not, Bool.not_true, decide_eq_false_iff_not]
        rintro rfl
        exact this hc
    simp only [ratText]
    rw [h1, h2, List.drop_one, List.tail_cons, parseInt_intText, parseInt_intText]
    simp only [Int.cast_natCast, Option.some.injEq]
    exact Rat.num_div_den q
  nonempty := by intro q; simp [ratText]
  noUnderscore := by
    intro q
    have := fun z => intText_not z '_' (by simp)
    simp [ratText, this]
  plain := by
    intro q
    have a := fun z => intText_not z '(' (by simp)
    have b := fun z => intText_not z ')' (by simp)
    have c := fun z => intText_not z ',' (by simp)
    simp [ratText, Plain, a, b, c]

/-- Non-vacuity: two price columns satisfy the discipline, and the names are the expected ones. -/
example : BaseNames ratText [demoCol "a", demoCol "b"] := by
  apply C81_simple_columns ratText ratText_tidy
  · simp [demoCol, Leaf.output, Plain]
  · simp [demoCol, Leaf.output]
  · intro x hx y hy h
    simp only [List.mem_cons, List.not_mem_nil, or_false] at hx hy
    rcases hx with rfl | rfl <;> rcases hy with rfl | rfl <;> first | rfl | (exfalso; revert h; decide)
  · intro x hx c h
    have hm : '/' ∈ ratText.text c := by simp [ratText]
    rw [h] at hm
    revert hm
    simp only [List.mem_cons, List.not_mem_nil, or_false] at hx
    rcases hx with rfl | rfl <;> decide

example : (FX.app (.clip none (some 2)) (FX.cst .rsub 3 (.bin .div (.atom (demoCol "a")) (.atom (demoCol "b"))))).name ratText
    = "rsub(div(a,b),3/1)_clip__2/1".toList := by decide +kernel

end FinML
