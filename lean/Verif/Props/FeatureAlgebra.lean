/-
C80: expressions built with `Feature`'s operators and methods mean what they say, row by row.
-/
import Verif.Model.FeatureAlgebra
import Verif.Lemmas.Indicators
import Verif.Props.PandasRolling
import Verif.Props.FeatureKit
import Mathlib.Algebra.Order.Field.Rat
import Mathlib.Tactic.Linarith
import Mathlib.Tactic.FieldSimp
import Mathlib.Tactic.Ring
import Mathlib.Tactic.Positivity

set_option linter.unusedSectionVars false

namespace FinML

variable {K : Type} [Field K] [LinearOrder K] [IsStrictOrderedRing K]

/-! ### The meaning of an expression, row by row -/

/-- A function of the last `w` rows, defined when all of them are finite. -/
def winSpec (w : Nat) (f : List K → Option K) (r : Nat → Ext K) (i : Nat) : Ext K :=
  if i + 1 < w then .nan
  else if (List.range' (i + 1 - w) w).all (fun j => (r j).toOption.isSome) then
    .ofOption (f ((List.range' (i + 1 - w) w).map (fun j => (r j).toOption.getD 0)))
  else .nan

/-- A `Feature` method, row by row: `r` are the rows of the argument, `n` is their number. -/
def fnRow (G : Fns K) (n : Nat) (r : Nat → Ext K) : UFn → Nat → Ext K
  | .abs, i => (r i).abs
  | .log, i => if (r i).isPos then (r i).lift G.log else .nan
  | .log1p, i => if (r i).isNonneg then (r i).lift G.log1p else .nan
  | .exp, i => (r i).exp G.exp
  | .square, i => (r i).square
  | .sqrt, i => if (r i).isNonneg then (r i).lift G.sqrt else .nan
  | .clip lo hi, i => clipRow (lo.map (fun q : Rat => (q : K))) (hi.map (fun q : Rat => (q : K))) (r i)
  | .rmean w, i => winSpec w.toNat (fun l => some (l.sum / (w.toNat : K))) r i
  | .rstd w, i => winSpec w.toNat (fun l => if w.toNat ≤ 1 then none else
      some (G.sqrt ((l.map (fun x => (x - l.sum / (w.toNat : K)) ^ 2)).sum / ((w.toNat : K) - 1)))) r i
  | .rsum w, i => winSpec w.toNat (fun l => some l.sum) r i
  | .ema s adjust, i => .ofOption ((pdEwm adjust s.toNat (tabulate n (fun j => (r j).toOption))).getD i none)
  | .lag p, i => if 0 ≤ (i : Int) - p ∧ (i : Int) - p < n then r ((i : Int) - p).toNat else .nan
  | .custom _ k, i => (G.custom k (tabulate n r)).getD i .nan

/-- The rows of an expression. -/
def FX.row (G : Fns K) (d : ColFrame (SCol K)) (n : Nat) : FX K → Nat → Ext K
  | .atom l, i => match evalLeaf d l with
    | .ok c => c.getD i .nan
    | .error _ => .nan
  | .bin .add a b, i => (a.row G d n i).add (b.row G d n i)
  | .bin .sub a b, i => (a.row G d n i).sub (b.row G d n i)
  | .bin .mul a b, i => (a.row G d n i).mul (b.row G d n i)
  | .bin .div a b, i => (a.row G d n i).div (b.row G d n i)
  | .bin .min a b, i => (a.row G d n i).min (b.row G d n i)
  | .bin .max a b, i => (a.row G d n i).max (b.row G d n i)
  | .cst .add c a, i => (a.row G d n i).add (.fin c)
  | .cst .sub c a, i => (a.row G d n i).sub (.fin c)
  | .cst .mul c a, i => (a.row G d n i).mul (.fin c)
  | .cst .div c a, i => (a.row G d n i).div (.fin c)
  | .cst .rsub c a, i => (Ext.fin (c : K)).sub (a.row G d n i)
  | .cst .rdiv c a, i => (Ext.fin (c : K)).div (a.row G d n i)
  | .cst .min c a, i => (a.row G d n i).min (.fin c)
  | .cst .max c a, i => (a.row G d n i).max (.fin c)
  | .absf a, i => (a.row G d n i).abs
  | .app fn a, i => fnRow G n (a.row G d n) fn i

/-- The base transforms of an expression. -/
def FX.atoms : FX K → List (Leaf (SCol K))
  | .atom l => [l]
  | .bin _ a b => a.atoms ++ b.atoms
  | .cst _ _ a => a.atoms
  | .absf a => a.atoms
  | .app _ a => a.atoms

theorem eq_tabulate {β : Type} (xs : List β) (b : β) : xs = tabulate xs.length (fun i => xs.getD i b) := by
  apply List.ext_getElem?
  intro i
  rw [tabulate_get?]
  split
  · rename_i h
    rw [List.getD_eq_getElem _ _ h, List.getElem?_eq_getElem h]
  · rename_i h
    rw [List.getElem?_eq_none (by omega)]

theorem map_tabulate {β γ : Type} (f : β → γ) (n : Nat) (g : Nat → β) :
    (tabulate n g).map f = tabulate n (fun i => f (g i)) := by
  unfold tabulate; rw [List.map_map]; rfl

theorem zipWith_tabulate {β γ δ : Type} (f : β → γ → δ) (n : Nat) (g : Nat → β) (h : Nat → γ) :
    List.zipWith f (tabulate n g) (tabulate n h) = tabulate n (fun i => f (g i) (h i)) := by
  apply List.ext_getElem?
  intro i
  rw [List.getElem?_zipWith, tabulate_get?, tabulate_get?, tabulate_get?]
  by_cases hi : i < n
  · simp [hi]
  · simp [hi]

theorem pdEwmGo_length (adjust : Bool) (α : K) (xs : List (Option K)) :
    ∀ s, (pdEwmGo adjust α s xs).length = xs.length := by
  induction xs with
  | nil => intro s; rfl
  | cons x xs ih => intro s; simp [pdEwmGo, ih]

theorem shiftCol_tabulate (p : Int) (n : Nat) (r : Nat → Ext K) :
    shiftCol p (tabulate n r) =
      tabulate n (fun i => if 0 ≤ (i : Int) - p ∧ (i : Int) - p < n then r ((i : Int) - p).toNat else .nan) := by
  unfold shiftCol
  rw [length_tabulate]
  apply tabulate_congr
  intro i hi
  by_cases h1 : (i : Int) - p < 0
  · rw [if_pos h1, if_neg (by omega)]
  · rw [if_neg h1]
    by_cases h2 : (i : Int) - p < n
    · rw [if_pos ⟨by omega, h2⟩, tabulate_getD _ _ _ _ (by omega)]
    · rw [if_neg (by omega), List.getD_eq_getElem?_getD, List.getElem?_eq_none (by rw [length_tabulate]; omega)]
      rfl

theorem windowed_tabulate (w : Nat) (f g : List K → Option K) (hfg : ∀ l, l.length = w → f l = g l) (n : Nat)
    (r : Nat → Ext K) : windowed w f (tabulate n r) = tabulate n (winSpec w g r) := by
  unfold windowed pdRolling rolling
  rw [map_tabulate, map_tabulate, length_tabulate]
  apply tabulate_congr
  intro i hi
  unfold winSpec
  by_cases h1 : i + 1 < w
  · rw [if_pos h1, if_pos h1]; rfl
  · rw [if_neg h1, if_neg h1]
    have hw : window (tabulate n fun i => (r i).toOption) w i
        = (List.range' (i + 1 - w) w).map (fun j => (r j).toOption) := by
      rw [window_eq_map _ none w i (by rw [length_tabulate]; exact hi) (by omega)]
      apply List.map_congr_left
      intro j hj
      rw [List.mem_range'_1] at hj
      exact tabulate_getD _ _ _ _ (by omega)
    rw [hw]
    dsimp only
    by_cases h2 : (List.range' (i + 1 - w) w).all (fun j => (r j).toOption.isSome)
    · rw [if_pos h2]
      rw [List.all_eq_true] at h2
      have : (List.range' (i + 1 - w) w).map (fun j => (r j).toOption)
          = ((List.range' (i + 1 - w) w).map (fun j => (r j).toOption.getD 0)).map some := by
        rw [List.map_map]
        apply List.map_congr_left
        intro j hj
        obtain ⟨v, hv⟩ := Option.isSome_iff_exists.mp (h2 j hj)
        simp [hv]
      rw [(allSome_eq_some _ _).mpr this, Option.bind_some, hfg _ (by simp)]
    · rw [if_neg h2]
      cases ha : allSome ((List.range' (i + 1 - w) w).map (fun j => (r j).toOption)) with
      | none => rfl
      | some v =>
        exfalso
        apply h2
        rw [List.all_eq_true]
        intro j hj
        rw [allSome_eq_some] at ha
        have hm : (r j).toOption ∈ (List.range' (i + 1 - w) w).map (fun j => (r j).toOption) :=
          List.mem_map.mpr ⟨j, hj, rfl⟩
        rw [ha] at hm
        obtain ⟨x, _, hx⟩ := List.mem_map.mp hm
        rw [← hx]; rfl

theorem unaryCol_tabulate (G : Fns K) (hG : ∀ k c, (G.custom k c).length = c.length) (fn : UFn) (n : Nat)
    (r : Nat → Ext K) : unaryCol G fn (tabulate n r) = tabulate n (fnRow G n r fn) := by
  cases fn with
  | abs => exact map_tabulate _ _ _
  | log => exact map_tabulate _ _ _
  | log1p => exact map_tabulate _ _ _
  | exp => exact map_tabulate _ _ _
  | square => exact map_tabulate _ _ _
  | sqrt => exact map_tabulate _ _ _
  | clip lo hi => exact map_tabulate _ _ _
  | rmean w =>
    exact windowed_tabulate w.toNat (fun l => some (l.sum / (l.length : K))) (fun l => some (l.sum / (w.toNat : K)))
      (fun l hl => by rw [hl]) n r
  | rstd w =>
    exact windowed_tabulate w.toNat (stdWin G.sqrt) (fun l => if w.toNat ≤ 1 then none else
      some (G.sqrt ((l.map (fun x => (x - l.sum / (w.toNat : K)) ^ 2)).sum / ((w.toNat : K) - 1))))
      (fun l hl => by unfold stdWin; rw [hl]) n r
  | rsum w => exact windowed_tabulate w.toNat (fun l => some l.sum) (fun l => some l.sum) (fun l hl => rfl) n r
  | ema s a =>
    show ((pdEwm a s.toNat ((tabulate n r).map Ext.toOption)).map Ext.ofOption) = _
    rw [map_tabulate]
    generalize hy : pdEwm a s.toNat (tabulate n fun i => (r i).toOption) = ys
    have hl : ys.length = n := by
      rw [← hy]; unfold pdEwm; rw [pdEwmGo_length, length_tabulate]
    rw [eq_tabulate ys none, map_tabulate, hl]
    apply tabulate_congr
    intro i hi
    show _ = Ext.ofOption ((pdEwm a s.toNat (tabulate n fun j => (r j).toOption)).getD i none)
    rw [hy]
  | lag p => exact shiftCol_tabulate p n r
  | custom s k =>
    show G.custom k (tabulate n r) = _
    have hl : (G.custom k (tabulate n r)).length = n := by rw [hG, length_tabulate]
    rw [eq_tabulate (G.custom k (tabulate n r)) .nan, hl]
    rfl

/-- Every expression computes its rows.  `hl` says that the base transforms deliver columns with `n`
rows, `hG` that user functions keep the length. -/
theorem C80_rows (F : FloatText) (G : Fns K) (hG : ∀ k c, (G.custom k c).length = c.length)
    (d : ColFrame (SCol K)) (n : Nat) (e : FX K)
    (hl : ∀ l ∈ e.atoms, ∃ c, evalLeaf d l = .ok c ∧ c.length = n) :
    (e.toTr F G).denote d = .ok (tabulate n (e.row G d n)) := by
  induction e with
  | atom l =>
    obtain ⟨c, hc, hn⟩ := hl l (by simp [FX.atoms])
    show evalLeaf d l = _
    rw [hc]
    conv_lhs => rw [eq_tabulate c .nan, hn]
    congr 1
    apply tabulate_congr
    intro i hi
    simp only [FX.row, hc]
  | bin op a b iha ihb =>
    have h1 := iha (fun l h => hl l (by simp [FX.atoms, h]))
    have h2 := ihb (fun l h => hl l (by simp [FX.atoms, h]))
    simp only [FX.toTr, Tr.denote, h1, h2]
    rw [zipWith_tabulate]
    cases op <;> rfl
  | cst op c a ih =>
    have h1 := ih (fun l h => hl l (by simpa [FX.atoms] using h))
    simp only [FX.toTr, Tr.denote, h1]
    rw [map_tabulate]
    cases op <;> rfl
  | absf a ih =>
    have h1 := ih (fun l h => hl l (by simpa [FX.atoms] using h))
    simp only [FX.toTr, Tr.denote, h1]
    congr 1
    exact map_tabulate _ _ _
  | app fn a ih =>
    have h1 := ih (fun l h => hl l (by simpa [FX.atoms] using h))
    simp only [FX.toTr, Tr.denote, h1]
    rw [unaryCol_tabulate G hG]
    rfl

/-- Calling the feature on a data frame gives these rows, provided no column of the data frame has
the name of a subexpression, except for columns that hold its value. -/
theorem C80_call (F : FloatText) (G : Fns K) (d : ColFrame (SCol K)) (e : FX K)
    (hd : ∀ s ∈ (e.toTr F G).subs, ∀ x, d s.output = some x → s.denote d = .ok x) :
    (e.toTr F G).eval d = (e.toTr F G).denote d ∧ featureCall d (e.toTr F G) = (e.toTr F G).denote d := by
  have key : ∀ (t : Tr (SCol K)) (r : Except String (SCol K)), (∀ x, d t.output = some x → t.denote d = .ok x) →
      r = t.denote d → cachedOr d t.output r = t.denote d := by
    intro t r h hr
    unfold cachedOr
    split
    · rename_i x hx; exact (h x hx).symm
    · exact hr
  have main : (e.toTr F G).eval d = (e.toTr F G).denote d := by
    induction e with
    | atom l => rfl
    | bin op a b iha ihb =>
      have h1 := iha (fun s hs => hd s (by simp [FX.toTr, Tr.subs, hs]))
      have h2 := ihb (fun s hs => hd s (by simp [FX.toTr, Tr.subs, hs]))
      have k1 := key (a.toTr F G) _ (hd _ (by simp [FX.toTr, Tr.subs, subs_self])) h1
      have k2 := key (b.toTr F G) _ (hd _ (by simp [FX.toTr, Tr.subs, subs_self])) h2
      have k3 := key ((FX.bin op a b).toTr F G) ((FX.bin op a b).toTr F G |>.denote d) (hd _ (subs_self _)) rfl
      simp only [FX.toTr, Tr.eval, k1, k2]
      exact k3
    | cst op c a ih =>
      have h1 := ih (fun s hs => hd s (by simp [FX.toTr, Tr.subs, hs]))
      have k1 := key (a.toTr F G) _ (hd _ (by simp [FX.toTr, Tr.subs, subs_self])) h1
      have k3 := key ((FX.cst op c a).toTr F G) ((FX.cst op c a).toTr F G |>.denote d) (hd _ (subs_self _)) rfl
      simp only [FX.toTr, Tr.eval, k1]
      exact k3
    | absf a ih =>
      have h1 := ih (fun s hs => hd s (by simp [FX.toTr, Tr.subs, hs]))
      have k1 := key (a.toTr F G) _ (hd _ (by simp [FX.toTr, Tr.subs, subs_self])) h1
      have k3 := key ((FX.absf a).toTr F G) ((FX.absf a).toTr F G |>.denote d) (hd _ (subs_self _)) rfl
      simp only [FX.toTr, Tr.eval, k1]
      exact k3
    | app fn a ih =>
      have h1 := ih (fun s hs => hd s (by simp [FX.toTr, Tr.subs, hs]))
      have k1 := key (a.toTr F G) _ (hd _ (by simp [FX.toTr, Tr.subs, subs_self])) h1
      have k3 := key ((FX.app fn a).toTr F G) ((FX.app fn a).toTr F G |>.denote d) (hd _ (subs_self _)) rfl
      simp only [FX.toTr, Tr.eval, k1]
      exact k3
  refine ⟨main, ?_⟩
  exact key _ _ (hd _ (subs_self _)) main

/-! ### Python operators, in both operand orders -/

/-- The rows of an operand; a number is the same on every row. -/
def Operand.row (G : Fns K) (d : ColFrame (SCol K)) (n : Nat) : Operand K → Nat → Ext K
  | .feat t, i => t.row G d n i
  | .num c, _ => .fin c

theorem ext_add_comm (a b : Ext K) : a.add b = b.add a := by
  cases a <;> cases b <;> simp [Ext.add, add_comm]

theorem ext_mul_comm (a b : Ext K) : a.mul b = b.mul a := by
  cases a <;> cases b <;> simp [Ext.mul, Ext.scale, Ext.neg, mul_comm]

theorem ext_min_comm (a b : Ext K) : a.min b = b.min a := by
  cases a <;> cases b <;> simp [Ext.min, Ext.le]
  rename_i x y
  rcases lt_trichotomy x y with h | h | h
  · simp [h.le, not_le.mpr h]
  · simp [h]
  · simp [h.le, not_le.mpr h]

theorem ext_max_comm (a b : Ext K) : a.max b = b.max a := by
  cases a <;> cases b <;> simp [Ext.max, Ext.le]
  rename_i x y
  rcases lt_trichotomy x y with h | h | h
  · simp [h.le, not_le.mpr h]
  · simp [h]
  · simp [h.le, not_le.mpr h]

/-- `+`, `-`, `*`, `/`, `Feature.min` and `Feature.max` combine their operands row by row, in the written
order, for features and numbers on either side. -/
theorem C80_operators (G : Fns K) (d : ColFrame (SCol K)) (n i : Nat) (x y : Operand K) (e : FX K) :
    (pyAdd x y = some e → e.row G d n i = (x.row G d n i).add (y.row G d n i)) ∧
    (pySub x y = some e → e.row G d n i = (x.row G d n i).sub (y.row G d n i)) ∧
    (pyMul x y = some e → e.row G d n i = (x.row G d n i).mul (y.row G d n i)) ∧
    (pyDiv x y = some e → e.row G d n i = (x.row G d n i).div (y.row G d n i)) ∧
    (featMin x y = some e → e.row G d n i = (x.row G d n i).min (y.row G d n i)) ∧
    (featMax x y = some e → e.row G d n i = (x.row G d n i).max (y.row G d n i)) := by
  refine ⟨?_, ?_, ?_, ?_, ?_, ?_⟩
  · intro h
    cases x <;> cases y <;> simp only [pyAdd, Option.some.injEq, reduceCtorEq] at h <;> subst h
    · rfl
    · rfl
    · exact ext_add_comm _ _
  · intro h
    cases x <;> cases y <;> simp only [pySub, Option.some.injEq, reduceCtorEq] at h <;> subst h <;> rfl
  · intro h
    cases x <;> cases y <;> simp only [pyMul, Option.some.injEq, reduceCtorEq] at h <;> subst h
    · rfl
    · rfl
    · exact ext_mul_comm _ _
  · intro h
    cases x <;> cases y <;> simp only [pyDiv, Option.some.injEq, reduceCtorEq] at h <;> subst h <;> rfl
  · intro h
    cases x <;> cases y <;> simp only [featMin, Option.some.injEq, reduceCtorEq] at h <;> subst h
    · rfl
    · rfl
    · exact ext_min_comm _ _
  · intro h
    cases x <;> cases y <;> simp only [featMax, Option.some.injEq, reduceCtorEq] at h <;> subst h
    · rfl
    · rfl
    · exact ext_max_comm _ _

/-- The operators accept every pair with at least one feature. -/
theorem C80_operators_accept (x y : Operand K) (h : ¬ ∃ a b, x = .num a ∧ y = .num b) :
    (pyAdd x y).isSome ∧ (pySub x y).isSome ∧ (pyMul x y).isSome ∧ (pyDiv x y).isSome ∧
    (featMin x y).isSome ∧ (featMax x y).isSome := by
  cases x with
  | feat a => cases y <;> simp [pyAdd, pySub, pyMul, pyDiv, featMin, featMax]
  | num a =>
    cases y with
    | feat b => simp [pyAdd, pySub, pyMul, pyDiv, featMin, featMax]
    | num b => exact absurd ⟨a, b, rfl, rfl⟩ h

example : ¬ ∃ a b : ℚ, (Operand.num 3 : Operand ℚ) = .num a ∧ (Operand.feat (.atom ⟨true, ["a"], "x", fun xs => .ok (xs.headD [])⟩) : Operand ℚ) = .num b := by
  rintro ⟨a, b, -, h⟩; cases h

/-- On finite rows the operations are those of the field and of its order. -/
theorem C80_finite (x y : K) :
    (Ext.fin x).add (.fin y) = .fin (x + y) ∧ (Ext.fin x).sub (.fin y) = .fin (x - y) ∧
    (Ext.fin x).mul (.fin y) = .fin (x * y) ∧ (y ≠ 0 → (Ext.fin x).div (.fin y) = .fin (x / y)) ∧
    (Ext.fin x).min (.fin y) = .fin (min x y) ∧ (Ext.fin x).max (.fin y) = .fin (max x y) ∧
    (Ext.fin x).abs = .fin |x| ∧ (Ext.fin x).square = .fin (x * x) := by
  refine ⟨rfl, ?_, rfl, fun h => by simp [Ext.div, h], ?_, ?_, rfl, by simp [Ext.square, pow_two]⟩
  · simp [Ext.sub, Ext.neg, Ext.add, sub_eq_add_neg]
  · by_cases h : x ≤ y <;> simp [Ext.min, Ext.le, h]
    exact (not_le.mp h).le
  · by_cases h : x ≤ y <;> simp [Ext.max, Ext.le, h]
    exact (not_le.mp h).le

/-- NaN on either side gives NaN. -/
theorem C80_nan (a : Ext K) :
    a.add .nan = .nan ∧ (Ext.nan : Ext K).add a = .nan ∧ a.sub .nan = .nan ∧ (Ext.nan : Ext K).sub a = .nan ∧
    a.mul .nan = .nan ∧ (Ext.nan : Ext K).mul a = .nan ∧ a.div .nan = .nan ∧ (Ext.nan : Ext K).div a = .nan ∧
    a.min .nan = .nan ∧ (Ext.nan : Ext K).min a = .nan ∧ a.max .nan = .nan ∧ (Ext.nan : Ext K).max a = .nan := by
  cases a <;> simp [Ext.add, Ext.sub, Ext.neg, Ext.mul, Ext.scale, Ext.div, Ext.min, Ext.max]

/-- Division by zero gives the signed infinity, or NaN for `0/0`. -/
theorem C80_div_zero (x : K) :
    (0 < x → (Ext.fin x).div (.fin 0) = .pinf) ∧ (x < 0 → (Ext.fin x).div (.fin 0) = .ninf) ∧
    (Ext.fin (0 : K)).div (.fin 0) = .nan := by
  refine ⟨fun h => by simp [Ext.div, h], fun h => ?_, by simp [Ext.div]⟩
  simp [Ext.div, h, not_lt.mpr h.le]

/-! ### Methods -/

/-- `clip` keeps a value inside the bounds, and moves a value outside to the nearer bound.  Bounds in the
wrong order are exchanged. -/
theorem C80_clip (lo hi v : K) :
    clipRow (some lo) (some hi) (.fin v) = .fin (max (min lo hi) (min v (max lo hi))) ∧
    clipRow (some lo) none (.fin v) = .fin (max v lo) ∧ clipRow none (some hi) (.fin v) = .fin (min v hi) ∧
    clipRow none none (.fin v) = .fin v ∧ ∀ a b : Option K, clipRow a b .nan = .nan := by
  obtain ⟨_, _, _, _, hmin, hmax, _⟩ := C80_finite v lo
  refine ⟨?_, ?_, ?_, rfl, ?_⟩
  · unfold clipRow
    simp only []
    rw [(C80_finite v (min lo hi)).2.2.2.2.2.1, (C80_finite _ (max lo hi)).2.2.2.2.1]
    congr 1
    have h : min lo hi ≤ max lo hi := le_trans (min_le_left _ _) (le_max_left _ _)
    generalize min lo hi = a at *
    generalize max lo hi = b at *
    rw [min_max_distrib_right, min_eq_left h, max_comm]
  · exact (C80_finite v lo).2.2.2.2.2.1
  · exact (C80_finite v hi).2.2.2.2.1
  · intro a b
    cases a <;> cases b <;> simp [clipRow, Ext.min, Ext.max]

/-- `log`, `log1p` and `sqrt` give NaN exactly outside their domain. -/
theorem C80_domains (G : Fns K) (n i : Nat) (r : Nat → Ext K) (x : K) (hx : r i = .fin x) :
    fnRow G n r .log i = (if 0 < x then .fin (G.log x) else .nan) ∧
    fnRow G n r .log1p i = (if 0 ≤ x then .fin (G.log1p x) else .nan) ∧
    fnRow G n r .sqrt i = (if 0 ≤ x then .fin (G.sqrt x) else .nan) := by
  simp [fnRow, hx, Ext.isPos, Ext.isNonneg, Ext.lift]

example : (fun _ : Nat => (Ext.fin (4 : ℚ))) 2 = .fin 4 := rfl

/-- At the infinities and at NaN: `log`, `log1p` and `sqrt` keep `+∞` and give NaN for `-∞`; `exp` maps `-∞` to zero;
NaN stays NaN everywhere. -/
theorem C80_domains_infinite (G : Fns K) (n i : Nat) (r : Nat → Ext K) :
    (r i = .pinf → fnRow G n r .log i = .pinf ∧ fnRow G n r .log1p i = .pinf ∧ fnRow G n r .sqrt i = .pinf ∧
      fnRow G n r .exp i = .pinf ∧ fnRow G n r .square i = .pinf ∧ fnRow G n r .abs i = .pinf) ∧
    (r i = .ninf → fnRow G n r .log i = .nan ∧ fnRow G n r .log1p i = .nan ∧ fnRow G n r .sqrt i = .nan ∧
      fnRow G n r .exp i = .fin 0 ∧ fnRow G n r .square i = .pinf ∧ fnRow G n r .abs i = .pinf) ∧
    (r i = .nan → fnRow G n r .log i = .nan ∧ fnRow G n r .log1p i = .nan ∧ fnRow G n r .sqrt i = .nan ∧
      fnRow G n r .exp i = .nan ∧ fnRow G n r .square i = .nan ∧ fnRow G n r .abs i = .nan) ∧
    (∀ x, r i = .fin x → fnRow G n r .exp i = .fin (G.exp x)) := by
  refine ⟨fun h => ?_, fun h => ?_, fun h => ?_, fun x h => ?_⟩ <;>
    simp [fnRow, h, Ext.isPos, Ext.isNonneg, Ext.lift, Ext.exp, Ext.square, Ext.abs]

/-- Infinite operands.  Opposite infinities add to NaN, zero times an infinity is NaN, a finite number over an infinity
is zero, an infinity over an infinity is NaN; the infinities bound every number from both sides. -/
theorem C80_infinite (x : K) :
    (Ext.pinf : Ext K).add .ninf = .nan ∧ (Ext.ninf : Ext K).add .pinf = .nan ∧
    (Ext.pinf : Ext K).add .pinf = .pinf ∧ (Ext.ninf : Ext K).add .ninf = .ninf ∧
    (Ext.pinf : Ext K).sub .pinf = .nan ∧ (Ext.ninf : Ext K).sub .ninf = .nan ∧
    (Ext.fin x).add .pinf = .pinf ∧ (Ext.fin x).add .ninf = .ninf ∧ (Ext.fin x).sub .pinf = .ninf ∧
    (Ext.fin x).sub .ninf = .pinf ∧
    (0 < x → (Ext.fin x).mul .pinf = .pinf ∧ (Ext.fin x).mul .ninf = .ninf ∧
      (Ext.pinf : Ext K).div (.fin x) = .pinf ∧ (Ext.ninf : Ext K).div (.fin x) = .ninf) ∧
    (x < 0 → (Ext.fin x).mul .pinf = .ninf ∧ (Ext.fin x).mul .ninf = .pinf ∧
      (Ext.pinf : Ext K).div (.fin x) = .ninf ∧ (Ext.ninf : Ext K).div (.fin x) = .pinf) ∧
    ((Ext.fin (0 : K)).mul .pinf = .nan ∧ (Ext.fin (0 : K)).mul .ninf = .nan) ∧
    ((Ext.pinf : Ext K).mul .pinf = .pinf ∧ (Ext.pinf : Ext K).mul .ninf = .ninf ∧
      (Ext.ninf : Ext K).mul .pinf = .ninf ∧ (Ext.ninf : Ext K).mul .ninf = .pinf) ∧
    ((Ext.fin x).div .pinf = .fin 0 ∧ (Ext.fin x).div .ninf = .fin 0) ∧
    ((Ext.pinf : Ext K).div .pinf = .nan ∧ (Ext.pinf : Ext K).div .ninf = .nan ∧
      (Ext.ninf : Ext K).div .pinf = .nan ∧ (Ext.ninf : Ext K).div .ninf = .nan) ∧
    ∀ a : Ext K, a ≠ .nan → a.min .pinf = a ∧ a.max .pinf = .pinf ∧ a.min .ninf = .ninf ∧ a.max .ninf = a := by
  refine ⟨rfl, rfl, rfl, rfl, rfl, rfl, rfl, rfl, rfl, rfl, ?_, ?_, ?_, ⟨rfl, rfl, rfl, rfl⟩, ⟨rfl, rfl⟩,
    ⟨rfl, rfl, rfl, rfl⟩, ?_⟩
  · intro h
    simp [Ext.mul, Ext.scale, Ext.div, h, not_lt.mpr h.le]
  · intro h
    simp [Ext.mul, Ext.scale, Ext.div, h, not_lt.mpr h.le, Ext.neg]
  · simp [Ext.mul, Ext.scale]
  · intro a ha
    cases a <;> simp_all [Ext.min, Ext.max, Ext.le]

/-- The comparison `a <= b` of pandas: false as soon as one side is NaN, otherwise the order with the infinities at the
ends. -/
theorem C80_comparison (a b : Ext K) :
    (a = .nan ∨ b = .nan → a.le b = false) ∧ (b ≠ .nan → (Ext.ninf : Ext K).le b = true) ∧
    (a ≠ .nan → a.le .pinf = true) ∧ (a.le .ninf = true ↔ a = .ninf) ∧ ((Ext.pinf : Ext K).le b = true ↔ b = .pinf) ∧
    ∀ x y : K, (Ext.fin x).le (.fin y) = true ↔ x ≤ y := by
  refine ⟨?_, ?_, ?_, ?_, ?_, ?_⟩ <;> cases a <;> cases b <;> simp [Ext.le]

/-! ### Exponential averages -/

/-- `∑ β^(age) x` over the observed values. -/
def ewmNum (β : K) (l : List (Option K)) : K :=
  ((List.range l.length).map (fun j => β ^ (l.length - 1 - j) * (l.getD j none).getD 0)).sum

/-- `∑ β^(age)` over the observed values. -/
def ewmDen (β : K) (l : List (Option K)) : K :=
  ((List.range l.length).map (fun j => β ^ (l.length - 1 - j) * (if (l.getD j none).isSome then 1 else 0))).sum

theorem sum_snoc (β : K) (g : Option K → K) (l : List (Option K)) (x : Option K) :
    ((List.range (l ++ [x]).length).map (fun j => β ^ ((l ++ [x]).length - 1 - j) * g ((l ++ [x]).getD j none))).sum
      = β * ((List.range l.length).map (fun j => β ^ (l.length - 1 - j) * g (l.getD j none))).sum + g x := by
  rw [List.length_append, List.length_singleton, List.range_succ, List.map_append, List.sum_append,
    ← List.sum_map_mul_left]
  congr 1
  · congr 1
    apply List.map_congr_left
    intro j hj
    rw [List.mem_range] at hj
    have h1 : (l ++ [x]).getD j none = l.getD j none := by
      rw [List.getD_eq_getElem?_getD, List.getElem?_append_left hj, List.getD_eq_getElem?_getD]
    rw [h1, show l.length + 1 - 1 - j = (l.length - 1 - j) + 1 by omega, pow_succ]
    ring
  · simp

theorem ewmDen_pos (β : K) (hβ : 0 < β) (l : List (Option K)) (x : K) (h : some x ∈ l) : 0 < ewmDen β l := by
  obtain ⟨j, hj, he⟩ := List.getElem_of_mem h
  unfold ewmDen
  apply lt_of_lt_of_le (b := β ^ (l.length - 1 - j))
  · positivity
  · have hm : β ^ (l.length - 1 - j) ∈ (List.range l.length).map
        (fun j => β ^ (l.length - 1 - j) * (if (l.getD j none).isSome then (1 : K) else 0)) := by
      refine List.mem_map.mpr ⟨j, List.mem_range.mpr hj, ?_⟩
      simp only [List.getD_eq_getElem _ _ hj, he]
      simp
    apply List.single_le_sum _ _ hm
    intro y hy
    obtain ⟨k, _, rfl⟩ := List.mem_map.mp hy
    split <;> positivity

/-- The state of the adjusted average after a list of values. -/
theorem ewm_state (α : K) (hα : α < 1) (l : List (Option K)) :
    ((∀ x ∈ l, x = none) → l.foldl (pdEwmStep true α) ⟨none, 1⟩ = ⟨none, 1⟩) ∧
    ((∃ x, some x ∈ l) → l.foldl (pdEwmStep true α) ⟨none, 1⟩
      = ⟨some (ewmNum (1 - α) l / ewmDen (1 - α) l), ewmDen (1 - α) l⟩) := by
  have hβ : 0 < 1 - α := by linarith
  have sn := fun l x => sum_snoc (1 - α) (fun v => v.getD 0) l x
  have sd := fun l x => sum_snoc (1 - α) (fun v => if v.isSome then 1 else 0) l x
  induction l using List.reverseRecOn with
  | nil => exact ⟨fun _ => rfl, fun ⟨x, hx⟩ => absurd hx (by simp)⟩
  | append_singleton l x ih =>
    rw [List.foldl_append, List.foldl_cons, List.foldl_nil]
    have en : ewmNum (1 - α) (l ++ [x]) = (1 - α) * ewmNum (1 - α) l + x.getD 0 := sn l x
    have ed : ewmDen (1 - α) (l ++ [x]) = (1 - α) * ewmDen (1 - α) l + (if x.isSome then 1 else 0) := sd l x
    constructor
    · intro h
      rw [ih.1 (fun y hy => h y (by simp [hy])), h x (by simp)]
      rfl
    · intro h
      by_cases hl : ∃ y, some y ∈ l
      · rw [ih.2 hl, en, ed]
        obtain ⟨y, hy⟩ := hl
        have hd := ewmDen_pos (1 - α) hβ l y hy
        generalize ewmNum (1 - α) l = N at *
        generalize ewmDen (1 - α) l = D at *
        cases x with
        | none =>
          simp only [pdEwmStep, Option.getD_none, Option.isSome_none, add_zero, Bool.false_eq_true, if_false]
          rw [mul_div_mul_left _ _ hβ.ne', mul_comm D]
        | some v =>
          simp only [pdEwmStep, Option.getD_some, Option.isSome_some, if_true]
          have hp : 0 < (1 - α) * D + 1 := by positivity
          have e1 : (D * (1 - α) * (N / D) + 1 * v) / (D * (1 - α) + 1) = ((1 - α) * N + v) / ((1 - α) * D + 1) := by
            have : D * (1 - α) * (N / D) = (1 - α) * N := by field_simp
            rw [this, one_mul, mul_comm D]
          congr 1
          · congr 1
            split
            · rename_i heq
              rw [← heq, eq_div_iff hp.ne']
              field_simp
            · exact e1
          · rw [mul_comm D]
      · have hn : ∀ y ∈ l, y = none := by
          intro y hy
          cases y with
          | none => rfl
          | some v => exact absurd ⟨v, hy⟩ hl
        have z : ∀ g : Option K → K, g none = 0 →
            ((List.range l.length).map (fun j => (1 - α) ^ (l.length - 1 - j) * g (l.getD j none))).sum = 0 := by
          intro g hg
          apply List.sum_eq_zero
          intro y hy
          obtain ⟨j, hj, rfl⟩ := List.mem_map.mp hy
          rw [List.getD_eq_getElem _ _ (List.mem_range.mp hj), hn _ (List.getElem_mem _), hg, mul_zero]
        have zn : ewmNum (1 - α) l = 0 := z (fun v => v.getD 0) rfl
        have zd : ewmDen (1 - α) l = 0 := z (fun v => if v.isSome then 1 else 0) rfl
        rw [ih.1 hn, en, ed, zn, zd]
        obtain ⟨v, hv⟩ := h
        rw [List.mem_append, List.mem_singleton] at hv
        rcases hv with h' | h'
        · exact absurd ⟨v, h'⟩ hl
        · subst h'
          simp [pdEwmStep]

theorem pdEwmGo_get (adjust : Bool) (α : K) (xs : List (Option K)) : ∀ (s : PdEwm K) (i : Nat), i < xs.length →
    (pdEwmGo adjust α s xs).getD i none = ((xs.take (i + 1)).foldl (pdEwmStep adjust α) s).weighted := by
  induction xs with
  | nil => intro s i h; exact absurd h (by simp)
  | cons x xs ih =>
    intro s i h
    cases i with
    | zero => simp [pdEwmGo]
    | succ i =>
      rw [pdEwmGo, List.getD_cons_succ, ih _ i (by simpa using h), List.take_succ_cons, List.foldl_cons]

/-- `ema(span)` (adjusted): the exponentially weighted mean of the values observed so far, with weights by
age in rows; NaN before the first observation. -/
theorem C80_ema_adjusted (span : Nat) (hs : 1 < span) (xs : List (Option K)) (i : Nat) (hi : i < xs.length) :
    ((∃ x : K, some x ∈ xs.take (i + 1)) → (pdEwm true span xs).getD i none =
      some (ewmNum (1 - 2 / ((span : K) + 1)) (xs.take (i + 1)) / ewmDen (1 - 2 / ((span : K) + 1)) (xs.take (i + 1)))) ∧
    ((∀ x ∈ xs.take (i + 1), x = none) → (pdEwm true span xs).getD i none = none) := by
  have hα : 2 / ((span : K) + 1) < 1 := by
    have h1 : (1 : K) < span := by exact_mod_cast hs
    rw [div_lt_one (by linarith)]
    linarith
  unfold pdEwm
  rw [pdEwmGo_get _ _ _ _ _ hi]
  obtain ⟨h1, h2⟩ := ewm_state (2 / ((span : K) + 1)) hα (xs.take (i + 1))
  exact ⟨fun h => by rw [h2 h], fun h => by rw [h1 h]⟩

example : pdEwm true 3 ([none, some 1, some 4] : List (Option ℚ)) = [none, some 1, some 3] := by decide +kernel

/-- `ema(span, adjust=False)` on a series without gaps: the classical recursion started at the first value. -/
theorem C80_ema_recursive (span : Nat) (xs : List K) (y : Nat → K)
    (hy : ∀ i < xs.length, (pdEwm false span (xs.map some)).getD i none = some (y i)) :
    (0 < xs.length → y 0 = xs.getD 0 0) ∧
    ∀ i, i + 1 < xs.length → y (i + 1) = (1 - 2 / ((span : K) + 1)) * y i + 2 / ((span : K) + 1) * xs.getD (i + 1) 0 := by
  have get : ∀ i < xs.length, some (y i)
      = (((xs.map some).take (i + 1)).foldl (pdEwmStep false (2 / ((span : K) + 1))) ⟨none, 1⟩).weighted := by
    intro i hi
    rw [← hy i hi]
    unfold pdEwm
    exact pdEwmGo_get _ _ _ _ _ (by simpa using hi)
  generalize 2 / ((span : K) + 1) = α at *
  have wt : ∀ i < xs.length, (((xs.map some).take (i + 1)).foldl (pdEwmStep false α) ⟨none, 1⟩).oldWt = 1 := by
    intro i
    induction i with
    | zero =>
      intro h
      cases xs with
      | nil => exact absurd h (by simp)
      | cons a l => rfl
    | succ i ih =>
      intro h
      have hlt : i + 1 < (xs.map some).length := by simpa using h
      rw [List.take_succ_eq_append_getElem hlt, List.foldl_append, List.foldl_cons, List.foldl_nil]
      have hw := get i (by omega)
      generalize ((xs.map some).take (i + 1)).foldl (pdEwmStep false α) ⟨none, 1⟩ = s at *
      obtain ⟨w, o⟩ := s
      simp only at hw
      subst hw
      simp [pdEwmStep]
  constructor
  · intro h
    have := get 0 h
    cases xs with
    | nil => exact absurd h (by simp)
    | cons a l =>
      simp [pdEwmStep] at this
      simpa using this
  · intro i h
    have hlt : i + 1 < (xs.map some).length := by simpa using h
    have h1 := get (i + 1) h
    rw [List.take_succ_eq_append_getElem hlt, List.foldl_append, List.foldl_cons, List.foldl_nil] at h1
    have hw := get i (by omega)
    have ho := wt i (by omega)
    generalize ((xs.map some).take (i + 1)).foldl (pdEwmStep false α) ⟨none, 1⟩ = s at *
    obtain ⟨w, o⟩ := s
    simp only at hw ho
    subst hw ho
    rw [List.getD_eq_getElem _ _ h]
    simp only [List.getElem_map, pdEwmStep, Option.some.injEq, one_mul, Bool.false_eq_true, if_false] at h1
    rw [h1]
    split
    · rename_i heq
      rw [← heq]; ring
    · rw [show 1 - α + α = 1 by ring, div_one]

/-! ### Examples -/

/-- A base column. -/
def demoCol (n : String) : Leaf (SCol ℚ) := ⟨false, [n], n, fun cs => .ok (cs.headD [])⟩

/-- A frame with two columns. -/
def demoCols : ColFrame (SCol ℚ) := fun n =>
  if n = "a" then some [.fin 1, .fin 4, .nan] else if n = "b" then some [.fin 2, .fin 0, .fin 5] else none

/-- Some printing of constants. -/
def demoText : FloatText := ⟨fun q => intText q.num ++ '/' :: intText q.den, fun _ => none⟩

/-- No elementary functions. -/
def demoFns : Fns ℚ := ⟨id, id, id, id, fun _ c => c⟩

/-- `3 - a / b`. -/
def demoExpr : FX ℚ := .cst .rsub 3 (.bin .div (.atom (demoCol "a")) (.atom (demoCol "b")))

/-- Non-vacuity of the composition theorem: the hypotheses hold, and the rows are the expected ones. -/
example : (∀ l ∈ demoExpr.atoms, ∃ c, evalLeaf demoCols l = .ok c ∧ c.length = 3) ∧
    (demoExpr.toTr demoText demoFns).eval demoCols = .ok [.fin (5/2), .ninf, .nan] := by
  refine ⟨?_, by decide +kernel⟩
  intro l hl
  simp only [demoExpr, FX.atoms, List.mem_append, List.mem_singleton] at hl
  rcases hl with rfl | rfl
  · exact ⟨[.fin 1, .fin 4, .nan], rfl, rfl⟩
  · exact ⟨[.fin 2, .fin 0, .fin 5], rfl, rfl⟩

example : pySub (.num 3) (.feat (.atom (demoCol "a"))) = some (.cst .rsub 3 (.atom (demoCol "a"))) := rfl

example : (pdEwm true 3 [none, some 2, none, some (5 : ℚ)]) = [none, some 2, some 2, some ((1/4 * 2 + 5) / (1/4 + 1))] := by
  decide +kernel

example : (pdEwm false 3 [some 2, some 4, some (5 : ℚ)]) = [some 2, some 3, some 4] := by decide +kernel

example : unaryCol demoFns (.rmean 2) [.fin 1, .fin 3, .nan, .fin 4, .fin 6] = [.nan, .fin 2, .nan, .nan, .fin 5] ∧
    unaryCol demoFns (.lag 1) [.fin 1, .fin 3, .nan] = [.nan, .fin 1, .fin 3] ∧
    unaryCol demoFns (.clip (some 2) (some 1)) [.fin 0, .fin (3/2), .pinf, .nan] = [.fin 1, .fin (3/2), .fin 2, .nan] := by
  decide +kernel

end FinML
