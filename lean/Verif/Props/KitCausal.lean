/-
C93: a kit of causal features is causal.
-/
import Verif.Model.FeatureAlgebra
import Verif.Props.PandasRolling
import Verif.Props.PandasShift

set_option linter.unusedSectionVars false

namespace FinML

section hom

variable {C : Type}

/-- A function applied to every column. -/
def mapCols (h : C → C) (d : ColFrame C) : ColFrame C := fun n => (d n).map h

/-- The transform commutes with `h`, on values and on failures. -/
def Leaf.Commutes (h : C → C) (l : Leaf C) : Prop := ∀ cs, l.run (cs.map h) = (l.run cs).map h

/-- Every function inside an expression commutes with `h`. -/
def Tr.Commutes (h : C → C) : Tr C → Prop
  | .leaf l => l.Commutes h
  | .bin _ f l r => (∀ a b, f (h a) (h b) = h (f a b)) ∧ l.Commutes h ∧ r.Commutes h
  | .un _ f t => (∀ a, f (h a) = h (f a)) ∧ t.Commutes h
  | .comp f r => f.Commutes h ∧ ∀ l ∈ r, l.Commutes h

/-- Every function of a feature commutes with `h`. -/
def Feat.Commutes (h : C → C) : Feat C → Prop
  | .single _ t => t.Commutes h
  | .multi _ _ _ run => ∀ cs, run (cs.map h) = (run cs).map (List.map h)

theorem gather_map (h : C → C) (d : ColFrame C) (ns : List String) : gather (mapCols h d) ns = (gather d ns).map (List.map h) := by
  induction ns with
  | nil => rfl
  | cons n ns ih =>
    simp only [gather, mapCols]
    cases hd : d n with
    | none => rfl
    | some x =>
      simp only [Option.map_some]
      rw [ih]
      cases gather d ns <;> rfl

theorem evalLeaf_map (h : C → C) (d : ColFrame C) (l : Leaf C) (hl : l.Commutes h) :
    evalLeaf (mapCols h d) l = (evalLeaf d l).map h := by
  unfold evalLeaf
  rw [gather_map]
  cases gather d l.requires with
  | error e => rfl
  | ok xs => exact hl xs

theorem oneColumn_map (h : C → C) (n : String) (x : C) : oneColumn n (h x) = mapCols h (oneColumn n x) := by
  funext m
  unfold oneColumn mapCols
  by_cases e : m = n <;> simp [e]

theorem composeStep_map (h : C → C) (d : ColFrame C) (v : C) (l : Leaf C) (hl : l.Commutes h) :
    composeStep (mapCols h d) (h v) l = (composeStep d v l).map h := by
  unfold composeStep
  simp only [mapCols]
  cases h1 : d l.produces with
  | some x => rfl
  | none =>
    simp only [Option.map_none]
    cases h2 : d (l.requires.headD "") with
    | some x => simp only [Option.map_some]; rw [oneColumn_map, evalLeaf_map h _ l hl]
    | none => simp only [Option.map_none]; rw [oneColumn_map, evalLeaf_map h _ l hl]

theorem composeRest_map (h : C → C) (d : ColFrame C) (ls : List (Leaf C)) (hl : ∀ l ∈ ls, l.Commutes h) (v : C) :
    composeRest (mapCols h d) (h v) ls = (composeRest d v ls).map h := by
  induction ls generalizing v with
  | nil => rfl
  | cons l ls ih =>
    simp only [composeRest]
    rw [composeStep_map h d v l (hl l (by simp))]
    cases composeStep d v l with
    | error e => rfl
    | ok w => exact ih (fun x hx => hl x (by simp [hx])) w

theorem composeFirst_map (h : C → C) (d : ColFrame C) (l : Leaf C) (hl : l.Commutes h) :
    composeFirst (mapCols h d) l = (composeFirst d l).map h := by
  unfold composeFirst
  have : (mapCols h d) l.produces = (d l.produces).map h := rfl
  rw [this]
  cases d l.produces with
  | some x => rfl
  | none => exact evalLeaf_map h d l hl

theorem runPipeline_map (h : C → C) (d : ColFrame C) (f : Leaf C) (r : List (Leaf C)) (hf : f.Commutes h) (hr : ∀ l ∈ r, l.Commutes h) :
    runPipeline (mapCols h d) f r = (runPipeline d f r).map h := by
  unfold runPipeline
  have e1 : (mapCols h d) (f.requires.headD "") = (d (f.requires.headD "")).map h := rfl
  have e2 : (mapCols h d) (composeName f r) = (d (composeName f r)).map h := rfl
  rw [e1, e2]
  cases d (f.requires.headD "") with
  | none => rfl
  | some x =>
    simp only [Option.map_some]
    cases d (composeName f r) with
    | some y => rfl
    | none =>
      simp only [Option.map_none]
      rw [composeFirst_map h d f hf]
      cases composeFirst d f with
      | error e => rfl
      | ok v => exact composeRest_map h d r hr v

theorem cachedOr_map (h : C → C) (d : ColFrame C) (n : String) (e e' : Except String C) (he : e' = e.map h) :
    cachedOr (mapCols h d) n e' = (cachedOr d n e).map h := by
  unfold cachedOr
  have : (mapCols h d) n = (d n).map h := rfl
  rw [this]
  cases d n with
  | some x => rfl
  | none => exact he

theorem Tr.eval_map (h : C → C) (d : ColFrame C) : ∀ t : Tr C, t.Commutes h → t.eval (mapCols h d) = (t.eval d).map h
  | .leaf l, hl => by simp only [Tr.eval]; exact evalLeaf_map h d l hl
  | .bin n f l r, ⟨hf, hl, hr⟩ => by
    simp only [Tr.eval]
    apply cachedOr_map
    rw [cachedOr_map h d l.output _ _ (Tr.eval_map h d l hl), cachedOr_map h d r.output _ _ (Tr.eval_map h d r hr)]
    cases cachedOr d l.output (l.eval d) with
    | error e => rfl
    | ok a =>
      cases cachedOr d r.output (r.eval d) with
      | error e => rfl
      | ok b => simp only [Except.map]; rw [hf]
  | .un n f t, ⟨hf, ht⟩ => by
    simp only [Tr.eval]
    apply cachedOr_map
    rw [cachedOr_map h d t.output _ _ (Tr.eval_map h d t ht)]
    cases cachedOr d t.output (t.eval d) with
    | error e => rfl
    | ok a => simp only [Except.map]; rw [hf]
  | .comp f r, ⟨hf, hr⟩ => by simp only [Tr.eval]; exact runPipeline_map h d f r hf hr

/-- `h` on the columns of a list of results. -/
def mapResults (h : C → C) (rs : List (String × String × C)) : List (String × String × C) := rs.map (fun r => (r.1, r.2.1, h r.2.2))

theorem Feat.results_map (h : C → C) (d : ColFrame C) (f : Feat C) (hf : f.Commutes h) :
    f.results (mapCols h d) = (f.results d).map (mapResults h) := by
  cases f with
  | single n t =>
    simp only [Feat.results, featureCall]
    rw [cachedOr_map h d t.output _ _ (Tr.eval_map h d t hf)]
    cases cachedOr d t.output (t.eval d) <;> rfl
  | multi l req outs run =>
    simp only [Feat.results]
    rw [gather_map]
    cases gather d req with
    | error e => rfl
    | ok xs =>
      simp only [Except.map]
      have := hf xs
      rw [this]
      cases run xs with
      | error e => rfl
      | ok ys =>
        simp only [Except.map, List.length_map]
        by_cases hl : ys.length = outs.length
        · rw [if_pos hl, if_pos hl]
          simp only [mapResults, List.map_map]
          congr 1
          rw [List.zip_map_right, List.map_map]
          rfl
        · rw [if_neg hl, if_neg hl]

theorem set_map (h : C → C) (d : ColFrame C) (n : String) (x : C) : (mapCols h d).set n (h x) = mapCols h (d.set n x) := by
  funext m
  unfold ColFrame.set mapCols
  by_cases e : m = n <;> simp [e]

/-- Both frames of the loop state. -/
def mapState (h : C → C) (s : KitState C) : KitState C := ⟨mapCols h s.out, mapCols h s.df⟩

theorem store_map (h : C → C) (rs : List (String × String × C)) (s : KitState C) :
    (mapState h s).store (mapResults h rs) = mapState h (s.store rs) := by
  induction rs generalizing s with
  | nil => rfl
  | cons r rs ih =>
    have := ih ⟨s.out.set r.1 r.2.2, s.df.set r.2.1 r.2.2⟩
    unfold KitState.store at this ⊢
    rw [List.foldl_cons, ← this]
    simp only [mapResults, List.map_cons, List.foldl_cons, mapState, set_map]

theorem buildLoop_map (h : C → C) (fs : List (Feat C)) (hf : ∀ f ∈ fs, f.Commutes h) (s : KitState C) :
    buildLoop fs (mapState h s) = (buildLoop fs s).map (mapState h) := by
  induction fs generalizing s with
  | nil => rfl
  | cons f fs ih =>
    simp only [buildLoop]
    have e : (mapState h s).df = mapCols h s.df := rfl
    rw [e, Feat.results_map h s.df f (hf f (by simp))]
    cases f.results s.df with
    | error e => rfl
    | ok rs =>
      simp only [Except.map]
      rw [store_map, ih (fun x hx => hf x (by simp [hx]))]
      rfl

theorem retained_map (h : C → C) (d : ColFrame C) (retain : List String) :
    retained (mapCols h d) retain = (retained d retain).map (mapCols h) := by
  unfold retained
  have : (retain.all fun n => ((mapCols h d) n).isSome) = retain.all fun n => (d n).isSome := by
    congr 1
    funext n
    unfold mapCols
    cases d n <;> rfl
  rw [this]
  split
  · simp only [Except.map]
    congr 1
    funext n
    by_cases hn : n ∈ retain <;> simp [mapCols, hn]
  · rfl

/-- **C93.** A kit whose functions all commute with `h` commutes with `h`: the built frame of the transformed data is the transformed
built frame, and one fails exactly when the other does.  No assumption on names, order, caching or composition. -/
theorem C93_build_commutes (h : C → C) (d : ColFrame C) (retain : List String) (feats : List (Feat C))
    (hf : ∀ f ∈ feats, f.Commutes h) : buildKit (mapCols h d) retain feats = (buildKit d retain feats).map (mapCols h) := by
  unfold buildKit
  rw [retained_map]
  cases retained d retain with
  | error e => rfl
  | ok o =>
    simp only [Except.map]
    have : (⟨mapCols h o, mapCols h d⟩ : KitState C) = mapState h ⟨o, d⟩ := rfl
    rw [this, buildLoop_map h feats hf]
    cases buildLoop feats ⟨o, d⟩ <;> rfl

example (k : Nat) : (Feat.single "y" (.un "y" (List.map (2 * ·)) (.leaf ⟨false, ["x"], "x", fun cs => .ok (cs.headD [])⟩)) :
    Feat (List ℚ)).Commutes (List.take k) :=
  ⟨fun a => List.map_take, fun cs => by cases cs <;> simp [Except.map]⟩

theorem lastNamed_mem {F α : Type} [DecidableEq α] (name : F → α) (feats : List F) (n : α) (f : F)
    (h : lastNamed name feats n = some f) : f ∈ feats := by
  unfold lastNamed at h
  exact List.mem_reverse.mp (List.mem_of_find?_eq_some h)

/-- **C93.** The same for the topological order, whatever order Python's set happens to have. -/
theorem C93_build_topo_commutes (h : C → C) (d : ColFrame C) (retain : List String) (feats : List (Feat C)) (nameSet : List String)
    (hf : ∀ f ∈ feats, f.Commutes h) :
    buildTopo (mapCols h d) retain feats nameSet = (buildTopo d retain feats nameSet).map (mapCols h) := by
  unfold buildTopo
  apply C93_build_commutes
  intro f hm
  unfold featuresSeq at hm
  rcases List.mem_append.mp hm with hm | hm
  · rw [List.mem_filterMap] at hm
    obtain ⟨n, _, hn⟩ := hm
    exact hf f (lastNamed_mem _ _ _ _ hn)
  · exact hf f (List.mem_of_mem_filter hm)

example : let f : Feat (List ℚ) := .single "y" (.un "y" (List.map (2 * ·)) (.leaf ⟨false, ["x"], "x", fun cs => .ok (cs.headD [])⟩))
    let d : ColFrame (List ℚ) := fun n => if n = "x" then some [1, 2, 3] else none
    ((buildTopo (mapCols (List.take 2) d) ["x"] [f] ["y"]).toOption.map (fun o => o "y")) = some (some [2, 4]) ∧
    ((buildTopo d ["x"] [f] ["y"]).toOption.map (fun o => o "y")) = some (some [2, 4, 6]) := by decide +kernel

end hom

/-! ### Truncation -/

/-- **C93.** A kit of causal functions is causal: building on the first `k` rows gives the first `k` rows of building on all rows. -/
theorem C93_causal {α : Type} (k : Nat) (d : ColFrame (List α)) (retain : List String) (feats : List (Feat (List α)))
    (hf : ∀ f ∈ feats, f.Commutes (List.take k)) :
    buildKit (fun n => (d n).map (List.take k)) retain feats
      = (buildKit d retain feats).map (fun out n => (out n).map (List.take k)) :=
  C93_build_commutes (List.take k) d retain feats hf

example : let f : Feat (List ℚ) := .single "y" (.un "y" (List.map (2 * ·)) (.leaf ⟨false, ["x"], "x", fun cs => .ok (cs.headD [])⟩))
    let d : ColFrame (List ℚ) := fun n => if n = "x" then some [1, 2, 3] else none
    ((buildKit (fun n => (d n).map (List.take 2)) ["x"] [f]).toOption.map (fun o => o "y")) = some (some [2, 4]) ∧
    ((buildKit d ["x"] [f]).toOption.map (fun o => o "y")) = some (some [2, 4, 6]) := by decide +kernel

variable {K : Type} [Field K] [LinearOrder K]

theorem windowed_take (w : Nat) (f : List K → Option K) (xs : SCol K) (k : Nat) : windowed w f (xs.take k) = (windowed w f xs).take k := by
  unfold windowed
  rw [List.map_take, C70_rolling_causal, List.map_take]

theorem pdEwmGo_take (adjust : Bool) (α : K) (xs : List (Option K)) (s : PdEwm K) (k : Nat) :
    pdEwmGo adjust α s (xs.take k) = (pdEwmGo adjust α s xs).take k := by
  induction xs generalizing s k with
  | nil => simp [pdEwmGo]
  | cons x xs ih =>
    cases k with
    | zero => rfl
    | succ k => simp only [List.take_succ_cons, pdEwmGo]; rw [ih]

theorem shiftCol_take (p : Int) (hp : 0 ≤ p) (xs : SCol K) (k : Nat) : shiftCol p (xs.take k) = (shiftCol p xs).take k := by
  unfold shiftCol
  rw [List.length_take]
  apply tabulate_causal
  intro i hk hn
  by_cases h : (i : Int) - p < 0
  · rw [if_pos h, if_pos h]
  · rw [if_neg h, if_neg h, getD_take_lt _ _ _ _ (by omega)]

/-- The functions that look back only: everything except negative lags and user functions that are not causal themselves. -/
def looksBack (G : Fns K) (k : Nat) : UFn → Prop
  | .lag p => 0 ≤ p
  | .custom _ i => ∀ xs, G.custom i (xs.take k) = (G.custom i xs).take k
  | _ => True

theorem unaryCol_take (G : Fns K) (k : Nat) (fn : UFn) (h : looksBack G k fn) (xs : SCol K) :
    unaryCol G fn (xs.take k) = (unaryCol G fn xs).take k := by
  cases fn with
  | rmean n => exact windowed_take _ _ _ _
  | rstd n => exact windowed_take _ _ _ _
  | rsum n => exact windowed_take _ _ _ _
  | ema n a => simp only [unaryCol, pdEwm]; rw [List.map_take, pdEwmGo_take, List.map_take]
  | lag p => exact shiftCol_take p h xs k
  | custom s i => exact h xs
  | _ => simp only [unaryCol]; rw [List.map_take]

/-- All functions in an expression look back only. -/
def FX.LooksBack (G : Fns K) (k : Nat) : FX K → Prop
  | .atom l => l.Commutes (List.take k)
  | .bin _ l r => l.LooksBack G k ∧ r.LooksBack G k
  | .cst _ _ t => t.LooksBack G k
  | .absf t => t.LooksBack G k
  | .app fn t => looksBack G k fn ∧ t.LooksBack G k

/-- **C93.** Every expression made with the operators and methods of `Feature` from causal transforms is causal, unless it uses a
negative lag or a user function that is not. -/
theorem C93_expressions (F : FloatText) (G : Fns K) (k : Nat) (e : FX K) (h : e.LooksBack G k) :
    (e.toTr F G).Commutes (List.take k) := by
  induction e with
  | atom l => exact h
  | bin op l r ihl ihr =>
    exact ⟨fun a b => by rw [List.take_zipWith], ihl h.1, ihr h.2⟩
  | cst op c t ih => exact ⟨fun a => by rw [List.map_take], ih h⟩
  | absf t ih => exact ⟨fun a => by simp only [unaryCol]; rw [List.map_take], ih h⟩
  | app fn t ih => exact ⟨unaryCol_take G k fn h.1, ih h.2⟩

/-- **C93.** So is a kit of such expressions under any names. -/
theorem C93_expression_kit (F : FloatText) (G : Fns K) (k : Nat) (d : ColFrame (SCol K)) (retain : List String)
    (es : List (String × FX K)) (h : ∀ e ∈ es, e.2.LooksBack G k) :
    buildKit (fun n => (d n).map (List.take k)) retain (es.map (fun e => Feat.single e.1 (e.2.toTr F G)))
      = (buildKit d retain (es.map (fun e => Feat.single e.1 (e.2.toTr F G)))).map (fun out n => (out n).map (List.take k)) := by
  apply C93_causal
  intro f hf
  rw [List.mem_map] at hf
  obtain ⟨e, he, rfl⟩ := hf
  exact C93_expressions F G k e.2 (h e he)

example (G : Fns ℚ) (k : Nat) : (FX.app (.rmean 2) (.app (.lag 1) (.atom ⟨false, ["x"], "x", fun cs => .ok (cs.headD [])⟩))).LooksBack G k := by
  simp only [FX.LooksBack, looksBack]
  refine ⟨by simp, by simp, ?_⟩
  intro cs
  cases cs <;> simp [Except.map]

/-- The transform that passes a column on. -/
def passCol (n : String) : Leaf (SCol ℚ) := ⟨false, [n], n, fun cs => .ok (cs.headD [])⟩

theorem passCol_commutes (n : String) (k : Nat) : (passCol n).Commutes (List.take k) := by
  intro cs
  cases cs <;> simp [passCol, Except.map]

/-- **C93, violation.** `lag(-1)` makes a kit look ahead: the value in the first row changes when the second row arrives. -/
theorem C93_negative_lag : ∃ (d : ColFrame (SCol ℚ)) (t : Tr (SCol ℚ)) (a b : SCol ℚ),
    t = Tr.un "x_lag-1" (unaryCol ⟨id, id, id, id, fun _ c => c⟩ (.lag (-1))) (.leaf (passCol "x")) ∧
    featureCall d t = .ok b ∧ featureCall (mapCols (List.take 1) d) t = .ok a ∧ a ≠ b.take 1 := by
  refine ⟨fun n => if n = "x" then some [.fin 1, .fin 2] else none, _, [.nan], [.fin 2, .nan], rfl, by decide +kernel, by decide +kernel,
    by decide +kernel⟩

/-! ### Examples -/

/-- Non-vacuity: rolling mean of the difference of a column and its lag. -/
example (G : Fns ℚ) (k : Nat) :
    (FX.app (.rmean 2) (.bin .sub (.atom (passCol "x")) (.app (.lag 1) (.atom (passCol "x"))))).LooksBack G k := by
  simp [FX.LooksBack, looksBack, passCol_commutes]

end FinML
