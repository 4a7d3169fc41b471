/-
C114: the `backend` argument.  With `"pd"` or `"nb"` a kit is the kit of one implementation; any other value is an error
unless every value is already a column; two implementations that agree (or are related in any way that the operations
keep) give kits that agree (or are related); the timing report does not lose a feature.
-/
import Verif.Model.Routing
import Mathlib.Data.List.Forall2
import Mathlib.Tactic.Linarith
import Mathlib.Tactic.Ring
import Mathlib.Tactic.FieldSimp
import Mathlib.Tactic.Positivity
import Mathlib.Tactic.NormNum

set_option linter.unusedSectionVars false

namespace FinML

variable {C : Type}

/-- Two calls with related results: both return related values, or both raise. -/
def SameResult {ε δ α β : Type} (R : α → β → Prop) : Except ε α → Except δ β → Prop
  | .ok x, .ok y => R x y
  | .error _, .error _ => True
  | _, _ => False

/-- Frames with the same column names and related columns. -/
def FrameRel (R : C → C → Prop) (d d' : ColFrame C) : Prop := ∀ n, Option.Rel R (d n) (d' n)

/-- The implementation a backend name selects, if any. -/
def DualLeaf.impl (l : DualLeaf C) (b : String) (xs : List C) : Except String C := if b = "pd" then l.pd xs else l.nb xs

/-- The base transforms of an expression. -/
def DualTr.leaves : DualTr C → List (DualLeaf C)
  | .leaf l => [l]
  | .bin _ _ l r => l.leaves ++ r.leaves
  | .un _ _ t => t.leaves
  | .comp f r => f :: r

/-- Every operation of the expression maps related columns to related columns. -/
def DualTr.OpsKeep (R : C → C → Prop) : DualTr C → Prop
  | .leaf _ => True
  | .bin _ f l r => (∀ x x' y y', R x x' → R y y' → R (f x y) (f x' y')) ∧ l.OpsKeep R ∧ r.OpsKeep R
  | .un _ f t => (∀ x x', R x x' → R (f x) (f x')) ∧ t.OpsKeep R
  | .comp _ _ => True

/-- A feature whose implementations under `b` and `b'` give related results on related columns. -/
def DualFeat.Keeps (R : C → C → Prop) (b b' : String) : DualFeat C → Prop
  | .single _ t => t.OpsKeep R ∧
      ∀ l ∈ t.leaves, ∀ xs ys, List.Forall₂ R xs ys → SameResult R (l.impl b xs) (l.impl b' ys)
  | .multi _ _ _ pd nb => ∀ xs ys, List.Forall₂ R xs ys →
      SameResult (List.Forall₂ R) (if b = "pd" then pd xs else nb xs) (if b' = "pd" then pd ys else nb ys)

/-! ### Single calls -/

theorem missingCols_nil {d : ColFrame C} {req : List String} : missingCols d req = [] ↔ ∀ n ∈ req, (d n).isSome := by
  unfold missingCols
  rw [List.filter_eq_nil_iff]
  constructor
  · intro h n hn
    have := h n hn
    cases hd : d n <;> simp_all
  · intro h n hn
    have := h n hn
    cases hd : d n <;> simp_all

/-- **C114 (validation).** A base transform names exactly the required columns that are missing, in order, whatever the
backend; with all of them present an unknown backend raises, and `"pd"` and `"nb"` run their implementation on the
required columns. -/
theorem C114_leaf (d : ColFrame C) (b : String) (l : DualLeaf C) :
    ((∃ n ∈ l.requires, d n = none) →
      ∃ ms, callLeaf d b l = .error (.missing ms) ∧ ms.Sublist l.requires ∧ ∀ n ∈ l.requires, (n ∈ ms ↔ d n = none)) ∧
    ((∀ n ∈ l.requires, ∃ x, d n = some x) →
      (b ≠ "pd" → b ≠ "nb" → callLeaf d b l = .error (.unknownBackend b)) ∧
      (∀ xs, l.requires.map d = xs.map some →
        callLeaf d "pd" l = (l.pd xs).mapError .failed ∧ callLeaf d "nb" l = (l.nb xs).mapError .failed)) := by
  constructor
  · rintro ⟨n, hn, hd⟩
    have hne : missingCols d l.requires ≠ [] := by
      intro h
      have := missingCols_nil.mp h n hn
      simp [hd] at this
    refine ⟨missingCols d l.requires, ?_, List.filter_sublist, ?_⟩
    · unfold callLeaf
      rw [if_neg hne]
    · intro m hm
      unfold missingCols
      rw [List.mem_filter]
      cases h : d m <;> simp [hm]
  · intro h
    have he : missingCols d l.requires = [] := missingCols_nil.mpr (fun n hn => by
      obtain ⟨x, hx⟩ := h n hn
      simp [hx])
    refine ⟨fun h1 h2 => ?_, fun xs hxs => ?_⟩
    · unfold callLeaf route
      rw [if_pos he, if_neg h1, if_neg h2]
    · have hf : l.requires.filterMap d = xs := by
        rw [show l.requires.filterMap d = (l.requires.map d).filterMap id by rw [List.filterMap_map]; rfl, hxs]
        simp
      unfold callLeaf route
      rw [if_pos he, if_pos he, hf]
      simp

/-! ### One implementation throughout -/

theorem gather_filterMap (d : ColFrame C) (req : List String) (h : ∀ n ∈ req, (d n).isSome) :
    gather d req = .ok (req.filterMap d) := by
  induction req with
  | nil => rfl
  | cons n ns ih =>
    have hn := h n (by simp)
    obtain ⟨x, hx⟩ := Option.isSome_iff_exists.mp hn
    rw [gather, hx, ih (fun m hm => h m (by simp [hm]))]
    simp [hx]

theorem gather_missing (d : ColFrame C) (req : List String) (h : ¬ ∀ n ∈ req, (d n).isSome) :
    ∃ e, gather d req = .error e := by
  induction req with
  | nil => exact absurd (by simp) h
  | cons n ns ih =>
    rw [gather]
    cases hd : d n with
    | none => exact ⟨_, rfl⟩
    | some x =>
      have : ¬ ∀ m ∈ ns, (d m).isSome := fun hc => h (by
        intro m hm
        rcases List.mem_cons.mp hm with rfl | hm
        · simp [hd]
        · exact hc m hm)
      obtain ⟨e, he⟩ := ih this
      rw [he]
      exact ⟨e, rfl⟩

theorem sameResult_mapError {ε δ α : Type} (e : Except ε α) (f : ε → δ) : SameResult Eq (e.mapError f) e := by
  cases e <;> simp [Except.mapError, SameResult]

theorem callLeaf_pick (d : ColFrame C) (b : String) (hb : b = "pd" ∨ b = "nb") (l : DualLeaf C) :
    SameResult Eq (callLeaf d b l) (evalLeaf d (l.pick b)) := by
  unfold callLeaf evalLeaf
  by_cases h : missingCols d l.requires = []
  · rw [if_pos h, show (l.pick b).requires = l.requires from rfl, gather_filterMap d _ (missingCols_nil.mp h)]
    unfold route DualLeaf.pick
    rcases hb with rfl | rfl
    · simp only [if_true]; exact sameResult_mapError _ _
    · rw [if_neg (by decide), if_pos rfl, if_neg (by decide)]; exact sameResult_mapError _ _
  · obtain ⟨e, he⟩ := gather_missing d l.requires (fun hc => h (missingCols_nil.mpr hc))
    rw [if_neg h, show (l.pick b).requires = l.requires from rfl, he]
    trivial

theorem sameResult_cached {R : C → C → Prop} {d d' : ColFrame C} (h : FrameRel R d d') (n : String)
    {e : Except CallError C} {e' : Except CallError C} (he : SameResult R e e') :
    SameResult R (dualCached d n e) (dualCached d' n e') := by
  unfold dualCached
  have := h n
  revert this
  cases d n <;> cases d' n <;> intro h'
  · exact he
  · cases h'
  · cases h'
  · cases h'; assumption

theorem sameResult_cached_pick (d : ColFrame C) (n : String) {e : Except CallError C} {e' : Except String C}
    (he : SameResult Eq e e') : SameResult Eq (dualCached d n e) (cachedOr d n e') := by
  unfold dualCached cachedOr
  cases d n
  · exact he
  · rfl

theorem output_pick (b : String) (t : DualTr C) : (t.pick b).output = t.output := by
  cases t with
  | comp f r =>
    simp only [DualTr.pick, Tr.output, DualTr.output, composeName, dualComposeName, List.map_map]
    rfl
  | _ => rfl

theorem SameResult.split {ε δ α β : Type} {R : α → β → Prop} {e : Except ε α} {e' : Except δ β} (h : SameResult R e e') :
    (∃ x y, e = .ok x ∧ e' = .ok y ∧ R x y) ∨ ∃ c c', e = .error c ∧ e' = .error c' := by
  cases e <;> cases e'
  · exact Or.inr ⟨_, _, rfl, rfl⟩
  · exact h.elim
  · exact h.elim
  · exact Or.inl ⟨_, _, rfl, rfl, h⟩

theorem dualRest_pick (d : ColFrame C) (b : String) (hb : b = "pd" ∨ b = "nb") (ls : List (DualLeaf C)) :
    ∀ v : C, SameResult Eq (dualRest d b v ls) (composeRest d v (ls.map (fun l => l.pick b))) := by
  induction ls with
  | nil => intro v; rfl
  | cons l ls ih =>
    intro v
    rw [dualRest, List.map_cons, composeRest]
    have hs : SameResult Eq (dualStep d b v l) (composeStep d v (l.pick b)) := by
      unfold dualStep composeStep
      rw [show (l.pick b).produces = l.produces from rfl, show (l.pick b).requires = l.requires from rfl]
      cases d l.produces with
      | some x => rfl
      | none =>
        dsimp only
        cases d (l.requires.headD "") with
        | some x => exact callLeaf_pick _ b hb l
        | none => exact callLeaf_pick _ b hb l
    rcases hs.split with ⟨x, y, e1, e2, rfl⟩ | ⟨c, c', e1, e2⟩
    · rw [e1, e2]; exact ih x
    · rw [e1, e2]; trivial

theorem call_pick (d : ColFrame C) (b : String) (hb : b = "pd" ∨ b = "nb") (t : DualTr C) :
    SameResult Eq (t.call d b) ((t.pick b).eval d) := by
  induction t with
  | leaf l => exact callLeaf_pick d b hb l
  | bin n f l r ihl ihr =>
    rw [DualTr.call, DualTr.pick, Tr.eval, output_pick, output_pick]
    refine sameResult_cached_pick d n ?_
    rcases (sameResult_cached_pick d l.output ihl).split with ⟨x, _, e1, e2, rfl⟩ | ⟨c, c', e1, e2⟩
    · rw [e1, e2]
      rcases (sameResult_cached_pick d r.output ihr).split with ⟨y, _, e3, e4, rfl⟩ | ⟨c, c', e3, e4⟩
      · dsimp only; rw [e3, e4]; rfl
      · dsimp only; rw [e3, e4]; trivial
    · rw [e1, e2]; trivial
  | un n f t ih =>
    rw [DualTr.call, DualTr.pick, Tr.eval, output_pick]
    refine sameResult_cached_pick d n ?_
    rcases (sameResult_cached_pick d t.output ih).split with ⟨x, _, e1, e2, rfl⟩ | ⟨c, c', e1, e2⟩
    · rw [e1, e2]; rfl
    · rw [e1, e2]; trivial
  | comp f r =>
    rw [DualTr.call, DualTr.pick, Tr.eval]
    unfold callCompose runPipeline
    rw [if_pos hb, show (f.pick b).requires = f.requires from rfl,
      show composeName (f.pick b) (r.map (fun l => l.pick b)) = dualComposeName f r from output_pick b (.comp f r)]
    cases d (f.requires.headD "") with
    | none => trivial
    | some _ =>
      dsimp only
      cases d (dualComposeName f r) with
      | some x => rfl
      | none =>
        dsimp only
        have hs : SameResult Eq (dualFirst d b f) (composeFirst d (f.pick b)) := by
          unfold dualFirst composeFirst
          rw [show (f.pick b).produces = f.produces from rfl]
          cases d f.produces with
          | some x => rfl
          | none => exact callLeaf_pick d b hb f
        rcases hs.split with ⟨x, _, e1, e2, rfl⟩ | ⟨c, c', e1, e2⟩
        · rw [e1, e2]; exact dualRest_pick d b hb r x
        · rw [e1, e2]; trivial

theorem results_pick (d : ColFrame C) (b : String) (hb : b = "pd" ∨ b = "nb") (f : DualFeat C) :
    SameResult Eq (f.results d b) ((f.pick b).results d) := by
  cases f with
  | single n t =>
    unfold DualFeat.results DualFeat.pick Feat.results featureCall
    dsimp only
    rw [output_pick]
    rcases (sameResult_cached_pick d t.output (call_pick d b hb t)).split with ⟨x, _, e1, e2, rfl⟩ | ⟨c, c', e1, e2⟩
    · rw [e1, e2]; rfl
    · rw [e1, e2]; trivial
  | multi lbl req outs pd nb =>
    unfold DualFeat.results DualFeat.pick Feat.results
    dsimp only
    by_cases h : missingCols d req = []
    · rw [if_pos h, gather_filterMap d _ (missingCols_nil.mp h)]
      have hs : SameResult Eq (route b (pd (req.filterMap d)) (nb (req.filterMap d)))
          ((if b = "pd" then pd else nb) (req.filterMap d)) := by
        unfold route
        rcases hb with rfl | rfl
        · simp only [if_true]; exact sameResult_mapError _ _
        · rw [if_neg (by decide), if_pos rfl, if_neg (by decide)]; exact sameResult_mapError _ _
      dsimp only
      rcases hs.split with ⟨ys, _, e1, e2, rfl⟩ | ⟨c, c', e1, e2⟩
      · rw [e1, e2]
        dsimp only
        by_cases hl : ys.length = outs.length
        · rw [if_pos hl, if_pos hl]; rfl
        · rw [if_neg hl, if_neg hl]; trivial
      · rw [e1, e2]; trivial
    · obtain ⟨e, he⟩ := gather_missing d req (fun hc => h (missingCols_nil.mpr hc))
      rw [if_neg h, he]
      trivial

theorem loop_pick (b : String) (hb : b = "pd" ∨ b = "nb") (fs : List (DualFeat C)) :
    ∀ s : KitState C, SameResult Eq (dualLoop b fs s) (buildLoop (fs.map (fun f => f.pick b)) s) := by
  induction fs with
  | nil => intro s; rfl
  | cons f fs ih =>
    intro s
    rw [dualLoop, List.map_cons, buildLoop]
    rcases (results_pick s.df b hb f).split with ⟨rs, _, e1, e2, rfl⟩ | ⟨c, c', e1, e2⟩
    · rw [e1, e2]; exact ih _
    · rw [e1, e2]; trivial

/-- **C114 (routing).** With `"pd"` or `"nb"` the whole kit runs the implementation of that name and no other: it returns
exactly when, and the frame that, the kit of that single implementation returns. -/
theorem C114_single_backend (d : ColFrame C) (b : String) (hb : b = "pd" ∨ b = "nb") (retain : List String)
    (feats : List (DualFeat C)) :
    SameResult Eq (dualBuild d b retain feats) (buildKit d retain (feats.map (fun f => f.pick b))) := by
  unfold dualBuild buildKit retained
  have he : (retain.all (fun n => (d n).isSome)) = true ↔ missingCols d retain = [] := by
    rw [missingCols_nil, List.all_eq_true]
  by_cases h : missingCols d retain = []
  · rw [if_pos h, if_pos (he.mpr h)]
    dsimp only
    rcases (loop_pick b hb feats ⟨fun n => if n ∈ retain then d n else none, d⟩).split with
      ⟨s, _, e1, e2, rfl⟩ | ⟨c, c', e1, e2⟩
    · rw [e1, e2]; rfl
    · rw [e1, e2]; trivial
  · rw [if_neg h, if_neg (fun hc => h (he.mp hc))]
    trivial

/-! ### Related implementations -/

theorem missingCols_rel {R : C → C → Prop} {d d' : ColFrame C} (h : FrameRel R d d') (req : List String) :
    missingCols d req = missingCols d' req := by
  unfold missingCols
  congr 1
  funext n
  have := h n
  revert this
  cases d n <;> cases d' n <;> intro h'
  · rfl
  · cases h'
  · cases h'
  · rfl

theorem filterMap_rel {R : C → C → Prop} {d d' : ColFrame C} (h : FrameRel R d d') (req : List String) :
    List.Forall₂ R (req.filterMap d) (req.filterMap d') := by
  induction req with
  | nil => exact List.Forall₂.nil
  | cons n ns ih =>
    have := h n
    rw [List.filterMap_cons, List.filterMap_cons]
    revert this
    cases d n <;> cases d' n <;> intro h'
    · exact ih
    · cases h'
    · cases h'
    · cases h'
      exact List.Forall₂.cons (by assumption) ih

theorem callLeaf_rel {R : C → C → Prop} {d d' : ColFrame C} (h : FrameRel R d d') {b b' : String}
    (hb : b = "pd" ∨ b = "nb") (hb' : b' = "pd" ∨ b' = "nb") (l : DualLeaf C)
    (hl : ∀ xs ys, List.Forall₂ R xs ys → SameResult R (l.impl b xs) (l.impl b' ys)) :
    SameResult R (callLeaf d b l) (callLeaf d' b' l) := by
  unfold callLeaf
  rw [← missingCols_rel h]
  by_cases hm : missingCols d l.requires = []
  · rw [if_pos hm, if_pos hm]
    have := hl _ _ (filterMap_rel h l.requires)
    have hr : ∀ (c : String), (c = "pd" ∨ c = "nb") → ∀ xs, route c (l.pd xs) (l.nb xs) = (l.impl c xs).mapError .failed := by
      rintro c (rfl | rfl) xs
      · simp [route, DualLeaf.impl]
      · simp [route, DualLeaf.impl]
    rw [hr b hb, hr b' hb']
    revert this
    cases l.impl b (l.requires.filterMap d) <;> cases l.impl b' (l.requires.filterMap d') <;> intro this
    · trivial
    · exact this.elim
    · exact this.elim
    · exact this
  · rw [if_neg hm, if_neg hm]
    trivial

theorem oneColumn_rel {R : C → C → Prop} (n : String) {x y : C} (h : R x y) :
    FrameRel R (oneColumn n x) (oneColumn n y) := by
  intro m
  unfold oneColumn
  by_cases hm : m = n
  · rw [if_pos hm, if_pos hm]; exact Option.Rel.some h
  · rw [if_neg hm, if_neg hm]; exact Option.Rel.none

theorem dualRest_rel {R : C → C → Prop} {d d' : ColFrame C} (h : FrameRel R d d') {b b' : String}
    (hb : b = "pd" ∨ b = "nb") (hb' : b' = "pd" ∨ b' = "nb") (ls : List (DualLeaf C))
    (hl : ∀ l ∈ ls, ∀ xs ys, List.Forall₂ R xs ys → SameResult R (l.impl b xs) (l.impl b' ys)) :
    ∀ v w : C, R v w → SameResult R (dualRest d b v ls) (dualRest d' b' w ls) := by
  induction ls with
  | nil => intro v w hvw; exact hvw
  | cons l ls ih =>
    intro v w hvw
    rw [dualRest, dualRest]
    have hs : SameResult R (dualStep d b v l) (dualStep d' b' w l) := by
      unfold dualStep
      have h1 := h l.produces
      have h2 := h (l.requires.headD "")
      revert h1 h2
      cases d l.produces <;> cases d' l.produces <;> intro h1
      · cases d (l.requires.headD "") <;> cases d' (l.requires.headD "") <;> intro h2
        · exact callLeaf_rel (oneColumn_rel _ hvw) hb hb' l (hl l (by simp))
        · cases h2
        · cases h2
        · cases h2
          exact callLeaf_rel (oneColumn_rel _ (by assumption)) hb hb' l (hl l (by simp))
      · cases h1
      · cases h1
      · intro _
        cases h1
        assumption
    rcases hs.split with ⟨x, y, e1, e2, hxy⟩ | ⟨c, c', e1, e2⟩
    · rw [e1, e2]; exact ih (fun l' h' => hl l' (by simp [h'])) x y hxy
    · rw [e1, e2]; trivial

theorem call_rel {R : C → C → Prop} {d d' : ColFrame C} (h : FrameRel R d d') {b b' : String}
    (hb : b = "pd" ∨ b = "nb") (hb' : b' = "pd" ∨ b' = "nb") (t : DualTr C) (ht : t.OpsKeep R)
    (hl : ∀ l ∈ t.leaves, ∀ xs ys, List.Forall₂ R xs ys → SameResult R (l.impl b xs) (l.impl b' ys)) :
    SameResult R (t.call d b) (t.call d' b') := by
  induction t with
  | leaf l => exact callLeaf_rel h hb hb' l (hl l (by simp [DualTr.leaves]))
  | bin n f l r ihl ihr =>
    obtain ⟨hf, h1, h2⟩ := ht
    rw [DualTr.call, DualTr.call]
    refine sameResult_cached h n ?_
    rcases (sameResult_cached h l.output (ihl h1 (fun l' h' => hl l' (by simp [DualTr.leaves, h'])))).split with
      ⟨x, x', e1, e2, hx⟩ | ⟨c, c', e1, e2⟩
    · rw [e1, e2]
      dsimp only
      rcases (sameResult_cached h r.output (ihr h2 (fun l' h' => hl l' (by simp [DualTr.leaves, h'])))).split with
        ⟨y, y', e3, e4, hy⟩ | ⟨c, c', e3, e4⟩
      · rw [e3, e4]; exact hf x x' y y' hx hy
      · rw [e3, e4]; trivial
    · rw [e1, e2]; trivial
  | un n f t ih =>
    obtain ⟨hf, h1⟩ := ht
    rw [DualTr.call, DualTr.call]
    refine sameResult_cached h n ?_
    rcases (sameResult_cached h t.output (ih h1 hl)).split with ⟨x, x', e1, e2, hx⟩ | ⟨c, c', e1, e2⟩
    · rw [e1, e2]; exact hf x x' hx
    · rw [e1, e2]; trivial
  | comp f r =>
    rw [DualTr.call, DualTr.call]
    unfold callCompose
    rw [if_pos hb, if_pos hb']
    have h1 := h (f.requires.headD "")
    revert h1
    cases d (f.requires.headD "") <;> cases d' (f.requires.headD "") <;> intro h1
    · trivial
    · cases h1
    · cases h1
    · dsimp only
      have h2 := h (dualComposeName f r)
      revert h2
      cases d (dualComposeName f r) <;> cases d' (dualComposeName f r) <;> intro h2
      · dsimp only
        have hs : SameResult R (dualFirst d b f) (dualFirst d' b' f) := by
          unfold dualFirst
          have h3 := h f.produces
          revert h3
          cases d f.produces <;> cases d' f.produces <;> intro h3
          · exact callLeaf_rel h hb hb' f (hl f (by simp [DualTr.leaves]))
          · cases h3
          · cases h3
          · cases h3
            assumption
        rcases hs.split with ⟨x, y, e1, e2, hxy⟩ | ⟨c, c', e1, e2⟩
        · rw [e1, e2]
          exact dualRest_rel h hb hb' r (fun l' h' => hl l' (by simp [DualTr.leaves, h'])) x y hxy
        · rw [e1, e2]; trivial
      · cases h2
      · cases h2
      · cases h2
        assumption

/-- Stored results that are related, name by name. -/
def TripleRel (R : C → C → Prop) (p q : String × String × C) : Prop := p.1 = q.1 ∧ p.2.1 = q.2.1 ∧ R p.2.2 q.2.2

theorem results_rel {R : C → C → Prop} {d d' : ColFrame C} (h : FrameRel R d d') {b b' : String}
    (hb : b = "pd" ∨ b = "nb") (hb' : b' = "pd" ∨ b' = "nb") (f : DualFeat C) (hf : f.Keeps R b b') :
    SameResult (List.Forall₂ (TripleRel R)) (f.results d b) (f.results d' b') := by
  cases f with
  | single n t =>
    unfold DualFeat.results
    dsimp only
    rcases (sameResult_cached h t.output (call_rel h hb hb' t hf.1 hf.2)).split with
      ⟨x, y, e1, e2, hxy⟩ | ⟨c, c', e1, e2⟩
    · rw [e1, e2]; exact List.Forall₂.cons ⟨rfl, rfl, hxy⟩ List.Forall₂.nil
    · rw [e1, e2]; trivial
  | multi lbl req outs pd nb =>
    unfold DualFeat.results
    dsimp only
    rw [← missingCols_rel h]
    by_cases hm : missingCols d req = []
    · rw [if_pos hm, if_pos hm]
      have hs : SameResult (List.Forall₂ R) (route b (pd (req.filterMap d)) (nb (req.filterMap d)))
          (route b' (pd (req.filterMap d')) (nb (req.filterMap d'))) := by
        have := hf _ _ (filterMap_rel h req)
        have hr : ∀ (c : String), (c = "pd" ∨ c = "nb") → ∀ xs, route c (pd xs) (nb xs) =
            (if c = "pd" then pd xs else nb xs).mapError .failed := by
          rintro c (rfl | rfl) xs
          · simp [route]
          · simp [route]
        rw [hr b hb, hr b' hb']
        revert this
        cases (if b = "pd" then pd (req.filterMap d) else nb (req.filterMap d)) <;>
          cases (if b' = "pd" then pd (req.filterMap d') else nb (req.filterMap d')) <;> intro this
        · trivial
        · exact this.elim
        · exact this.elim
        · exact this
      rcases hs.split with ⟨xs, ys, e1, e2, hxy⟩ | ⟨c, c', e1, e2⟩
      · rw [e1, e2]
        dsimp only
        have hlen := hxy.length_eq
        by_cases hl : xs.length = outs.length
        · rw [if_pos hl, if_pos (hlen ▸ hl)]
          clear hf hm hlen hl hs e1 e2
          show List.Forall₂ (TripleRel R) _ _
          induction hxy generalizing outs with
          | nil => simp
          | cons hxy _ ih =>
            cases outs with
            | nil => simp
            | cons o outs =>
              simp only [List.zip_cons_cons, List.map_cons]
              exact List.Forall₂.cons ⟨rfl, rfl, hxy⟩ (ih outs)
        · rw [if_neg hl, if_neg (hlen ▸ hl)]
          trivial
      · rw [e1, e2]; trivial
    · rw [if_neg hm, if_neg hm]
      trivial

theorem store_rel {R : C → C → Prop} {rs rs' : List (String × String × C)} (hr : List.Forall₂ (TripleRel R) rs rs') :
    ∀ {s s' : KitState C}, FrameRel R s.out s'.out → FrameRel R s.df s'.df →
      FrameRel R (s.store rs).out (s'.store rs').out ∧ FrameRel R (s.store rs).df (s'.store rs').df := by
  have hset : ∀ {d d' : ColFrame C} (n : String) {x y : C}, FrameRel R d d' → R x y → FrameRel R (d.set n x) (d'.set n y) := by
    intro d d' n x y hd hxy m
    unfold ColFrame.set
    by_cases hm : m = n
    · rw [if_pos hm, if_pos hm]; exact Option.Rel.some hxy
    · rw [if_neg hm, if_neg hm]; exact hd m
  induction hr with
  | nil => intro s s' h1 h2; exact ⟨h1, h2⟩
  | @cons p q ps qs hpq _ ih =>
    intro s s' h1 h2
    obtain ⟨e1, e2, e3⟩ := hpq
    have := ih (s := ⟨s.out.set p.1 p.2.2, s.df.set p.2.1 p.2.2⟩) (s' := ⟨s'.out.set q.1 q.2.2, s'.df.set q.2.1 q.2.2⟩)
      (by rw [e1]; exact hset _ h1 e3) (by rw [e2]; exact hset _ h2 e3)
    exact this

theorem loop_rel {R : C → C → Prop} {b b' : String} (hb : b = "pd" ∨ b = "nb") (hb' : b' = "pd" ∨ b' = "nb")
    (fs : List (DualFeat C)) (hf : ∀ f ∈ fs, f.Keeps R b b') :
    ∀ {s s' : KitState C}, FrameRel R s.out s'.out → FrameRel R s.df s'.df →
      SameResult (fun s s' : KitState C => FrameRel R s.out s'.out) (dualLoop b fs s) (dualLoop b' fs s') := by
  induction fs with
  | nil => intro s s' h1 _; exact h1
  | cons f fs ih =>
    intro s s' h1 h2
    rw [dualLoop, dualLoop]
    rcases (results_rel h2 hb hb' f (hf f (by simp))).split with ⟨rs, rs', e1, e2, hr⟩ | ⟨c, c', e1, e2⟩
    · rw [e1, e2]
      obtain ⟨h3, h4⟩ := store_rel hr h1 h2
      exact ih (fun f' h' => hf f' (by simp [h'])) h3 h4
    · rw [e1, e2]; trivial

/-- **C114 (related implementations).** Let `R` be any relation between columns (equality, equality up to a tolerance,
equality where both are present …) that every operation of the kit keeps, and such that each base transform computes
related columns from related columns under the two backends.  Then the two builds on related frames either both raise or
return frames with the same names and related columns: caching and evaluation order cannot make them drift apart. -/
theorem C114_related (R : C → C → Prop) {d d' : ColFrame C} (hd : FrameRel R d d') {b b' : String}
    (hb : b = "pd" ∨ b = "nb") (hb' : b' = "pd" ∨ b' = "nb") (retain : List String) (feats : List (DualFeat C))
    (hf : ∀ f ∈ feats, f.Keeps R b b') :
    SameResult (FrameRel R) (dualBuild d b retain feats) (dualBuild d' b' retain feats) := by
  unfold dualBuild
  rw [← missingCols_rel hd]
  by_cases h : missingCols d retain = []
  · rw [if_pos h, if_pos h]
    have hs := loop_rel hb hb' feats hf (s := ⟨fun n => if n ∈ retain then d n else none, d⟩)
      (s' := ⟨fun n => if n ∈ retain then d' n else none, d'⟩) (by
        intro n
        dsimp only
        by_cases hn : n ∈ retain
        · rw [if_pos hn, if_pos hn]; exact hd n
        · rw [if_neg hn, if_neg hn]; exact Option.Rel.none) hd
    rcases hs.split with ⟨s, s', e1, e2, hss⟩ | ⟨c, c', e1, e2⟩
    · rw [e1, e2]; exact hss
    · rw [e1, e2]; trivial
  · rw [if_neg h, if_neg h]
    trivial

/-- The features whose two implementations are the same function. -/
def DualFeat.Same : DualFeat C → Prop
  | .single _ t => ∀ l ∈ t.leaves, l.pd = l.nb
  | .multi _ _ _ pd nb => pd = nb

theorem opsKeep_eq (t : DualTr C) : t.OpsKeep Eq := by
  induction t with
  | leaf l => trivial
  | bin n f l r ihl ihr => exact ⟨by rintro x _ y _ rfl rfl; rfl, ihl, ihr⟩
  | un n f t ih => exact ⟨by rintro x _ rfl; rfl, ih⟩
  | comp f r => trivial

/-- **C114 (equal implementations).** If the implementations of every base transform agree, the kit does not depend on
the backend. -/
theorem C114_agree (d : ColFrame C) (retain : List String) (feats : List (DualFeat C)) (h : ∀ f ∈ feats, f.Same) :
    (dualBuild d "pd" retain feats).toOption = (dualBuild d "nb" retain feats).toOption := by
  have hrel := C114_related Eq (d := d) (d' := d) (fun n => by cases d n; exact Option.Rel.none; exact Option.Rel.some rfl)
    (b := "pd") (b' := "nb") (Or.inl rfl) (Or.inr rfl) retain feats (by
      intro f hf
      have hs := h f hf
      cases f with
      | single n t =>
        refine ⟨opsKeep_eq t, ?_⟩
        intro l hl xs ys hxy
        obtain rfl := List.forall₂_eq_eq_eq ▸ hxy
        have e : l.impl "pd" xs = l.impl "nb" xs := by simp [DualLeaf.impl, hs l hl]
        rw [e]
        cases l.impl "nb" xs <;> simp [SameResult]
      | multi lbl req outs pd nb =>
        intro xs ys hxy
        obtain rfl := List.forall₂_eq_eq_eq ▸ hxy
        rw [if_pos rfl, if_neg (by decide), show pd = nb from hs]
        cases nb xs <;> simp [SameResult])
  revert hrel
  cases dualBuild d "pd" retain feats <;> cases dualBuild d "nb" retain feats <;> intro hrel
  · rfl
  · exact hrel.elim
  · exact hrel.elim
  · rename_i x y
    have : x = y := by
      funext n
      have := hrel n
      revert this
      cases x n <;> cases y n <;> intro h'
      · rfl
      · cases h'
      · cases h'
      · cases h'; congr 1
    rw [this]

/-! ### Unknown backends -/

theorem callLeaf_unknown (d : ColFrame C) (b : String) (h1 : b ≠ "pd") (h2 : b ≠ "nb") (l : DualLeaf C) (x : C) :
    callLeaf d b l ≠ .ok x := by
  unfold callLeaf route
  rw [if_neg h1, if_neg h2]
  split_ifs <;> simp

theorem call_unknown (d : ColFrame C) (b : String) (h1 : b ≠ "pd") (h2 : b ≠ "nb") (t : DualTr C) :
    ∀ x, t.call d b = .ok x → ∀ c, t.call d c = .ok x := by
  have key : ∀ (n : String) {e e' : Except CallError C}, (∀ x, e = .ok x → e' = .ok x) →
      ∀ x, dualCached d n e = .ok x → dualCached d n e' = .ok x := by
    intro n e e' h x
    unfold dualCached
    cases d n with
    | none => exact h x
    | some y => exact id
  induction t with
  | leaf l => intro x hx; exact absurd hx (callLeaf_unknown d b h1 h2 l x)
  | bin n f l r ihl ihr =>
    intro x hx c
    rw [DualTr.call] at hx ⊢
    refine key n ?_ x hx
    intro y hy
    cases hl : dualCached d l.output (l.call d b) with
    | error e => rw [hl] at hy; cases hy
    | ok u =>
      rw [hl] at hy
      dsimp only at hy
      cases hr : dualCached d r.output (r.call d b) with
      | error e => rw [hr] at hy; cases hy
      | ok v =>
        rw [hr] at hy
        rw [key _ (fun x hx => ihl x hx c) u hl]
        dsimp only
        rw [key _ (fun x hx => ihr x hx c) v hr]
        exact hy
  | un n f t ih =>
    intro x hx c
    rw [DualTr.call] at hx ⊢
    refine key n ?_ x hx
    intro y hy
    cases hl : dualCached d t.output (t.call d b) with
    | error e => rw [hl] at hy; cases hy
    | ok u =>
      rw [hl] at hy
      rw [key _ (fun x hx => ih x hx c) u hl]
      exact hy
  | comp f r =>
    intro x hx
    rw [DualTr.call] at hx
    unfold callCompose at hx
    rw [if_neg (by rintro (h | h); exacts [h1 h, h2 h])] at hx
    cases hx

theorem results_unknown (d : ColFrame C) (b : String) (h1 : b ≠ "pd") (h2 : b ≠ "nb") (f : DualFeat C) :
    ∀ rs, f.results d b = .ok rs → ∀ c, f.results d c = .ok rs := by
  intro rs hrs c
  cases f with
  | single n t =>
    unfold DualFeat.results at hrs ⊢
    dsimp only at hrs ⊢
    unfold dualCached at hrs ⊢
    cases hd : d t.output with
    | some x => rw [hd] at hrs; exact hrs
    | none =>
      rw [hd] at hrs
      dsimp only at hrs ⊢
      cases hc : t.call d b with
      | error e => rw [hc] at hrs; cases hrs
      | ok x =>
        rw [hc] at hrs
        rw [call_unknown d b h1 h2 t x hc c]
        exact hrs
  | multi lbl req outs pd nb =>
    exfalso
    unfold DualFeat.results at hrs
    dsimp only at hrs
    unfold route at hrs
    rw [if_neg h1, if_neg h2] at hrs
    split_ifs at hrs

theorem loop_unknown (b : String) (h1 : b ≠ "pd") (h2 : b ≠ "nb") (fs : List (DualFeat C)) :
    ∀ s s' : KitState C, dualLoop b fs s = .ok s' → ∀ c, dualLoop c fs s = .ok s' := by
  induction fs with
  | nil => intro s s' h c; exact h
  | cons f fs ih =>
    intro s s' h c
    rw [dualLoop] at h ⊢
    cases hr : f.results s.df b with
    | error e => rw [hr] at h; cases h
    | ok rs =>
      rw [hr] at h
      rw [results_unknown s.df b h1 h2 f rs hr c]
      exact ih _ _ h c

/-- **C114 (unknown backends).** A backend name other than `"pd"` and `"nb"` is rejected as soon as a base transform, a
composition or a multi-output transform has to run.  A build that returns in spite of it computed nothing but
operations on columns already present, and every backend returns the same frame. -/
theorem C114_unknown_backend (d : ColFrame C) (b : String) (h1 : b ≠ "pd") (h2 : b ≠ "nb") :
    (∀ l x, (DualTr.leaf l : DualTr C).call d b ≠ .ok x) ∧
    (∀ f r, (DualTr.comp f r : DualTr C).call d b = .error .badBackend) ∧
    (∀ lbl req outs pd nb rs, (DualFeat.multi lbl req outs pd nb : DualFeat C).results d b ≠ .ok rs) ∧
    (∀ retain feats o, dualBuild d b retain feats = .ok o → ∀ c, dualBuild d c retain feats = .ok o) := by
  refine ⟨fun l x => callLeaf_unknown d b h1 h2 l x, fun f r => ?_, fun lbl req outs pd nb rs h => ?_,
    fun retain feats o h c => ?_⟩
  · rw [DualTr.call]
    unfold callCompose
    rw [if_neg (by rintro (h | h); exacts [h1 h, h2 h])]
  · unfold DualFeat.results route at h
    dsimp only at h
    rw [if_neg h1, if_neg h2] at h
    split_ifs at h
  · unfold dualBuild at h ⊢
    split_ifs at h ⊢ with hm
    cases hl : dualLoop b feats ⟨fun n => if n ∈ retain then d n else none, d⟩ with
    | error e => rw [hl] at h; cases h
    | ok s =>
      rw [hl] at h
      rw [loop_unknown b h1 h2 feats _ s hl c]
      exact h

example : "np" ≠ "pd" ∧ "np" ≠ "nb" := by decide

/-- A misspelt backend is not noticed when the feature's column is already in the frame. -/
theorem C114_misspelt_accepted (n : String) (l : DualLeaf C) (d : ColFrame C) (x : C) (hx : d l.output = some x) (b : String) :
    ∃ o, dualBuild d b [] [.single n (.leaf l)] = .ok o ∧ o n = some x := by
  refine ⟨ColFrame.set (fun _ => none) n x, ?_, by simp [ColFrame.set]⟩
  simp [dualBuild, missingCols, dualLoop, DualFeat.results, dualCached, DualTr.output, hx, KitState.store]

/- Non-vacuity: a sum of two means on a frame with one column, with the two implementations of the mean. -/
example :
    let mean : DualLeaf ℕ := ⟨true, ["close"], "mean", fun xs => .ok (xs.headD 0 + 1), fun xs => .ok (xs.headD 0 + 2)⟩
    let d : ColFrame ℕ := fun n => if n = "close" then some 5 else none
    let kit : List (DualFeat ℕ) := [.single "a" (.un "neg" (fun x => 10 * x) (.leaf mean))]
    ((dualBuild d "pd" [] kit).toOption.bind (fun o => o "a"),
     (dualBuild d "nb" [] kit).toOption.bind (fun o => o "a"),
     (dualBuild d "numba" [] kit).toOption.isSome,
     (dualBuild d "pd" ["open"] kit).toOption.isSome) = (some 60, some 70, false, false) := by decide +kernel

example : callLeaf (fun n => if n = "a" then some 1 else none) "no such backend"
    (⟨false, ["b", "a", "c"], "x", fun _ => .ok 0, fun _ => .ok 0⟩ : DualLeaf ℕ) = .error (.missing ["b", "c"]) := by
  rfl

/-! ### The timing report -/

theorem setTime_keys (info : List (String × ℚ)) (key : String) (t : ℚ) :
    (setTime info key t).map Prod.fst = if key ∈ info.map Prod.fst then info.map Prod.fst else info.map Prod.fst ++ [key] := by
  unfold setTime
  split_ifs with h
  · rw [List.map_map]
    apply List.map_congr_left
    rintro p hp
    by_cases e : p.1 = key <;> simp [e]
  · simp

theorem setTime_nodup (info : List (String × ℚ)) (key : String) (t : ℚ) (h : (info.map Prod.fst).Nodup) :
    ((setTime info key t).map Prod.fst).Nodup := by
  rw [setTime_keys]
  split_ifs with hk
  · exact h
  · rw [List.nodup_append]
    exact ⟨h, by simp, by rintro a ha b hb; simp at hb; subst hb; rintro rfl; exact hk ha⟩

theorem mem_setTime (info : List (String × ℚ)) (key : String) (t : ℚ) (p : String × ℚ) :
    p ∈ setTime info key t ↔ p = (key, t) ∨ (p ∈ info ∧ p.1 ≠ key) := by
  unfold setTime
  split_ifs with h
  · rw [List.mem_map]
    constructor
    · rintro ⟨q, hq, rfl⟩
      by_cases e : q.1 = key
      · simp [e]
      · simp [e, hq]
    · rintro (rfl | ⟨hp, hne⟩)
      · obtain ⟨q, hq, hqk⟩ := List.mem_map.mp h
        exact ⟨q, hq, by simp [hqk]⟩
      · exact ⟨p, hp, by simp [hne]⟩
  · rw [List.mem_append, List.mem_singleton]
    constructor
    · rintro (hp | rfl)
      · exact Or.inr ⟨hp, fun e => h (e ▸ List.mem_map_of_mem hp)⟩
      · exact Or.inl rfl
    · rintro (rfl | ⟨hp, _⟩)
      · exact Or.inr rfl
      · exact Or.inl hp

theorem timingInfo_concat (runs : List (String × ℚ)) (r : String × ℚ) :
    timingInfo (runs ++ [r]) = setTime (timingInfo runs) r.1 r.2 := by
  unfold timingInfo
  rw [List.foldl_append]
  rfl

theorem timingInfo_nodup (runs : List (String × ℚ)) : ((timingInfo runs).map Prod.fst).Nodup := by
  induction runs using List.reverseRecOn with
  | nil => simp [timingInfo]
  | append_singleton runs r ih => rw [timingInfo_concat]; exact setTime_nodup _ _ _ ih

/-- The dictionary holds the last time of every name. -/
theorem mem_timingInfo (runs : List (String × ℚ)) (p : String × ℚ) :
    p ∈ timingInfo runs ↔ ∃ a b, runs = a ++ p :: b ∧ ∀ q ∈ b, q.1 ≠ p.1 := by
  induction runs using List.reverseRecOn with
  | nil => simp [timingInfo]
  | append_singleton runs r ih =>
    rw [timingInfo_concat, mem_setTime, ih]
    constructor
    · rintro (rfl | ⟨⟨a, b, rfl, hb⟩, hne⟩)
      · exact ⟨runs, [], rfl, by simp⟩
      · refine ⟨a, b ++ [r], by simp, ?_⟩
        intro q hq
        rcases List.mem_append.mp hq with hq | hq
        · exact hb q hq
        · rw [List.mem_singleton.mp hq]; exact fun e => hne e.symm
    · rintro ⟨a, b, e, hb⟩
      rcases List.eq_nil_or_concat b with rfl | ⟨b', x, rfl⟩
      · have := List.append_inj' e rfl
        left
        have h2 := this.2
        simp at h2
        exact h2.symm ▸ rfl
      · right
        rw [List.concat_eq_append] at e hb
        have e' : runs ++ [r] = (a ++ p :: b') ++ [x] := by rw [e]; simp
        obtain ⟨h1, h2⟩ := List.append_inj' e' rfl
        have h3 : r = x := by simpa using h2
        refine ⟨⟨a, b', h1, fun q hq => hb q (by simp [hq])⟩, ?_⟩
        intro hc
        exact hb x (by simp) (by rw [← h3]; exact hc.symm)

theorem maxTime_spec (l : List (String × ℚ)) (h : l ≠ []) : (∀ p ∈ l, p.2 ≤ maxTime l) ∧ ∃ p ∈ l, p.2 = maxTime l := by
  cases l with
  | nil => exact absurd rfl h
  | cons p ps =>
    clear h
    unfold maxTime
    dsimp only
    suffices hs : ∀ (ps : List (String × ℚ)) (m : ℚ), m ≤ ps.foldl (fun m q => max m q.2) m ∧
        (∀ q ∈ ps, q.2 ≤ ps.foldl (fun m q => max m q.2) m) ∧
        (ps.foldl (fun m q => max m q.2) m = m ∨ ∃ q ∈ ps, q.2 = ps.foldl (fun m q => max m q.2) m) by
      obtain ⟨h1, h2, h3⟩ := hs ps p.2
      refine ⟨?_, ?_⟩
      · intro q hq
        rcases List.mem_cons.mp hq with rfl | hq
        · exact h1
        · exact h2 q hq
      · rcases h3 with h | ⟨q, hq, h⟩
        · exact ⟨p, by simp, h.symm⟩
        · exact ⟨q, by simp [hq], h⟩
    intro ps
    induction ps with
    | nil => intro m; simp
    | cons x xs ih =>
      intro m
      rw [List.foldl_cons]
      obtain ⟨h1, h2, h3⟩ := ih (max m x.2)
      refine ⟨(le_max_left _ _).trans h1, ?_, ?_⟩
      · intro q hq
        rcases List.mem_cons.mp hq with rfl | hq
        · exact (le_max_right _ _).trans h1
        · exact h2 q hq
      · rcases h3 with h | ⟨q, hq, h⟩
        · rcases max_choice m x.2 with e | e
          · exact Or.inl (h.trans e)
          · exact Or.inr ⟨x, by simp, (h.trans e).symm⟩
        · exact Or.inr ⟨q, by simp [hq], h⟩

instance : Std.Total (fun p q : String × ℚ => q.2 ≤ p.2) := ⟨fun p q => le_total q.2 p.2⟩
instance : IsTrans (String × ℚ) (fun p q => q.2 ≤ p.2) := ⟨fun _ _ _ h1 h2 => h2.trans h1⟩

/-- **C114 (timing report).** The report has one line per feature name, with the time of the last feature of that name,
slowest first.  No bar is longer than fifty characters, a slower feature never has a shorter bar, and if any time is
positive the slowest feature has the full bar. -/
theorem C114_timing (runs : List (String × ℚ)) :
    let rep := timingReport runs
    (rep.map Prod.fst).Nodup ∧
    (∀ n t, (∃ k, (n, k, t) ∈ rep) ↔ ∃ a b, runs = a ++ (n, t) :: b ∧ ∀ q ∈ b, q.1 ≠ n) ∧
    rep.Pairwise (fun p q => q.2.2 ≤ p.2.2 ∧ q.2.1 ≤ p.2.1) ∧
    (∀ p ∈ rep, p.2.1 ≤ 50 ∧ (p.2.1 : ℚ) ≤ max 0 (50 * p.2.2 / maxTime (timingInfo runs))) ∧
    ((∃ p ∈ rep, 0 < p.2.2) → ∃ p, rep.head? = some p ∧ p.2.1 = 50) := by
  intro rep
  have hperm : ((timingInfo runs).insertionSort (fun p q => q.2 ≤ p.2)).Perm (timingInfo runs) := List.perm_insertionSort _ _
  have hsort : ((timingInfo runs).insertionSort (fun p q => q.2 ≤ p.2)).Pairwise (fun p q => q.2 ≤ p.2) :=
    List.pairwise_insertionSort _ _
  have hmem : ∀ n t, (∃ k, (n, k, t) ∈ rep) ↔ (n, t) ∈ timingInfo runs := by
    intro n t
    show (∃ k, (n, k, t) ∈ List.map _ _) ↔ _
    rw [← hperm.mem_iff]
    constructor
    · rintro ⟨k, hk⟩
      obtain ⟨q, hq, e⟩ := List.mem_map.mp hk
      simp only [Prod.mk.injEq] at e
      obtain ⟨e1, -, e3⟩ := e
      rw [← e1, ← e3]; exact hq
    · intro h
      exact ⟨_, List.mem_map.mpr ⟨_, h, rfl⟩⟩
  have hrep : rep = ((timingInfo runs).insertionSort (fun p q => q.2 ≤ p.2)).map
      (fun p => (p.1, timingBar (maxTime ((timingInfo runs).insertionSort (fun p q => q.2 ≤ p.2))) p.2, p.2)) := rfl
  have hfst : (rep.map Prod.fst).Perm ((timingInfo runs).map Prod.fst) := by
    rw [hrep, List.map_map]
    exact hperm.map _
  have hmono : ∀ M s t : ℚ, s ≤ t → timingBar M s ≤ timingBar M t := by
    intro M s t hst
    unfold timingBar
    split_ifs with h
    · apply Int.toNat_le_toNat
      apply Int.floor_le_floor
      exact mul_le_mul_of_nonneg_right (div_le_div_of_nonneg_right hst h.le) (by norm_num)
    · exact le_refl _
  have hmaxeq : maxTime ((timingInfo runs).insertionSort (fun p q => q.2 ≤ p.2)) = maxTime (timingInfo runs) := by
    by_cases hne : timingInfo runs = []
    · rw [hne]; rfl
    · have hne' : (timingInfo runs).insertionSort (fun p q => q.2 ≤ p.2) ≠ [] := by
        intro h; rw [h] at hperm; exact hne (hperm.symm.eq_nil)
      obtain ⟨a1, p, hp, ap⟩ := maxTime_spec _ hne
      obtain ⟨b1, q, hq, bq⟩ := maxTime_spec _ hne'
      apply le_antisymm
      · rw [← bq]; exact a1 q (hperm.mem_iff.mp hq)
      · rw [← ap]; exact b1 p (hperm.mem_iff.mpr hp)
  refine ⟨hfst.nodup_iff.mpr (timingInfo_nodup runs), fun n t => (hmem n t).trans (mem_timingInfo runs (n, t)), ?_, ?_, ?_⟩
  · rw [hrep, List.pairwise_map]
    exact hsort.imp (fun {p q} h => ⟨h, hmono _ _ _ h⟩)
  · intro p hp
    rw [hrep] at hp
    obtain ⟨q, hq, rfl⟩ := List.mem_map.mp hp
    rw [hmaxeq]
    have hle : q.2 ≤ maxTime (timingInfo runs) := (maxTime_spec _ (by
      intro h; rw [h] at hq; simp at hq)).1 q (hperm.mem_iff.mp hq)
    dsimp only
    unfold timingBar
    split_ifs with h
    · have hr : q.2 / maxTime (timingInfo runs) * 50 ≤ 50 := by
        have : q.2 / maxTime (timingInfo runs) ≤ 1 := (div_le_one h).mpr hle
        linarith
      constructor
      · have h1 : ⌊q.2 / maxTime (timingInfo runs) * 50⌋ ≤ 50 := by
          have := Int.floor_le (q.2 / maxTime (timingInfo runs) * 50)
          have h2 : ((⌊q.2 / maxTime (timingInfo runs) * 50⌋ : ℤ) : ℚ) ≤ ((50 : ℤ) : ℚ) := by push_cast; linarith
          exact_mod_cast h2
        omega
      · have h1 := Int.floor_le (q.2 / maxTime (timingInfo runs) * 50)
        rcases le_total 0 ⌊q.2 / maxTime (timingInfo runs) * 50⌋ with h2 | h2
        · apply le_max_of_le_right
          have h3 : ((⌊q.2 / maxTime (timingInfo runs) * 50⌋.toNat : ℕ) : ℚ) = ((⌊q.2 / maxTime (timingInfo runs) * 50⌋ : ℤ) : ℚ) := by
            have := Int.toNat_of_nonneg h2
            exact_mod_cast this
          rw [h3]
          calc _ ≤ _ := h1
            _ = _ := by ring
        · apply le_max_of_le_left
          rw [Int.toNat_of_nonpos h2]; simp
    · simp
  · rintro ⟨p, hp, hpos⟩
    rw [hrep] at hp
    obtain ⟨q, hq, rfl⟩ := List.mem_map.mp hp
    rw [hrep, hmaxeq]
    have hle : q.2 ≤ maxTime (timingInfo runs) := (maxTime_spec _ (by
      intro h; rw [h] at hq; simp at hq)).1 q (hperm.mem_iff.mp hq)
    have hM : 0 < maxTime (timingInfo runs) := lt_of_lt_of_le hpos hle
    obtain ⟨-, r, hr, hrm⟩ := maxTime_spec (timingInfo runs) (by
      intro h; have := hperm.mem_iff.mp hq; rw [h] at this; simp at this)
    cases hs : (timingInfo runs).insertionSort (fun p q => q.2 ≤ p.2) with
    | nil => rw [hs] at hq; simp at hq
    | cons x xs =>
      refine ⟨_, rfl, ?_⟩
      have hx : x.2 = maxTime (timingInfo runs) := by
        have hxm : x ∈ timingInfo runs := hperm.mem_iff.mp (by rw [hs]; simp)
        apply le_antisymm ((maxTime_spec _ (by intro h; rw [h] at hxm; simp at hxm)).1 x hxm)
        rw [← hrm]
        have hr' := hperm.mem_iff.mpr hr
        rw [hs] at hr' hsort
        rcases List.mem_cons.mp hr' with rfl | hr'
        · exact le_refl _
        · exact (List.pairwise_cons.mp hsort).1 r hr'
      dsimp only
      unfold timingBar
      rw [if_pos hM, hx, div_self hM.ne', one_mul, show ⌊(50 : ℚ)⌋ = 50 from by norm_num]
      rfl

example : timingReport [("a", 1), ("b", 4), ("a", 2)] = [("b", 50, 4), ("a", 25, 2)] := by decide +kernel

end FinML
