/-
C44: the dependency graph built from a list of features.
C45: features that read the columns of other features.
-/
import Verif.Props.FeatureKit

set_option linter.unusedSectionVars false

namespace FinML

variable {C : Type}

/-! ### Edges of the feature graph -/

theorem addNode_succ (g : Graph String) (x : String) : (g.addNode x).succ = g.succ := rfl

theorem addEdge_wf {g : Graph String} (s d : String) (w : WellFormed g.nodes g.succ) :
    WellFormed (g.addEdge s d).nodes (g.addEdge s d).succ :=
  (C44_construction_well_formed.2.2 g s d w).1

theorem addEdge_mem {g : Graph String} (s d : String) (w : WellFormed g.nodes g.succ) (u v : String) :
    v ∈ (g.addEdge s d).succ u ↔ v ∈ g.succ u ∨ (u = s ∧ v = d) :=
  (C44_construction_well_formed.2.2 g s d w).2 u v

theorem addNode_wf {g : Graph String} (x : String) (w : WellFormed g.nodes g.succ) :
    WellFormed (g.addNode x).nodes (g.addNode x).succ :=
  C44_construction_well_formed.2.1 g x w

/-- Edges added by a conditional loop. -/
theorem foldEdges {step : Graph String → String → Graph String} {P : String → Prop} {src : String → String}
    {dst : String}
    (hstep : ∀ g b, WellFormed g.nodes g.succ → WellFormed (step g b).nodes (step g b).succ ∧
      ∀ u v, v ∈ (step g b).succ u ↔ v ∈ g.succ u ∨ (P b ∧ u = src b ∧ v = dst)) (l : List String) :
    ∀ g : Graph String, WellFormed g.nodes g.succ →
      WellFormed (l.foldl step g).nodes (l.foldl step g).succ ∧
      ∀ u v, v ∈ (l.foldl step g).succ u ↔ v ∈ g.succ u ∨ (v = dst ∧ ∃ b ∈ l, P b ∧ u = src b) := by
  induction l with
  | nil => intro g w; exact ⟨w, by intro u v; simp⟩
  | cons a l ih =>
    intro g w
    obtain ⟨w1, m1⟩ := hstep g a w
    obtain ⟨w2, m2⟩ := ih (step g a) w1
    refine ⟨w2, ?_⟩
    intro u v
    rw [List.foldl_cons, m2, m1]
    simp only [List.mem_cons, exists_eq_or_imp]
    constructor
    · rintro ((h | ⟨h1, h2, h3⟩) | ⟨h1, h2⟩)
      · exact Or.inl h
      · exact Or.inr ⟨h3, Or.inl ⟨h1, h2⟩⟩
      · exact Or.inr ⟨h1, Or.inr h2⟩
    · rintro (h | ⟨h1, h2 | h2⟩)
      · exact Or.inl (Or.inl h)
      · exact Or.inl (Or.inr ⟨h2.1, h2.2, h1⟩)
      · exact Or.inr ⟨h1, h2⟩

theorem addFeature_edges (outputs : List String) (g : Graph String) (f : Feat C)
    (w : WellFormed g.nodes g.succ) :
    WellFormed (addFeature outputs g f).nodes (addFeature outputs g f).succ ∧
    ∀ u v, v ∈ (addFeature outputs g f).succ u ↔ v ∈ g.succ u ∨
      (v = f.name ∧ ((∃ r ∈ f.reqs, u = "input:" ++ r) ∨
        (u ∈ outputs ∧ u ≠ f.name ∧ (u ∈ f.children ∨ u ∈ f.reqs)))) := by
  have h0 := addNode_wf f.name w
  obtain ⟨w1, m1⟩ := foldEdges (step := fun g r => (g.addNode ("input:" ++ r)).addEdge ("input:" ++ r) f.name)
    (P := fun _ => True) (src := fun r => "input:" ++ r) (dst := f.name)
    (by
      intro g b w
      have w' := addNode_wf ("input:" ++ b) w
      refine ⟨addEdge_wf _ _ w', ?_⟩
      intro u v
      rw [addEdge_mem _ _ w', addNode_succ]
      simp) f.reqs _ h0
  obtain ⟨w2, m2⟩ := foldEdges
    (step := fun g c => if c ∈ outputs ∧ c ≠ f.name then g.addEdge c f.name else g)
    (P := fun c => c ∈ outputs ∧ c ≠ f.name) (src := fun c => c) (dst := f.name)
    (by
      intro g b w
      split
      · rename_i hb
        refine ⟨addEdge_wf _ _ w, ?_⟩
        intro u v
        rw [addEdge_mem _ _ w]
        simp [hb]
      · rename_i hb
        exact ⟨w, by intro u v; simp [hb]⟩) f.children _ w1
  obtain ⟨w3, m3⟩ := foldEdges
    (step := fun g o => if o = f.name then g else if o ∈ f.reqs then g.addEdge o f.name else g)
    (P := fun o => o ≠ f.name ∧ o ∈ f.reqs) (src := fun o => o) (dst := f.name)
    (by
      intro g b w
      split
      · rename_i hb
        exact ⟨w, by intro u v; simp [hb]⟩
      · rename_i hb
        split
        · rename_i hr
          refine ⟨addEdge_wf _ _ w, ?_⟩
          intro u v
          rw [addEdge_mem _ _ w]
          simp [hb, hr]
        · rename_i hr
          exact ⟨w, by intro u v; simp [hr]⟩) outputs _ w2
  refine ⟨w3, ?_⟩
  intro u v
  have e : v ∈ (addFeature outputs g f).succ u ↔ _ := m3 u v
  rw [e, m2, m1, addNode_succ]
  constructor
  · rintro (((h | ⟨h1, r, hr, _, hu⟩) | ⟨h1, c, hc, ⟨hc1, hc2⟩, rfl⟩) | ⟨h1, o, ho, ⟨ho1, ho2⟩, rfl⟩)
    · exact Or.inl h
    · exact Or.inr ⟨h1, Or.inl ⟨r, hr, hu⟩⟩
    · exact Or.inr ⟨h1, Or.inr ⟨hc1, hc2, Or.inl hc⟩⟩
    · exact Or.inr ⟨h1, Or.inr ⟨ho, ho1, Or.inr ho2⟩⟩
  · rintro (h | ⟨h1, ⟨r, hr, hu⟩ | ⟨hu1, hu2, hu3 | hu3⟩⟩)
    · exact Or.inl (Or.inl (Or.inl h))
    · exact Or.inl (Or.inl (Or.inr ⟨h1, r, hr, trivial, hu⟩))
    · exact Or.inl (Or.inr ⟨h1, u, hu3, ⟨hu1, hu2⟩, rfl⟩)
    · exact Or.inr ⟨h1, u, hu1, ⟨hu2, hu3⟩, rfl⟩

/-- The edges of the feature graph: from every required input, and from every other feature whose
name is a direct child output or a required column. -/
theorem C44_feature_graph_edges (feats : List (Feat C)) :
    WellFormed (buildFeatureGraph feats).nodes (buildFeatureGraph feats).succ ∧
    ∀ u v, v ∈ (buildFeatureGraph feats).succ u ↔
      ∃ f ∈ feats, v = f.name ∧ ((∃ r ∈ f.reqs, u = "input:" ++ r) ∨
        (u ∈ stringNames feats ∧ u ≠ f.name ∧ (u ∈ f.children ∨ u ∈ f.reqs))) := by
  unfold buildFeatureGraph
  generalize stringNames feats = outputs
  have key : ∀ (l : List (Feat C)) (g : Graph String), WellFormed g.nodes g.succ →
      WellFormed (l.foldl (addFeature outputs) g).nodes (l.foldl (addFeature outputs) g).succ ∧
      ∀ u v, v ∈ (l.foldl (addFeature outputs) g).succ u ↔ v ∈ g.succ u ∨
        ∃ f ∈ l, v = f.name ∧ ((∃ r ∈ f.reqs, u = "input:" ++ r) ∨
          (u ∈ outputs ∧ u ≠ f.name ∧ (u ∈ f.children ∨ u ∈ f.reqs))) := by
    intro l
    induction l with
    | nil => intro g w; exact ⟨w, by intro u v; simp⟩
    | cons a l ih =>
      intro g w
      obtain ⟨w1, m1⟩ := addFeature_edges outputs g a w
      obtain ⟨w2, m2⟩ := ih _ w1
      refine ⟨w2, ?_⟩
      intro u v
      rw [List.foldl_cons, m2, m1]
      simp only [List.mem_cons, exists_eq_or_imp]
      exact or_assoc
  obtain ⟨w, m⟩ := key feats Graph.empty C44_construction_well_formed.1
  refine ⟨w, ?_⟩
  intro u v
  rw [m]
  simp [Graph.empty]

/-! ### Topological execution of dependent features -/

/-- The computations never fail when their columns are present. -/
def Tr.Total : Tr C → Prop
  | .leaf l => ∀ xs, xs.length = l.requires.length → ∃ y, l.run xs = .ok y
  | .bin _ _ l r => l.Total ∧ r.Total
  | .un _ _ t => t.Total
  | .comp f r => f.requires ≠ [] ∧ (∀ xs, xs.length = f.requires.length → ∃ y, f.run xs = .ok y) ∧
      ∀ l ∈ r, ∃ c, l.requires = [c] ∧ ∀ x, ∃ y, l.run [x] = .ok y

theorem gather_ok (D : ColFrame C) (ns : List String) (h : ∀ n ∈ ns, (D n).isSome) :
    ∃ xs, gather D ns = .ok xs ∧ xs.length = ns.length := by
  induction ns with
  | nil => exact ⟨[], rfl, rfl⟩
  | cons n ns ih =>
    obtain ⟨xs, hxs, hl⟩ := ih (fun m hm => h m (List.mem_cons_of_mem _ hm))
    obtain ⟨x, hx⟩ := Option.isSome_iff_exists.mp (h n (by simp))
    refine ⟨x :: xs, ?_, by simp [hl]⟩
    unfold gather
    rw [hx, hxs]

theorem evalLeaf_ok (D : ColFrame C) (l : Leaf C) (h : ∀ n ∈ l.requires, (D n).isSome)
    (ht : ∀ xs, xs.length = l.requires.length → ∃ y, l.run xs = .ok y) : ∃ y, evalLeaf D l = .ok y := by
  obtain ⟨xs, hxs, hl⟩ := gather_ok D l.requires h
  obtain ⟨y, hy⟩ := ht xs hl
  exact ⟨y, by unfold evalLeaf; rw [hxs]; exact hy⟩

theorem cachedOr_ok (D : ColFrame C) (n : String) (e : Except String C) (h : ∃ y, e = .ok y) :
    ∃ y, cachedOr D n e = .ok y := by
  unfold cachedOr
  split
  · exact ⟨_, rfl⟩
  · exact h

theorem composeRest_ok (D : ColFrame C) (ls : List (Leaf C))
    (h : ∀ l ∈ ls, ∃ c, l.requires = [c] ∧ ∀ x, ∃ y, l.run [x] = .ok y) :
    ∀ v, ∃ y, composeRest D v ls = .ok y := by
  induction ls with
  | nil => intro v; exact ⟨v, rfl⟩
  | cons l ls ih =>
    intro v
    obtain ⟨c, hc, hrun⟩ := h l (by simp)
    have hone : ∀ x, ∃ y, evalLeaf (oneColumn (l.requires.headD "") x) l = .ok y := by
      intro x
      obtain ⟨y, hy⟩ := hrun x
      refine ⟨y, ?_⟩
      unfold evalLeaf
      rw [hc]
      simp [gather, oneColumn, hy]
    have hs : ∃ w, composeStep D v l = .ok w := by
      unfold composeStep
      split
      · exact ⟨_, rfl⟩
      · simp only []
        split
        · exact hone _
        · exact hone _
    obtain ⟨w, hw⟩ := hs
    unfold composeRest
    rw [hw]
    exact ih (fun m hm => h m (List.mem_cons_of_mem _ hm)) w

theorem eval_ok (D : ColFrame C) (t : Tr C) : t.Total → (∀ r ∈ t.flatRequires, (D r).isSome) →
    ∃ y, t.eval D = .ok y := by
  induction t with
  | leaf l => intro ht hr; exact evalLeaf_ok D l hr ht
  | bin n f l r ihl ihr =>
    intro ht hr
    obtain ⟨a, ha⟩ := cachedOr_ok D l.output _ (ihl ht.1 (fun x hx => hr x (by simp [Tr.flatRequires, hx])))
    obtain ⟨b, hb⟩ := cachedOr_ok D r.output _ (ihr ht.2 (fun x hx => hr x (by simp [Tr.flatRequires, hx])))
    unfold Tr.eval
    apply cachedOr_ok
    rw [ha, hb]
    exact ⟨_, rfl⟩
  | un n f t ih =>
    intro ht hr
    obtain ⟨a, ha⟩ := cachedOr_ok D t.output _ (ih ht hr)
    unfold Tr.eval
    apply cachedOr_ok
    rw [ha]
    exact ⟨_, rfl⟩
  | comp f r =>
    intro ht hr
    obtain ⟨hne, hf, hrest⟩ := ht
    unfold Tr.eval runPipeline
    have hhead : (D (f.requires.headD "")).isSome := by
      apply hr
      cases hreq : f.requires with
      | nil => exact absurd hreq hne
      | cons c cs => simp [Tr.flatRequires, hreq]
    obtain ⟨x0, hx0⟩ := Option.isSome_iff_exists.mp hhead
    rw [hx0]
    simp only []
    split
    · exact ⟨_, rfl⟩
    · have h1 : ∃ v, composeFirst D f = .ok v := by
        unfold composeFirst
        split
        · exact ⟨_, rfl⟩
        · exact evalLeaf_ok D f hr hf
      obtain ⟨v, hv⟩ := h1
      rw [hv]
      exact composeRest_ok D r hrest v

/-- A list of features runs through when each finds its columns in the data or among the outputs of
the features before it. -/
theorem buildLoop_ok (fs : List (Feat C)) : ∀ (s : KitState C),
    (∀ f ∈ fs, ∃ t, f = .single t.output t ∧ t.Total) →
    (∀ p f q, fs = p ++ f :: q → ∀ r ∈ f.reqs, (s.df r).isSome ∨ r ∈ p.map Feat.name) →
    ∃ s', buildLoop fs s = .ok s' := by
  induction fs with
  | nil => intro s _ _; exact ⟨s, rfl⟩
  | cons f fs ih =>
    intro s hf hr
    obtain ⟨t, rfl, ht⟩ := hf f (by simp)
    have hreq : ∀ r ∈ t.flatRequires, (s.df r).isSome := by
      intro r hrr
      rcases hr [] (.single t.output t) fs rfl r hrr with h | h
      · exact h
      · simp at h
    obtain ⟨y, hy⟩ := cachedOr_ok s.df t.output _ (eval_ok s.df t ht hreq)
    have hres : (Feat.single t.output t).results s.df = .ok [(t.output, t.output, y)] := by
      simp only [Feat.results, featureCall]
      rw [hy]
    unfold buildLoop
    rw [hres]
    apply ih
    · exact fun g hg => hf g (List.mem_cons_of_mem _ hg)
    · intro p g q hpq r hrr
      have := hr (.single t.output t :: p) g q (by rw [hpq]; rfl) r hrr
      show ((s.df.set t.output y) r).isSome ∨ _
      unfold ColFrame.set
      split
      · left; rfl
      · rename_i hne
        rcases this with h | h
        · left; exact h
        · right
          rw [List.map_cons, List.mem_cons] at h
          rcases h with h | h
          · exact absurd h hne
          · exact h

/-- Topological execution of features that read each other's columns succeeds, whatever the order in
which they were listed and whatever order Python's sets have: the features must keep their default
names, every column must come from the data or from another feature, and no feature may depend on
itself through others. -/
theorem C44_topological_build_succeeds (d : ColFrame C) (retain : List String) (feats : List (Feat C))
    (nameSet : List String)
    (hn : (feats.map Feat.name).Nodup) (hset : nameSet.Perm (feats.map Feat.name))
    (hf : ∀ f ∈ feats, ∃ t, f = .single t.output t ∧ t.Total)
    (hreq : ∀ f ∈ feats, ∀ r ∈ f.reqs, (d r).isSome ∨ (r ∈ feats.map Feat.name ∧ r ≠ f.name))
    (hac : ∀ f ∈ feats, ¬ BehindCycle nameSet
      (fun u => ((buildFeatureGraph feats).succ u).filter (fun v => v ∈ nameSet)) f.name)
    (hret : ∀ n ∈ retain, (d n).isSome) :
    ∃ out, buildTopo d retain feats nameSet = .ok out := by
  obtain ⟨w, hedge⟩ := C44_feature_graph_edges feats
  have hperm := C44_kit_order_is_permutation (feats.map Feat.name) nameSet _ hn hset w.succNodup
  have hseq := C44_each_feature_once Feat.name feats nameSet _ hn hset w.succNodup
  have hdep := C44_kit_dependencies_first (feats.map Feat.name) nameSet _ hn hset w.succNodup
  unfold buildTopo
  generalize htopo : topologicalOrder (feats.map Feat.name) nameSet (buildFeatureGraph feats).succ = topo
    at hperm hseq hdep
  have hnames : (featuresSeq Feat.name feats topo).map Feat.name = topo := by
    unfold featuresSeq
    have hrem : feats.filter (fun f => f.name ∉ topo) = [] := by
      rw [List.filter_eq_nil_iff]
      intro f hf
      have := hperm.mem_iff.mpr (List.mem_map_of_mem (f := Feat.name) hf)
      simpa using this
    rw [hrem, List.append_nil]
    have : ∀ l : List String, (∀ n ∈ l, n ∈ feats.map Feat.name) →
        (l.filterMap (lastNamed Feat.name feats)).map Feat.name = l := by
      intro l hl
      induction l with
      | nil => rfl
      | cons a l ih =>
        obtain ⟨f, hf, hfa⟩ := List.mem_map.mp (hl a (by simp))
        rw [List.filterMap_cons, ← hfa, lastNamed_self Feat.name feats hn f hf]
        simp only [List.map_cons]
        rw [ih (fun n h => hl n (List.mem_cons_of_mem _ h))]
    exact this topo (fun n h => hperm.mem_iff.mp h)
  have hstr : ∀ l : List (Feat C), (∀ f ∈ l, ∃ t, f = .single t.output t ∧ t.Total) →
      stringNames l = l.map Feat.name := by
    intro l hl
    induction l with
    | nil => rfl
    | cons a l ih =>
      obtain ⟨t, rfl, _⟩ := hl a (by simp)
      simp only [stringNames, List.map_cons]
      rw [ih (fun g hg => hl g (List.mem_cons_of_mem _ hg))]
      rfl
  unfold buildKit
  have hretained : retained d retain = .ok (fun n => if n ∈ retain then d n else none) := by
    unfold retained
    rw [if_pos]
    simpa using hret
  rw [hretained]
  simp only []
  obtain ⟨s', hs'⟩ := buildLoop_ok (featuresSeq Feat.name feats topo)
    ⟨fun n => if n ∈ retain then d n else none, d⟩
    (fun f h => hf f (hseq.mem_iff.mp h))
    (by
      intro p f q hpq r hr
      have hfm : f ∈ feats := hseq.mem_iff.mp (by rw [hpq]; simp)
      rcases hreq f hfm r hr with h | ⟨h1, h2⟩
      · exact Or.inl h
      · right
        have hsplit : topo = p.map Feat.name ++ f.name :: q.map Feat.name := by
          rw [← hnames, hpq]; simp
        refine hdep r f.name h1 (List.mem_map_of_mem hfm) ?_ (hac f hfm) _ _ hsplit
        rw [hedge]
        exact ⟨f, hfm, rfl, Or.inr ⟨by rw [hstr feats hf]; exact h1, h2, Or.inr hr⟩⟩)
  rw [hs']
  exact ⟨_, rfl⟩

/-! ### Values of dependent features -/

/-- Values of a pipeline under a reading `V` of column names: every way of obtaining a step's value
gives the same value. -/
def ChainReads (V : ColFrame C) : C → List (Leaf C) → C → Prop
  | v, [], x => x = v
  | v, l :: ls, x => ∃ w, (∀ u, V l.produces = some u → u = w) ∧
      (∀ u, evalLeaf (oneColumn (l.requires.headD "") v) l = .ok u → u = w) ∧
      (∀ y u, V (l.requires.headD "") = some y → evalLeaf (oneColumn (l.requires.headD "") y) l = .ok u → u = w) ∧
      ChainReads V w ls x

/-- A reading of column names: one column per name, extending the data, such that every transform
computes the column of its output name from the columns of its inputs. -/
structure Reading (V d : ColFrame C) (feats : List (Feat C)) : Prop where
  extends_ : ∀ n x, d n = some x → V n = some x
  leaf : ∀ l, Tr.leaf l ∈ allTrees feats → ∀ x, evalLeaf V l = .ok x → V l.output = some x
  bin : ∀ n f l r, Tr.bin n f l r ∈ allTrees feats → ∀ a b, V l.output = some a → V r.output = some b →
    V n = some (f a b)
  un : ∀ n f t, Tr.un n f t ∈ allTrees feats → ∀ a, V t.output = some a → V n = some (f a)
  comp : ∀ f r, Tr.comp f r ∈ allTrees feats → ∃ w x, (∀ u, V f.produces = some u → u = w) ∧
    (∀ u, evalLeaf V f = .ok u → u = w) ∧ ChainReads V w r x ∧ V (composeName f r) = some x
  multi : ∀ lb req outs run, Feat.multi lb req outs run ∈ feats → ∀ xs ys, gather V req = .ok xs →
    run xs = .ok ys → ∀ p ∈ outs.zip ys, V p.1 = some p.2

/-- The working frame never disagrees with the reading. -/
def Below (D V : ColFrame C) : Prop := ∀ n x, D n = some x → V n = some x

theorem gather_below {D V : ColFrame C} (h : Below D V) (ns : List String) (xs : List C)
    (hx : gather D ns = .ok xs) : gather V ns = .ok xs := by
  induction ns generalizing xs with
  | nil => exact hx
  | cons n ns ih =>
    unfold gather at hx ⊢
    cases hn : D n with
    | none => rw [hn] at hx; cases hx
    | some y =>
      rw [hn] at hx
      rw [h n y hn]
      simp only [] at hx ⊢
      cases hg : gather D ns with
      | error e => rw [hg] at hx; cases hx
      | ok ys =>
        rw [hg] at hx
        rw [ih ys hg]
        exact hx

theorem evalLeaf_below {D V : ColFrame C} (h : Below D V) (l : Leaf C) (x : C)
    (hx : evalLeaf D l = .ok x) : evalLeaf V l = .ok x := by
  unfold evalLeaf at hx ⊢
  cases hg : gather D l.requires with
  | error e => rw [hg] at hx; cases hx
  | ok xs => rw [hg] at hx; rw [gather_below h _ xs hg]; exact hx

theorem composeRest_reads {D V : ColFrame C} (h : Below D V) (ls : List (Leaf C)) :
    ∀ v x y, ChainReads V v ls x → composeRest D v ls = .ok y → y = x := by
  induction ls with
  | nil =>
    intro v x y hc hy
    simp only [composeRest, Except.ok.injEq] at hy
    unfold ChainReads at hc
    rw [hc, hy]
  | cons l ls ih =>
    intro v x y hc hy
    obtain ⟨w, h1, h2, h3, h4⟩ := hc
    unfold composeRest at hy
    cases hs : composeStep D v l with
    | error e => rw [hs] at hy; cases hy
    | ok u =>
      rw [hs] at hy
      have hu : u = w := by
        unfold composeStep at hs
        split at hs
        · rename_i z hz
          simp only [Except.ok.injEq] at hs
          subst hs
          exact h1 _ (h _ _ hz)
        · simp only [] at hs
          split at hs
          · rename_i z hz
            exact h3 z u (h _ _ hz) hs
          · exact h2 u hs
      subst hu
      exact ih u x y h4 hy

theorem cachedOr_reads {D V : ColFrame C} (h : Below D V) {n : String} {e : Except String C} {x : C}
    (he : e = .ok x → V n = some x) (hx : cachedOr D n e = .ok x) : V n = some x := by
  unfold cachedOr at hx
  split at hx
  · rename_i y hy
    simp only [Except.ok.injEq] at hx
    subst hx
    exact h n y hy
  · exact he hx

theorem eval_reads {D V d : ColFrame C} {feats : List (Feat C)} (hR : Reading V d feats) (h : Below D V)
    (t : Tr C) : (∀ s ∈ t.subs, s ∈ allTrees feats) → ∀ x, t.eval D = .ok x → V t.output = some x := by
  induction t with
  | leaf l =>
    intro hs x hx
    exact hR.leaf l (hs _ (subs_self _)) x (evalLeaf_below h l x hx)
  | bin n f l r ihl ihr =>
    intro hs x hx
    have hl := ihl (fun s hh => hs s (by simp [Tr.subs, hh]))
    have hr := ihr (fun s hh => hs s (by simp [Tr.subs, hh]))
    unfold Tr.eval at hx
    refine cachedOr_reads h (n := n) ?_ hx
    intro he
    cases ha : cachedOr D l.output (l.eval D) with
    | error e => rw [ha] at he; cases he
    | ok a =>
      rw [ha] at he
      simp only [] at he
      cases hb : cachedOr D r.output (r.eval D) with
      | error e => rw [hb] at he; cases he
      | ok b =>
        rw [hb] at he
        simp only [Except.ok.injEq] at he
        rw [← he]
        exact hR.bin n f l r (hs _ (subs_self _)) a b (cachedOr_reads h (hl a) ha) (cachedOr_reads h (hr b) hb)
  | un n f t ih =>
    intro hs x hx
    have ht := ih (fun s hh => hs s (by simp [Tr.subs, hh]))
    unfold Tr.eval at hx
    refine cachedOr_reads h (n := n) ?_ hx
    intro he
    cases ha : cachedOr D t.output (t.eval D) with
    | error e => rw [ha] at he; cases he
    | ok a =>
      rw [ha] at he
      simp only [Except.ok.injEq] at he
      rw [← he]
      exact hR.un n f t (hs _ (subs_self _)) a (cachedOr_reads h (ht a) ha)
  | comp f r =>
    intro hs x hx
    obtain ⟨w, y, h1, h2, h3, h4⟩ := hR.comp f r (hs _ (subs_self _))
    show V (composeName f r) = some x
    unfold Tr.eval runPipeline at hx
    split at hx
    · cases hx
    · split at hx
      · rename_i z hz
        simp only [Except.ok.injEq] at hx
        subst hx
        exact h _ _ hz
      · split at hx
        · cases hx
        · rename_i v hv
          have hvw : v = w := by
            unfold composeFirst at hv
            split at hv
            · rename_i z hz
              simp only [Except.ok.injEq] at hv
              subst hv
              exact h1 _ (h _ _ hz)
            · exact h2 v (evalLeaf_below h f v hv)
          subst hvw
          rw [composeRest_reads h r v y x h3 hx]
          exact h4

/-- Every stored triple agrees with the reading. -/
theorem results_reads {D V d : ColFrame C} {feats : List (Feat C)} (hR : Reading V d feats) (h : Below D V)
    (f : Feat C) (hf : f ∈ feats) (rs : List (String × String × C)) (hrs : f.results D = .ok rs) :
    ∀ r ∈ rs, V r.2.1 = some r.2.2 := by
  cases f with
  | single n t =>
    simp only [Feat.results] at hrs
    cases hc : featureCall D t with
    | error e => rw [hc] at hrs; cases hrs
    | ok x =>
      rw [hc] at hrs
      simp only [Except.ok.injEq] at hrs
      subst hrs
      intro r hr
      simp at hr
      subst hr
      exact cachedOr_reads h (eval_reads hR h t (allTrees_mem hf) x) hc
  | multi lb req outs run =>
    simp only [Feat.results] at hrs
    cases hg : gather D req with
    | error e => rw [hg] at hrs; cases hrs
    | ok xs =>
      rw [hg] at hrs
      simp only [] at hrs
      cases hy : run xs with
      | error e => rw [hy] at hrs; cases hrs
      | ok ys =>
        rw [hy] at hrs
        simp only [] at hrs
        split at hrs
        · simp only [Except.ok.injEq] at hrs
          subst hrs
          intro r hr
          obtain ⟨p, hp, rfl⟩ := List.mem_map.mp hr
          exact hR.multi lb req outs run hf xs ys (gather_below h req xs hg) hy p hp
        · cases hrs

/-- The (result name, cache name) pairs a feature writes. -/
def Feat.slots : Feat C → List (String × String)
  | .single n t => [(n, t.output)]
  | .multi _ _ outs _ => outs.map fun o => (o, o)

theorem results_slots {D : ColFrame C} (f : Feat C) (rs : List (String × String × C))
    (h : f.results D = .ok rs) : rs.map (fun r => (r.1, r.2.1)) = f.slots := by
  cases f with
  | single n t =>
    simp only [Feat.results] at h
    cases hc : featureCall D t with
    | error e => rw [hc] at h; cases h
    | ok x => rw [hc] at h; simp only [Except.ok.injEq] at h; subst h; rfl
  | multi lb req outs run =>
    simp only [Feat.results] at h
    cases hg : gather D req with
    | error e => rw [hg] at h; cases h
    | ok xs =>
      rw [hg] at h
      simp only [] at h
      cases hy : run xs with
      | error e => rw [hy] at h; cases h
      | ok ys =>
        rw [hy] at h
        simp only [] at h
        split at h
        · rename_i hlen
          simp only [Except.ok.injEq] at h
          subst h
          simp only [List.map_map, Feat.slots]
          have : outs = (outs.zip ys).map Prod.fst := by
            rw [List.map_fst_zip (by omega)]
          conv_rhs => rw [this]
          rw [List.map_map]
          rfl
        · cases h

theorem store_reads (V : ColFrame C) (rs : List (String × String × C)) : ∀ (s : KitState C),
    Below s.df V → (∀ r ∈ rs, V r.2.1 = some r.2.2) →
    Below (s.store rs).df V ∧
    ∀ n, (s.store rs).out n = s.out n ∨
      ∃ c, (n, c) ∈ rs.map (fun r => (r.1, r.2.1)) ∧ (s.store rs).out n = V c ∧ (V c).isSome := by
  induction rs with
  | nil => intro s hs _; exact ⟨hs, fun n => Or.inl rfl⟩
  | cons r rs ih =>
    intro s hs hr
    have hb : Below (s.df.set r.2.1 r.2.2) V := by
      intro n x hx
      unfold ColFrame.set at hx
      split at hx
      · rename_i he
        simp only [Option.some.injEq] at hx
        rw [he, ← hx]
        exact hr r (by simp)
      · exact hs n x hx
    obtain ⟨h1, h2⟩ := ih ⟨s.out.set r.1 r.2.2, s.df.set r.2.1 r.2.2⟩ hb
      (fun q hq => hr q (List.mem_cons_of_mem _ hq))
    refine ⟨h1, ?_⟩
    intro n
    show (KitState.store ⟨s.out.set r.1 r.2.2, s.df.set r.2.1 r.2.2⟩ rs).out n = _ ∨ _
    rcases h2 n with h | ⟨c, hc, h⟩
    · rw [h]
      by_cases he : n = r.1
      · right
        refine ⟨r.2.1, by simp [he], ?_, ?_⟩
        · show (KitState.store ⟨s.out.set r.1 r.2.2, s.df.set r.2.1 r.2.2⟩ rs).out n = _
          rw [h, hr r (by simp)]
          simp [ColFrame.set, he]
        · rw [hr r (by simp)]; rfl
      · left
        simp [ColFrame.set, he]
    · right
      exact ⟨c, by rw [List.map_cons]; exact List.mem_cons_of_mem _ hc, h⟩

/-- Once a result column is written it stays written. -/
theorem store_written (rs : List (String × String × C)) : ∀ (s : KitState C) (n : String),
    ((s.out n).isSome ∨ n ∈ rs.map Prod.fst) → ((s.store rs).out n).isSome := by
  induction rs with
  | nil => intro s n h; rcases h with h | h; exact h; cases h
  | cons r rs ih =>
    intro s n h
    apply ih ⟨s.out.set r.1 r.2.2, s.df.set r.2.1 r.2.2⟩ n
    rw [List.map_cons, List.mem_cons] at h
    by_cases he : n = r.1
    · left; simp [ColFrame.set, he]
    · rcases h with h | h | h
      · left; simpa [ColFrame.set, he] using h
      · exact absurd h he
      · right; exact h

theorem buildLoop_reads {V d : ColFrame C} {feats : List (Feat C)} (hR : Reading V d feats) (fs : List (Feat C)) :
    ∀ (s s' : KitState C), Below s.df V → (∀ f ∈ fs, f ∈ feats) → buildLoop fs s = .ok s' →
      (∀ n, s'.out n = s.out n ∨ ∃ f ∈ fs, ∃ c, (n, c) ∈ f.slots ∧ s'.out n = V c ∧ (V c).isSome) ∧
      (∀ n, (s.out n).isSome → (s'.out n).isSome) ∧
      (∀ f ∈ fs, ∀ p ∈ f.slots, (s'.out p.1).isSome) := by
  induction fs with
  | nil =>
    intro s s' _ _ h
    simp only [buildLoop, Except.ok.injEq] at h
    subst h
    exact ⟨fun n => Or.inl rfl, fun n h => h, fun f hf => (by cases hf)⟩
  | cons f fs ih =>
    intro s s' hs hsub h
    unfold buildLoop at h
    cases hr : f.results s.df with
    | error e => rw [hr] at h; cases h
    | ok rs =>
      rw [hr] at h
      have hv := results_reads hR hs f (hsub f (by simp)) rs hr
      have hslots := results_slots f rs hr
      obtain ⟨hb, hout⟩ := store_reads V rs s hs hv
      obtain ⟨h1, h2, h3⟩ := ih (s.store rs) s' hb (fun g hg => hsub g (List.mem_cons_of_mem _ hg)) h
      refine ⟨?_, ?_, ?_⟩
      · intro n
        rcases h1 n with e | ⟨g, hg, c, hc, he⟩
        · rcases hout n with e' | ⟨c, hc, he⟩
          · left; rw [e, e']
          · right
            refine ⟨f, by simp, c, by rw [← hslots]; exact hc, ?_, he.2⟩
            rw [e, he.1]
        · right
          exact ⟨g, List.mem_cons_of_mem _ hg, c, hc, he⟩
      · intro n hn
        exact h2 n (store_written rs s n (Or.inl hn))
      · intro g hg p hp
        rcases List.mem_cons.mp hg with e | e
        · subst e
          apply h2
          apply store_written rs s
          right
          rw [← hslots] at hp
          obtain ⟨r, hr, rfl⟩ := List.mem_map.mp hp
          exact List.mem_map_of_mem hr
        · exact h3 g e p hp

/-- Features that read each other's columns: whenever the names admit a consistent reading, every
execution order that runs through gives every feature the column of that reading.  In particular two
orders that both run through agree. -/
theorem C45_dependent_features_agree (V d : ColFrame C) (retain : List String) (feats fs : List (Feat C))
    (hR : Reading V d feats) (hfs : ∀ f ∈ fs, f ∈ feats)
    (hn : ∀ f ∈ fs, ∀ g ∈ fs, ∀ n c c', (n, c) ∈ f.slots → (n, c') ∈ g.slots → c = c')
    (hret : ∀ f ∈ fs, ∀ p ∈ f.slots, p.1 ∈ retain → p.1 = p.2)
    (out : ColFrame C) (h : buildKit d retain fs = .ok out) :
    ∀ f ∈ fs, ∀ p ∈ f.slots, out p.1 = V p.2 ∧ (V p.2).isSome := by
  unfold buildKit retained at h
  split at h
  · cases h
  · rename_i o ho
    split at ho
    · simp only [Except.ok.injEq] at ho
      split at h
      · cases h
      · rename_i s' hs'
        simp only [Except.ok.injEq] at h
        subst h
        obtain ⟨h1, _, h3⟩ := buildLoop_reads hR fs ⟨o, d⟩ s' hR.extends_ hfs hs'
        intro f hf p hp
        have hsome := h3 f hf p hp
        rcases h1 p.1 with e | ⟨g, hg, c, hc, he, hs⟩
        · -- the column still holds a retained input
          rw [e] at hsome ⊢
          simp only [← ho] at hsome ⊢
          by_cases hm : p.1 ∈ retain
          · rw [if_pos hm] at hsome ⊢
            obtain ⟨x, hx⟩ := Option.isSome_iff_exists.mp hsome
            have heq := hret f hf p hp hm
            rw [hx, ← heq, hR.extends_ _ _ hx]
            exact ⟨rfl, rfl⟩
          · rw [if_neg hm] at hsome; cases hsome
        · have : c = p.2 := hn g hg f hf p.1 c p.2 hc hp
          subst this
          exact ⟨he, hs⟩
    · cases ho

/-! ### Non-vacuity -/

/-- A feature reading the column of another feature, listed in the wrong order. -/
def depEx : List (Feat Int) :=
  [.single "close_ret1_sma5" (.leaf (sisoEx "close_ret1" "sma5" (fun v => 10 * v))),
   .single "close_ret1" (.leaf (sisoEx "close" "ret1" (fun v => v + 1)))]

example : (buildKit frameEx [] depEx).isOk = false := by decide +kernel

example : (buildTopo frameEx [] depEx ["close_ret1_sma5", "close_ret1"]).toOption.map
    (fun o => (o "close_ret1", o "close_ret1_sma5")) = some (some 6, some 60) := by decide +kernel

example : Reading (fun n => if n = "close" then some 5 else if n = "close_ret1" then some 6
    else if n = "close_ret1_sma5" then some 60 else none) frameEx depEx where
  extends_ := by intro n x h; unfold frameEx at h; split at h <;> simp_all
  leaf := by
    intro l hl x hx
    simp [depEx, allTrees, Tr.subs] at hl
    rcases hl with rfl | rfl
    · have hx' : (Except.ok 60 : Except String Int) = .ok x := hx
      rw [← Except.ok.inj hx']; rfl
    · have hx' : (Except.ok 6 : Except String Int) = .ok x := hx
      rw [← Except.ok.inj hx']; rfl
  bin := by intro n f l r h; simp [depEx, allTrees, Tr.subs] at h
  un := by intro n f t h; simp [depEx, allTrees, Tr.subs] at h
  comp := by intro f r h; simp [depEx, allTrees, Tr.subs] at h
  multi := by intro lb req outs run h; simp [depEx] at h

end FinML
