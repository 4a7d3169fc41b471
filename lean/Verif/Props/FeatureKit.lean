/-
C45: caching inside a feature kit does not change the values of the features.
-/
import Verif.Model.FeatureKit
import Verif.Props.Graph

set_option linter.unusedSectionVars false

namespace FinML

variable {C : Type}

/-! ### Specification: evaluation without any cache -/

/-- The remaining steps of a pipeline, each applied to the output of the step before. -/
def feedAll : C → List (Leaf C) → Except String C
  | v, [] => .ok v
  | v, l :: ls =>
    match evalLeaf (oneColumn (l.requires.headD "") v) l with
    | .error e => .error e
    | .ok w => feedAll w ls

/-- The documented meaning of a transform on a data frame, without cache lookups. -/
def Tr.denote (d : ColFrame C) : Tr C → Except String C
  | .leaf l => evalLeaf d l
  | .bin _ f l r =>
    match l.denote d with
    | .error e => .error e
    | .ok a =>
      match r.denote d with
      | .error e => .error e
      | .ok b => .ok (f a b)
  | .un _ f t =>
    match t.denote d with
    | .error e => .error e
    | .ok a => .ok (f a)
  | .comp f r =>
    match evalLeaf d f with
    | .error e => .error e
    | .ok v => feedAll v r

/-- The values of one feature evaluated alone on the original data. -/
def Feat.alone (d : ColFrame C) : Feat C → Except String (List (String × C))
  | .single n t =>
    match t.denote d with
    | .error e => .error e
    | .ok x => .ok [(n, x)]
  | .multi _ req outs run =>
    match gather d req with
    | .error e => .error e
    | .ok xs =>
      match run xs with
      | .error e => .error e
      | .ok ys => if ys.length = outs.length then .ok (outs.zip ys) else .error "wrong number of outputs"

/-- Collect the values of all features, each evaluated alone on the original data `d`. -/
def collectAlone (d : ColFrame C) : List (Feat C) → ColFrame C → Except String (ColFrame C)
  | [], o => .ok o
  | f :: fs, o =>
    match f.alone d with
    | .error e => .error e
    | .ok rs => collectAlone d fs (rs.foldl (fun o r => o.set r.1 r.2) o)

/-- All subexpressions. -/
def Tr.subs : Tr C → List (Tr C)
  | .leaf l => [.leaf l]
  | .bin n f l r => .bin n f l r :: (l.subs ++ r.subs)
  | .un n f t => .un n f t :: t.subs
  | .comp f r => [.comp f r]

/-- All subexpressions of all features. -/
def allTrees : List (Feat C) → List (Tr C)
  | [] => []
  | .single _ t :: fs => t.subs ++ allTrees fs
  | .multi _ _ _ _ :: fs => allTrees fs

/-- All columns of multi-output features. -/
def multiOuts : List (Feat C) → List String
  | [] => []
  | .single _ _ :: fs => multiOuts fs
  | .multi _ _ outs _ :: fs => outs ++ multiOuts fs

/-- Whatever column the kit can see under the name `n` (original data or the output of some
expression of the kit), it is the value `e`. -/
structure Means (d : ColFrame C) (feats : List (Feat C)) (n : String) (e : Except String C) : Prop where
  raw : ∀ x, d n = some x → e = .ok x
  tree : ∀ s ∈ allTrees feats, s.output = n → s.denote d = e
  multi : n ∉ multiOuts feats

/-- The names used inside a pipeline mean what the pipeline computes. -/
def ChainMeans (d : ColFrame C) (feats : List (Feat C)) : C → List (Leaf C) → Prop
  | _, [] => True
  | v, l :: ls =>
    Means d feats (l.requires.headD "") (.ok v) ∧
    Means d feats l.produces (evalLeaf (oneColumn (l.requires.headD "") v) l) ∧
    ∀ w, evalLeaf (oneColumn (l.requires.headD "") v) l = .ok w → ChainMeans d feats w ls

/-- Columns read by a transform from the data frame are original columns. -/
def RawInputs (d : ColFrame C) : Tr C → Prop
  | .leaf l => ∀ r ∈ l.requires, (d r).isSome
  | .comp f _ => (∀ r ∈ f.requires, (d r).isSome) ∧ (d (f.requires.headD "")).isSome
  | _ => True

/-- Naming discipline: an output name determines the value. -/
structure CleanNames (d : ColFrame C) (feats : List (Feat C)) : Prop where
  rawInputs : ∀ s ∈ allTrees feats, RawInputs d s
  names : ∀ s ∈ allTrees feats, Means d feats s.output (s.denote d)
  pipes : ∀ f r, Tr.comp f r ∈ allTrees feats →
    Means d feats f.produces (evalLeaf d f) ∧ ∀ v, evalLeaf d f = .ok v → ChainMeans d feats v r
  multiReq : ∀ l req outs run, Feat.multi l req outs run ∈ feats → ∀ r ∈ req, (d r).isSome
  multiFresh : ∀ n ∈ multiOuts feats, d n = none

/-! ### The cache only holds values of the kit's own expressions -/

/-- Invariant of the working data frame `D`. -/
structure CacheOk (d : ColFrame C) (feats : List (Feat C)) (D : ColFrame C) : Prop where
  raw : ∀ n, (d n).isSome → D n = d n
  known : ∀ n x, D n = some x → d n = some x ∨
    (∃ s ∈ allTrees feats, s.output = n ∧ s.denote d = .ok x) ∨ n ∈ multiOuts feats

theorem means_use {d D : ColFrame C} {feats : List (Feat C)} (hD : CacheOk d feats D) {n : String}
    {e : Except String C} (hm : Means d feats n e) {x : C} (hx : D n = some x) : e = .ok x := by
  rcases hD.known n x hx with h | ⟨s, hs, hn, he⟩ | h
  · exact hm.raw x h
  · rw [← hm.tree s hs hn, he]
  · exact absurd h hm.multi

theorem cachedOr_means {d D : ColFrame C} {feats : List (Feat C)} (hD : CacheOk d feats D) {n : String}
    {e : Except String C} (hm : Means d feats n e) : cachedOr D n e = e := by
  unfold cachedOr
  split
  · rename_i x hx
    exact (means_use hD hm hx).symm
  · rfl

theorem gather_congr (d D : ColFrame C) (ns : List String) (h : ∀ n ∈ ns, D n = d n) :
    gather D ns = gather d ns := by
  induction ns with
  | nil => rfl
  | cons n ns ih =>
    unfold gather
    rw [h n (by simp), ih (fun m hm => h m (List.mem_cons_of_mem _ hm))]

theorem evalLeaf_raw {d D : ColFrame C} {feats : List (Feat C)} (hD : CacheOk d feats D) (l : Leaf C)
    (h : ∀ r ∈ l.requires, (d r).isSome) : evalLeaf D l = evalLeaf d l := by
  unfold evalLeaf
  rw [gather_congr d D _ (fun n hn => hD.raw n (h n hn))]

theorem composeStep_eq {d D : ColFrame C} {feats : List (Feat C)} (hD : CacheOk d feats D) (v : C) (l : Leaf C)
    (h1 : Means d feats (l.requires.headD "") (.ok v))
    (h2 : Means d feats l.produces (evalLeaf (oneColumn (l.requires.headD "") v) l)) :
    composeStep D v l = evalLeaf (oneColumn (l.requires.headD "") v) l := by
  unfold composeStep
  split
  · rename_i x hx
    exact (means_use hD h2 hx).symm
  · simp only []
    split
    · rename_i x hx
      have := means_use hD h1 hx
      simp only [Except.ok.injEq] at this
      rw [this]
    · rfl

theorem composeRest_eq {d D : ColFrame C} {feats : List (Feat C)} (hD : CacheOk d feats D) (ls : List (Leaf C)) :
    ∀ v, ChainMeans d feats v ls → composeRest D v ls = feedAll v ls := by
  induction ls with
  | nil => intro v _; rfl
  | cons l ls ih =>
    intro v hc
    obtain ⟨h1, h2, h3⟩ := hc
    unfold composeRest feedAll
    rw [composeStep_eq hD v l h1 h2]
    cases he : evalLeaf (oneColumn (l.requires.headD "") v) l with
    | error e => rfl
    | ok w => exact ih w (h3 w he)

theorem subs_self (t : Tr C) : t ∈ t.subs := by cases t <;> simp [Tr.subs]

/-- Evaluation with the cache equals evaluation without it. -/
theorem eval_eq_denote {d D : ColFrame C} {feats : List (Feat C)} (hc : CleanNames d feats)
    (hD : CacheOk d feats D) (t : Tr C) :
    (∀ s ∈ t.subs, s ∈ allTrees feats) → t.eval D = t.denote d := by
  induction t with
  | leaf l =>
    intro h
    exact evalLeaf_raw hD l (hc.rawInputs _ (h _ (subs_self _)))
  | bin n f l r ihl ihr =>
    intro h
    have hl : ∀ s ∈ l.subs, s ∈ allTrees feats := fun s hs => h s (by simp [Tr.subs, hs])
    have hr : ∀ s ∈ r.subs, s ∈ allTrees feats := fun s hs => h s (by simp [Tr.subs, hs])
    have hthis := hc.names _ (h _ (subs_self _))
    have el : cachedOr D l.output (l.eval D) = l.denote d := by
      rw [ihl hl]; exact cachedOr_means hD (hc.names _ (hl _ (subs_self l)))
    have er : cachedOr D r.output (r.eval D) = r.denote d := by
      rw [ihr hr]; exact cachedOr_means hD (hc.names _ (hr _ (subs_self r)))
    unfold Tr.eval
    rw [el, er]
    exact cachedOr_means hD hthis
  | un n f t ih =>
    intro h
    have ht : ∀ s ∈ t.subs, s ∈ allTrees feats := fun s hs => h s (by simp [Tr.subs, hs])
    have hthis := hc.names _ (h _ (subs_self _))
    have et : cachedOr D t.output (t.eval D) = t.denote d := by
      rw [ih ht]; exact cachedOr_means hD (hc.names _ (ht _ (subs_self t)))
    unfold Tr.eval
    rw [et]
    exact cachedOr_means hD hthis
  | comp f r =>
    intro h
    have hmem := h _ (subs_self (Tr.comp f r))
    have hthis := hc.names _ hmem
    obtain ⟨hf, hrest⟩ := hc.pipes f r hmem
    obtain ⟨hraw, hhead⟩ := hc.rawInputs _ hmem
    have e1 : composeFirst D f = evalLeaf d f := by
      unfold composeFirst
      rw [evalLeaf_raw hD f hraw]
      exact cachedOr_means hD hf
    have e2 : (match composeFirst D f with
        | .error e => .error e
        | .ok v => composeRest D v r) = (Tr.comp f r).denote d := by
      rw [e1]
      unfold Tr.denote
      cases he : evalLeaf d f with
      | error e => rfl
      | ok v => exact composeRest_eq hD r v (hrest v he)
    unfold Tr.eval runPipeline
    rw [hD.raw _ hhead]
    obtain ⟨x0, hx0⟩ := Option.isSome_iff_exists.mp hhead
    rw [hx0]
    simp only []
    cases hcn : D (composeName f r) with
    | none => exact e2
    | some x => exact (means_use hD hthis hcn).symm

/-! ### The build loop -/

theorem allTrees_mem {feats : List (Feat C)} {n : String} {t : Tr C} (h : Feat.single n t ∈ feats) :
    ∀ s ∈ t.subs, s ∈ allTrees feats := by
  induction feats with
  | nil => cases h
  | cons f fs ih =>
    intro s hs
    rcases List.mem_cons.mp h with h' | h'
    · subst h'; unfold allTrees; exact List.mem_append_left _ hs
    · cases f with
      | single m u => unfold allTrees; exact List.mem_append_right _ (ih h' s hs)
      | multi l r o g => unfold allTrees; exact ih h' s hs

theorem multiOuts_mem {feats : List (Feat C)} {l : String} {req outs : List String}
    {run : List C → Except String (List C)} (h : Feat.multi l req outs run ∈ feats) :
    ∀ n ∈ outs, n ∈ multiOuts feats := by
  induction feats with
  | nil => cases h
  | cons f fs ih =>
    intro s hs
    rcases List.mem_cons.mp h with h' | h'
    · subst h'; unfold multiOuts; exact List.mem_append_left _ hs
    · cases f with
      | single m u => unfold multiOuts; exact ih h' s hs
      | multi l r o g => unfold multiOuts; exact List.mem_append_right _ (ih h' s hs)

theorem cacheOk_set {d D : ColFrame C} {feats : List (Feat C)} (hD : CacheOk d feats D) (n : String) (x : C)
    (hk : (∀ y, d n = some y → y = x))
    (hx : d n = some x ∨ (∃ s ∈ allTrees feats, s.output = n ∧ s.denote d = .ok x) ∨ n ∈ multiOuts feats) :
    CacheOk d feats (D.set n x) where
  raw := by
    intro m hm
    unfold ColFrame.set
    split
    · rename_i h
      subst h
      obtain ⟨y, hy⟩ := Option.isSome_iff_exists.mp hm
      rw [hy, hk y hy]
    · exact hD.raw m hm
  known := by
    intro m y hy
    unfold ColFrame.set at hy
    split at hy
    · rename_i h
      subst h
      simp only [Option.some.injEq] at hy
      subst hy
      exact hx
    · exact hD.known m y hy

/-- Storing the outputs of a multi-output feature. -/
theorem store_multi {d : ColFrame C} {feats : List (Feat C)} (ps : List (String × C)) :
    ∀ (s : KitState C), CacheOk d feats s.df → (∀ p ∈ ps, p.1 ∈ multiOuts feats ∧ d p.1 = none) →
      CacheOk d feats (s.store (ps.map fun p => (p.1, p.1, p.2))).df ∧
      (s.store (ps.map fun p => (p.1, p.1, p.2))).out = ps.foldl (fun o r => o.set r.1 r.2) s.out := by
  induction ps with
  | nil => intro s hs _; exact ⟨hs, rfl⟩
  | cons p ps ih =>
    intro s hs hp
    have hp0 := hp p (by simp)
    have := ih ⟨s.out.set p.1 p.2, s.df.set p.1 p.2⟩
      (cacheOk_set hs p.1 p.2 (by intro y hy; rw [hp0.2] at hy; cases hy) (Or.inr (Or.inr hp0.1)))
      (fun q hq => hp q (List.mem_cons_of_mem _ hq))
    exact this

theorem zip_fst_mem {n : String} {x : C} {outs : List String} {ys : List C} (h : (n, x) ∈ outs.zip ys) :
    n ∈ outs := (List.of_mem_zip h).1

/-- One feature, evaluated against any reachable cache, gives its stand-alone values. -/
theorem results_eq {d D : ColFrame C} {feats : List (Feat C)} (hc : CleanNames d feats)
    (hD : CacheOk d feats D) (f : Feat C) (hf : f ∈ feats) :
    f.results D = match f.alone d with
      | .error e => .error e
      | .ok rs => .ok (rs.map fun r => (r.1, (match f with | .single _ t => t.output | .multi _ _ _ _ => r.1), r.2)) := by
  cases f with
  | single n t =>
    have hs := allTrees_mem hf
    have he : featureCall D t = t.denote d := by
      unfold featureCall
      rw [eval_eq_denote hc hD t hs]
      exact cachedOr_means hD (hc.names _ (hs _ (subs_self t)))
    simp only [Feat.results, Feat.alone, he]
    cases t.denote d <;> rfl
  | multi l req outs run =>
    simp only [Feat.results, Feat.alone]
    rw [gather_congr d D req (fun n hn => hD.raw n (hc.multiReq l req outs run hf n hn))]
    cases gather d req with
    | error e => rfl
    | ok xs =>
      simp only []
      cases run xs with
      | error e => rfl
      | ok ys =>
        simp only []
        split <;> rfl

/-- The loop over the features gives exactly the stand-alone values, errors included. -/
theorem buildLoop_eq {d : ColFrame C} {feats : List (Feat C)} (hc : CleanNames d feats) (fs : List (Feat C)) :
    ∀ (s : KitState C), CacheOk d feats s.df → (∀ f ∈ fs, f ∈ feats) →
      (match buildLoop fs s with | .error e => .error e | .ok s' => .ok s'.out)
        = collectAlone d fs s.out := by
  induction fs with
  | nil => intro s _ _; rfl
  | cons f fs ih =>
    intro s hs hsub
    have hf := hsub f (by simp)
    have hr := results_eq hc hs f hf
    unfold buildLoop collectAlone
    rw [hr]
    cases ha : f.alone d with
    | error e => rfl
    | ok rs =>
      simp only []
      cases f with
      | single n t =>
        simp only [Feat.alone] at ha
        have hst := allTrees_mem hf
        cases ht : t.denote d with
        | error e => rw [ht] at ha; cases ha
        | ok x =>
          rw [ht] at ha
          simp only [Except.ok.injEq] at ha
          subst ha
          have hm := hc.names _ (hst _ (subs_self t))
          have hok : CacheOk d feats (s.df.set t.output x) := by
            refine cacheOk_set hs t.output x ?_ (Or.inr (Or.inl ⟨t, hst _ (subs_self t), rfl, ht⟩))
            intro y hy
            have := hm.raw y hy
            rw [ht] at this
            exact (Except.ok.inj this).symm
          exact ih ⟨s.out.set n x, s.df.set t.output x⟩ hok (fun g hg => hsub g (List.mem_cons_of_mem _ hg))
      | multi l req outs run =>
        simp only [Feat.alone] at ha
        cases hg : gather d req with
        | error e => rw [hg] at ha; cases ha
        | ok xs =>
          rw [hg] at ha
          simp only [] at ha
          cases hrun : run xs with
          | error e => rw [hrun] at ha; cases ha
          | ok ys =>
            rw [hrun] at ha
            simp only [] at ha
            split at ha
            · simp only [Except.ok.injEq] at ha
              subst ha
              have hp : ∀ p ∈ outs.zip ys, p.1 ∈ multiOuts feats ∧ d p.1 = none := by
                rintro ⟨n, y⟩ hny
                have h1 := multiOuts_mem hf n (zip_fst_mem hny)
                exact ⟨h1, hc.multiFresh n h1⟩
              obtain ⟨hok, hout⟩ := store_multi (outs.zip ys) s hs hp
              have := ih _ hok (fun g hg => hsub g (List.mem_cons_of_mem _ hg))
              rw [hout] at this
              exact this
            · cases ha

/-- With a clean naming discipline, building a kit gives every feature the values it has when it is
evaluated alone on the original data.  The equality includes failures, and holds for every execution
order (`fs` is any list of features of the kit). -/
theorem C45_build_equals_standalone (d : ColFrame C) (retain : List String) (feats fs : List (Feat C))
    (hc : CleanNames d feats) (hfs : ∀ f ∈ fs, f ∈ feats) :
    buildKit d retain fs =
      match retained d retain with
      | .error e => .error e
      | .ok o => collectAlone d fs o := by
  unfold buildKit
  cases retained d retain with
  | error e => rfl
  | ok o =>
    exact buildLoop_eq hc fs ⟨o, d⟩ ⟨fun n _ => rfl, fun n x h => Or.inl h⟩ hfs

/-! ### What the collected frame contains; order independence -/

theorem setAll_get (rs : List (String × C)) : ∀ (o : ColFrame C) (n : String),
    (rs.map Prod.fst).Nodup →
    (∀ x, (n, x) ∈ rs → (rs.foldl (fun o r => o.set r.1 r.2) o) n = some x) ∧
    (n ∉ rs.map Prod.fst → (rs.foldl (fun o r => o.set r.1 r.2) o) n = o n) := by
  induction rs with
  | nil => intro o n _; exact ⟨fun x h => (by cases h), fun _ => rfl⟩
  | cons r rs ih =>
    intro o n hn
    rw [List.map_cons, List.nodup_cons] at hn
    obtain ⟨i1, i2⟩ := ih (o.set r.1 r.2) n hn.2
    constructor
    · intro x hx
      rcases List.mem_cons.mp hx with h | h
      · subst h
        rw [List.foldl_cons, i2 hn.1]
        simp [ColFrame.set]
      · exact i1 x h
    · intro hnot
      rw [List.map_cons, List.mem_cons, not_or] at hnot
      rw [List.foldl_cons, i2 hnot.2]
      simp [ColFrame.set, hnot.1]

/-- The values of a feature, or nothing when it fails. -/
def Feat.pairs (d : ColFrame C) (f : Feat C) : List (String × C) :=
  match f.alone d with
  | .error _ => []
  | .ok rs => rs

theorem collectAlone_eq (d : ColFrame C) (fs : List (Feat C)) : ∀ (o o' : ColFrame C),
    collectAlone d fs o = .ok o' →
    (∀ f ∈ fs, ∃ rs, f.alone d = .ok rs) ∧
      o' = (fs.flatMap (Feat.pairs d)).foldl (fun o r => o.set r.1 r.2) o := by
  induction fs with
  | nil =>
    intro o o' h
    simp only [collectAlone, Except.ok.injEq] at h
    exact ⟨fun f hf => (by cases hf), h.symm⟩
  | cons f fs ih =>
    intro o o' h
    unfold collectAlone at h
    cases ha : f.alone d with
    | error e => rw [ha] at h; cases h
    | ok rs =>
      rw [ha] at h
      obtain ⟨h1, h2⟩ := ih _ _ h
      constructor
      · intro g hg
        rcases List.mem_cons.mp hg with e | e
        · subst e; exact ⟨rs, ha⟩
        · exact h1 g e
      · rw [h2, List.flatMap_cons, List.foldl_append]
        have : Feat.pairs d f = rs := by unfold Feat.pairs; rw [ha]
        rw [this]

theorem collectAlone_ok (d : ColFrame C) (fs : List (Feat C)) (h : ∀ f ∈ fs, ∃ rs, f.alone d = .ok rs) :
    ∀ o : ColFrame C, ∃ o', collectAlone d fs o = .ok o' := by
  induction fs with
  | nil => intro o; exact ⟨o, rfl⟩
  | cons f fs ih =>
    intro o
    obtain ⟨rs, hrs⟩ := h f (by simp)
    unfold collectAlone
    rw [hrs]
    exact ih (fun g hg => h g (List.mem_cons_of_mem _ hg)) _

/-- The result of a build: every feature column holds the stand-alone value, every other column is a
retained one. -/
theorem C45_build_columns (d : ColFrame C) (retain : List String) (feats fs : List (Feat C))
    (hc : CleanNames d feats) (hfs : ∀ f ∈ fs, f ∈ feats)
    (hn : ((fs.flatMap (Feat.pairs d)).map Prod.fst).Nodup) (out : ColFrame C)
    (h : buildKit d retain fs = .ok out) :
    (∀ f ∈ fs, ∃ rs, f.alone d = .ok rs ∧ ∀ r ∈ rs, out r.1 = some r.2) ∧
    (∀ n, (∀ f ∈ fs, ∀ r ∈ f.pairs d, r.1 ≠ n) → out n = if n ∈ retain then d n else none) := by
  rw [C45_build_equals_standalone d retain feats fs hc hfs] at h
  unfold retained at h
  split at h
  · cases h
  · rename_i o ho
    split at ho
    · simp only [Except.ok.injEq] at ho
      obtain ⟨h1, h2⟩ := collectAlone_eq d fs _ _ h
      have hset := fun n => setAll_get (fs.flatMap (Feat.pairs d)) o n hn
      constructor
      · intro f hf
        obtain ⟨rs, hrs⟩ := h1 f hf
        refine ⟨rs, hrs, ?_⟩
        rintro ⟨n, x⟩ hr
        rw [h2]
        apply (hset n).1
        rw [List.mem_flatMap]
        exact ⟨f, hf, by unfold Feat.pairs; rw [hrs]; exact hr⟩
      · intro n hnot
        rw [h2, (hset n).2, ← ho]
        intro hm
        obtain ⟨r, hr, hrn⟩ := List.mem_map.mp hm
        obtain ⟨f, hf, hfr⟩ := List.mem_flatMap.mp hr
        exact hnot f hf r hfr hrn
    · cases ho

/-- Any two execution orders give the same result, failures included (up to which error is
reported first). -/
theorem C45_order_irrelevant (d : ColFrame C) (retain : List String) (feats fs gs : List (Feat C))
    (hc : CleanNames d feats) (hfs : ∀ f ∈ fs, f ∈ feats) (hp : fs.Perm gs)
    (hn : ((fs.flatMap (Feat.pairs d)).map Prod.fst).Nodup) (out : ColFrame C)
    (h : buildKit d retain fs = .ok out) : buildKit d retain gs = .ok out := by
  have hgs : ∀ f ∈ gs, f ∈ feats := fun f hf => hfs f (hp.mem_iff.mpr hf)
  have hpf : (fs.flatMap (Feat.pairs d)).Perm (gs.flatMap (Feat.pairs d)) := hp.flatMap_right _
  have hn' : ((gs.flatMap (Feat.pairs d)).map Prod.fst).Nodup := (hpf.map Prod.fst).nodup_iff.mp hn
  rw [C45_build_equals_standalone d retain feats fs hc hfs] at h
  rw [C45_build_equals_standalone d retain feats gs hc hgs]
  cases hr : retained d retain with
  | error e => rw [hr] at h; cases h
  | ok o =>
    rw [hr] at h
    simp only [] at h ⊢
    obtain ⟨h1, h2⟩ := collectAlone_eq d fs _ _ h
    obtain ⟨o', ho'⟩ := collectAlone_ok d gs (fun f hf => h1 f (hp.mem_iff.mpr hf)) o
    rw [ho']
    obtain ⟨_, h4⟩ := collectAlone_eq d gs _ _ ho'
    congr 1
    rw [h4, h2]
    funext n
    by_cases hm : n ∈ (fs.flatMap (Feat.pairs d)).map Prod.fst
    · obtain ⟨⟨m, x⟩, hr, hrn⟩ := List.mem_map.mp hm
      simp only at hrn
      subst hrn
      rw [(setAll_get _ o m hn).1 x hr, (setAll_get _ o m hn').1 x (hpf.mem_iff.mp hr)]
    · have hm' : n ∉ (gs.flatMap (Feat.pairs d)).map Prod.fst := fun h => hm ((hpf.map Prod.fst).mem_iff.mpr h)
      rw [(setAll_get _ o n hn).2 hm, (setAll_get _ o n hn').2 hm']

/-- The name and the declared inputs of a transform: the first input is a prefix of the name of a single-input transform,
and the only input a composed transform declares. -/
theorem C45_names_and_inputs (l : Leaf C) (c : String) (cs : List String) (h : l.requires = c :: cs) (rest : List (Leaf C)) :
    l.output = (if l.siso then c ++ "_" ++ l.produces else l.produces) ∧ (Tr.comp l rest).requires = [c] := by
  constructor
  · unfold Leaf.output; rw [h]; rfl
  · show l.requires.take 1 = [c]; rw [h]; rfl

example : let l : Leaf Int := ⟨true, ["close"], "ret1", fun xs => .ok (xs.headD 0)⟩
    l.output = "close_ret1" ∧ (Tr.comp l [⟨true, ["x"], "sma5", fun xs => .ok (xs.headD 0)⟩]).requires = ["close"] := by decide +kernel

/-! ### Where the property fails -/

/-- A one-column indicator named after its input, as `Return`, `SMA` and so on. -/
def sisoEx (col : String) (nm : String) (f : Int → Int) : Leaf Int :=
  ⟨true, [col], nm, fun xs => .ok (f (xs.headD 0))⟩

/-- Violation: `Return(1, is_log=False)` and `Return(1, is_log=True)` are both called `close_ret1`
(`transforms.py:120-152`); even under different feature names the second one silently receives the
values of the first. -/
theorem C45_shared_output_name_gives_wrong_values :
    ∃ (d : ColFrame Int) (a b : Tr Int) (x y : Int),
      a.output = b.output ∧ a.denote d = .ok x ∧ b.denote d = .ok y ∧ x ≠ y ∧
      (buildKit d [] [.single "simple" a, .single "log" b]).toOption.map (fun o => o "log") = some (some x) :=
  ⟨fun n => if n = "close" then some 5 else none,
   .leaf (sisoEx "close" "ret1" (fun v => v + 1)), .leaf (sisoEx "close" "ret1" (fun v => v + 2)), 6, 7,
   rfl, rfl, rfl, by decide, by decide +kernel⟩

/-- Violation: a later step of `Compose` reads an existing column of that name in preference to the
output of the step before it, so the pipeline is not the composition of its steps. -/
theorem C45_compose_ignores_previous_step :
    ∃ (d : ColFrame Int) (f g : Leaf Int) (x y : Int),
      (Tr.comp f [g]).denote d = .ok x ∧ (Tr.comp f [g]).eval d = .ok y ∧ x ≠ y ∧
      (∀ v, d "close" = some v → (Tr.comp f [g]).eval d = (Tr.leaf g).eval d) :=
  ⟨fun n => if n = "close" then some 5 else none,
   sisoEx "close" "ret1" (fun v => v + 1), sisoEx "close" "sma5" (fun v => 10 * v), 60, 50,
   rfl, by rfl, by decide, fun _ _ => by rfl⟩

/-- Violation: a transform whose output name equals a column of the data frame is never run; the
feature returns the raw column. -/
theorem C45_output_named_like_input_not_computed :
    ∃ (d : ColFrame Int) (t : Tr Int), t.denote d = .ok 50 ∧
      (buildKit d [] [.single "close" t]).toOption.map (fun o => o "close") = some (some 5) :=
  ⟨fun n => if n = "close" then some 5 else none,
   .leaf ⟨false, ["close"], "close", fun xs => .ok (10 * xs.headD 0)⟩, rfl, by decide +kernel⟩

/-- Violation: renaming a feature changes the dependency graph but not the cached column, so a
feature that reads the renamed column fails although the dependency is in the graph. -/
theorem C45_renamed_feature_not_found :
    ∃ (d : ColFrame Int) (feats : List (Feat Int)) (nameSet : List String),
      nameSet.Perm (feats.map Feat.name) ∧
      "sma_of_r" ∈ (buildFeatureGraph feats).succ "r" ∧
      feats = [.single "r" (.leaf (sisoEx "close" "ret1" (fun v => v + 1))),
               .single "sma_of_r" (.leaf (sisoEx "r" "sma5" (fun v => 10 * v)))] ∧
      (buildTopo d [] feats nameSet).isOk = false :=
  ⟨fun n => if n = "close" then some 5 else none, _, ["r", "sma_of_r"], by decide, by decide +kernel, rfl,
   by decide +kernel⟩

/-- Violation: the graph has no edge from a multi-output feature to the features that read its
columns, so `order="topo"` can fail where the defined order succeeds. -/
theorem C45_topo_order_misses_multi_output :
    ∃ (d : ColFrame Int) (feats : List (Feat Int)) (nameSet : List String),
      nameSet.Perm (feats.map Feat.name) ∧
      (buildKit d [] feats).isOk = true ∧ (buildTopo d [] feats nameSet).isOk = false :=
  ⟨fun n => if n = "close" then some 5 else none,
   [.multi "['up', 'down']" ["close"] ["up", "down"] (fun xs => .ok [xs.headD 0, 0]),
    .single "up_sma5" (.leaf (sisoEx "up" "sma5" (fun v => 10 * v)))],
   ["up_sma5", "['up', 'down']"], by decide, by decide +kernel, by decide +kernel⟩

/-! ### Non-vacuity -/

/-- A frame and a kit with shared subexpressions, a pipeline and a multi-output feature. -/
def kitEx : List (Feat Int) :=
  [.single "close_ret1" (.leaf (sisoEx "close" "ret1" (fun v => v + 1))),
   .single "double" (.bin "add(close_ret1,close_ret1)" (· + ·)
      (.leaf (sisoEx "close" "ret1" (fun v => v + 1))) (.leaf (sisoEx "close" "ret1" (fun v => v + 1)))),
   .single "pipe" (.comp (sisoEx "close" "ret1" (fun v => v + 1)) [sisoEx "x" "sma5" (fun v => 10 * v)]),
   .multi "['up', 'down']" ["close"] ["up", "down"] (fun xs => .ok [xs.headD 0, 0])]

def frameEx : ColFrame Int := fun n => if n = "close" then some 5 else none

example : CleanNames frameEx kitEx where
  rawInputs := by
    intro s hs
    simp [kitEx, allTrees, Tr.subs] at hs
    rcases hs with rfl | rfl | rfl | rfl <;> simp [RawInputs, sisoEx, frameEx]
  names := by
    intro s hs
    have key : ∀ s ∈ allTrees kitEx,
        (s.output = "close_ret1" ∧ s.denote frameEx = .ok 6) ∨
        (s.output = "add(close_ret1,close_ret1)" ∧ s.denote frameEx = .ok 12) ∨
        (s.output = "close_ret1_sma5" ∧ s.denote frameEx = .ok 60) := by
      intro s hs
      simp [kitEx, allTrees, Tr.subs] at hs
      rcases hs with rfl | rfl | rfl | rfl
      · exact Or.inl ⟨by decide +kernel, rfl⟩
      · exact Or.inr (Or.inl ⟨by decide +kernel, rfl⟩)
      · exact Or.inl ⟨by decide +kernel, rfl⟩
      · exact Or.inr (Or.inr ⟨by decide +kernel, rfl⟩)
    refine ⟨?_, ?_, ?_⟩
    · intro x hx
      rcases key s hs with ⟨h, _⟩ | ⟨h, _⟩ | ⟨h, _⟩ <;> rw [h] at hx <;> simp [frameEx] at hx
    · intro t ht he
      rcases key s hs with ⟨h, e⟩ | ⟨h, e⟩ | ⟨h, e⟩ <;> rcases key t ht with ⟨h', e'⟩ | ⟨h', e'⟩ | ⟨h', e'⟩ <;>
        rw [h, h'] at he <;> first | (exact absurd he (by decide)) | (rw [e, e'])
    · rcases key s hs with ⟨h, _⟩ | ⟨h, _⟩ | ⟨h, _⟩ <;> rw [h] <;> decide +kernel
  pipes := by
    intro f r h
    simp [kitEx, allTrees, Tr.subs] at h
    obtain ⟨rfl, rfl⟩ := h
    have unknown : ∀ n e, n ≠ "close" → n ≠ "close_ret1" → n ≠ "add(close_ret1,close_ret1)" →
        n ≠ "close_ret1_sma5" → n ≠ "up" → n ≠ "down" → Means frameEx kitEx n e := by
      intro n e h1 h2 h3 h4 h5 h6
      refine ⟨?_, ?_, ?_⟩
      · intro x hx; simp [frameEx, h1] at hx
      · intro s hs he
        exfalso
        have : s.output = "close_ret1" ∨ s.output = "add(close_ret1,close_ret1)" ∨ s.output = "close_ret1_sma5" := by
          simp [kitEx, allTrees, Tr.subs] at hs
          rcases hs with rfl | rfl | rfl | rfl <;> decide +kernel
        rcases this with h | h | h <;> rw [h] at he
        · exact h2 he.symm
        · exact h3 he.symm
        · exact h4 he.symm
      · simp [kitEx, multiOuts, h5, h6]
    refine ⟨unknown _ _ ?_ ?_ ?_ ?_ ?_ ?_, fun v _ => ⟨unknown _ _ ?_ ?_ ?_ ?_ ?_ ?_,
      unknown _ _ ?_ ?_ ?_ ?_ ?_ ?_, fun _ _ => trivial⟩⟩ <;> decide +kernel
  multiReq := by
    intro l req outs run h
    simp [kitEx] at h
    obtain ⟨_, rfl, _⟩ := h
    simp [frameEx]
  multiFresh := by
    intro n hn
    simp [kitEx, multiOuts] at hn
    rcases hn with rfl | rfl <;> simp [frameEx]

example : (buildKit frameEx ["close"] kitEx).toOption.map
    (fun o => (o "close", o "close_ret1", o "double", o "pipe", o "up"))
      = some (some 5, some 6, some 12, some 60, some 5) := by decide +kernel

end FinML
