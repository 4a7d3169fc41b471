/-
C44: the topological order of the feature graph.
-/
import Verif.Model.Graph
import Mathlib.Logic.Relation
import Mathlib.Data.Fintype.Pigeonhole
import Mathlib.Data.Set.Finite.Basic
import Mathlib.Data.List.Nodup
import Mathlib.Data.List.Perm.Basic
import Mathlib.Tactic.Push

set_option linter.unusedSectionVars false

namespace FinML

variable {α : Type} [DecidableEq α]

/-! ### Specification -/

/-- The dependency relation of a graph: `u` must come before `v`. -/
def DependsOn (nodes : List α) (succ : α → List α) (u v : α) : Prop :=
  u ∈ nodes ∧ v ∈ succ u

/-- No node depends on itself, directly or through others. -/
def IsAcyclic (nodes : List α) (succ : α → List α) : Prop :=
  ∀ x, ¬ Relation.TransGen (DependsOn nodes succ) x x

/-- `v` lies on a cycle or depends on a node that does. -/
def BehindCycle (nodes : List α) (succ : α → List α) (v : α) : Prop :=
  ∃ x, Relation.TransGen (DependsOn nodes succ) x x ∧ Relation.ReflTransGen (DependsOn nodes succ) x v

/-- What `ComputationGraph` maintains: sets have no repeats and every target is a node. -/
structure WellFormed (nodes : List α) (succ : α → List α) : Prop where
  nodup : nodes.Nodup
  succNodup : ∀ u, (succ u).Nodup
  closed : ∀ u, ∀ v ∈ succ u, v ∈ nodes

/-! ### The in-degree table -/

theorem bump_foldl (ds : List α) (f : α → Int) (v : α) :
    (ds.foldl (fun f d => bump f d 1) f) v = f v + ds.count v := by
  induction ds generalizing f with
  | nil => simp
  | cons d ds ih =>
    rw [List.foldl_cons, ih, List.count_cons]
    unfold bump
    by_cases h : v = d
    · subst h; simp; omega
    · have : (d == v) = false := by simpa using fun e => h e.symm
      simp [h, this]

/-- Number of nodes outside `done` that `v` depends on. -/
def waiting (nodes : List α) (succ : α → List α) (done : List α) (v : α) : Nat :=
  nodes.countP (fun u => u ∉ done ∧ v ∈ succ u)

theorem indegrees_foldl (ns : List α) (succ : α → List α) (hs : ∀ u, (succ u).Nodup) (f : α → Int) (v : α) :
    (ns.foldl (fun f u => (succ u).foldl (fun f d => bump f d 1) f) f) v
      = f v + ns.countP (fun u => v ∈ succ u) := by
  induction ns generalizing f with
  | nil => simp
  | cons n ns ih =>
    rw [List.foldl_cons, ih, bump_foldl, List.countP_cons]
    by_cases h : v ∈ succ n
    · rw [List.count_eq_one_of_mem (hs n) h]; simp [h]; omega
    · rw [List.count_eq_zero_of_not_mem h]; simp [h]

theorem indegrees_eq (nodes : List α) (succ : α → List α) (hs : ∀ u, (succ u).Nodup) (v : α) :
    indegrees nodes succ v = waiting nodes succ [] v := by
  unfold indegrees waiting
  rw [indegrees_foldl _ _ hs]
  simp

/-! ### The inner loop -/

theorem relax_fst (ds : List α) (f : α → Int) (z : List α) (v : α) (hd : ds.Nodup) :
    (relax ds f z).1 v = if v ∈ ds then f v - 1 else f v := by
  unfold relax
  induction ds generalizing f z with
  | nil => simp
  | cons d ds ih =>
    rw [List.foldl_cons]
    have hone : relaxOne (f, z) d =
        (bump f d (-1), if bump f d (-1) d = 0 then z ++ [d] else z) := rfl
    rw [hone, ih _ _ (List.nodup_cons.mp hd).2]
    have hnd := (List.nodup_cons.mp hd).1
    unfold bump
    by_cases h : v = d
    · subst h; simp [hnd]; omega
    · simp [h]

theorem relax_snd (ds : List α) (f : α → Int) (z : List α) (hd : ds.Nodup) :
    (relax ds f z).2 = z ++ ds.filter (fun v => f v = 1) := by
  unfold relax
  induction ds generalizing f z with
  | nil => simp
  | cons d ds ih =>
    rw [List.foldl_cons]
    have hone : relaxOne (f, z) d =
        (bump f d (-1), if bump f d (-1) d = 0 then z ++ [d] else z) := rfl
    rw [hone, ih _ _ (List.nodup_cons.mp hd).2]
    have hnd := (List.nodup_cons.mp hd).1
    have hf : ds.filter (fun v => decide (bump f d (-1) v = 1)) = ds.filter (fun v => decide (f v = 1)) := by
      apply List.filter_congr
      intro v hv
      have : v ≠ d := fun e => hnd (e ▸ hv)
      unfold bump
      simp [this]
    rw [hf, List.filter_cons]
    by_cases h : f d = 1
    · have : bump f d (-1) d = 0 := by unfold bump; simp [h]
      simp [this, h]
    · have : ¬ bump f d (-1) d = 0 := by unfold bump; simp; omega
      simp [this, h]

/-! ### The loop invariant -/

/-- State of the loop: `order` is done, `z` is the queue. -/
structure KahnInv (nodes : List α) (succ : α → List α) (f : α → Int) (z order : List α) : Prop where
  nodup : (order ++ z).Nodup
  sub : ∀ v ∈ order ++ z, v ∈ nodes
  count : ∀ v, f v = waiting nodes succ order v
  ready : ∀ v ∈ nodes, (v ∈ order ++ z ↔ f v = 0)
  before : ∀ (i : Nat) (v : α), (order ++ z)[i]? = some v → ∀ u ∈ nodes, v ∈ succ u →
    u ∈ order ∧ u ∈ (order ++ z).take i

theorem waiting_zero {nodes : List α} {succ : α → List α} {done : List α} {v : α}
    (h : waiting nodes succ done v = 0) (u : α) (hu : u ∈ nodes) (hv : v ∈ succ u) : u ∈ done := by
  unfold waiting at h
  rw [List.countP_eq_zero] at h
  have := h u hu
  simp [hv] at this
  exact this

theorem waiting_snoc (nodes : List α) (succ : α → List α) (done : List α) (n v : α)
    (hn : nodes.Nodup) (hmem : n ∈ nodes) (hnot : n ∉ done) :
    waiting nodes succ done v = waiting nodes succ (done ++ [n]) v + if v ∈ succ n then 1 else 0 := by
  unfold waiting
  have hsplit : ∀ l : List α, l.Nodup →
      l.countP (fun u => decide (u ∉ done ∧ v ∈ succ u)) =
        l.countP (fun u => decide (u ∉ done ++ [n] ∧ v ∈ succ u)) +
          if n ∈ l ∧ v ∈ succ n then 1 else 0 := by
    intro l hl
    induction l with
    | nil => simp
    | cons a l ih =>
      have ⟨ha, hl'⟩ := List.nodup_cons.mp hl
      rw [List.countP_cons, List.countP_cons, ih hl']
      by_cases hav : a = n
      · subst hav
        by_cases hs : v ∈ succ a <;> simp [hs, hnot, ha]
      · have hna : ¬ n = a := fun e => hav e.symm
        by_cases hs : v ∈ succ a <;> by_cases hd : a ∈ done <;> simp [hs, hd, hav, hna]; omega
  have := hsplit nodes hn
  simpa [hmem] using this

theorem kahnInv_init {nodes : List α} {succ : α → List α} (w : WellFormed nodes succ) :
    KahnInv nodes succ (indegrees nodes succ)
      (nodes.filter (fun n => indegrees nodes succ n = 0)) [] where
  nodup := by simpa using w.nodup.filter _
  sub := by intro v hv; simp at hv; exact hv.1
  count := indegrees_eq nodes succ w.succNodup
  ready := by intro v hv; simp [hv]
  before := by
    intro i v hi u hu hv
    exfalso
    have hmem : v ∈ nodes.filter (fun n => indegrees nodes succ n = 0) := by
      have := List.mem_of_getElem? hi
      simpa using this
    have h0 : indegrees nodes succ v = 0 := by
      have := (List.mem_filter.mp hmem).2
      simpa using this
    rw [indegrees_eq nodes succ w.succNodup] at h0
    have := waiting_zero (by exact_mod_cast h0) u hu hv
    simp at this

theorem kahnInv_step {nodes : List α} {succ : α → List α} (w : WellFormed nodes succ)
    {f : α → Int} {n : α} {z order : List α} (inv : KahnInv nodes succ f (n :: z) order) :
    KahnInv nodes succ (relax (succ n) f z).1 (relax (succ n) f z).2 (order ++ [n]) := by
  have hassoc : ∀ t : List α, order ++ [n] ++ (z ++ t) = (order ++ n :: z) ++ t := by
    intro t; simp
  have hnot : n ∉ order := by
    have := inv.nodup
    rw [List.nodup_append] at this
    intro h
    exact this.2.2 n h n (by simp) rfl
  have hnmem : n ∈ nodes := inv.sub n (by simp)
  have hcount : ∀ v, (relax (succ n) f z).1 v = waiting nodes succ (order ++ [n]) v := by
    intro v
    rw [relax_fst _ _ _ _ (w.succNodup n), inv.count v,
      waiting_snoc nodes succ order n v w.nodup hnmem hnot]
    by_cases h : v ∈ succ n <;> simp [h]
  have hnew : ∀ v, v ∈ (succ n).filter (fun v => f v = 1) ↔ v ∈ succ n ∧ f v = 1 := by
    intro v; simp
  refine ⟨?_, ?_, hcount, ?_, ?_⟩
  · rw [relax_snd _ _ _ (w.succNodup n), hassoc, List.nodup_append]
    refine ⟨inv.nodup, (w.succNodup n).filter _, ?_⟩
    intro a ha b hb hab
    subst hab
    have h1 := ((hnew a).mp hb).2
    have h0 := (inv.ready a (inv.sub a ha)).mp ha
    omega
  · rw [relax_snd _ _ _ (w.succNodup n), hassoc]
    intro v hv
    rcases List.mem_append.mp hv with h | h
    · exact inv.sub v h
    · exact w.closed n v ((hnew v).mp h).1
  · intro v hv
    rw [relax_snd _ _ _ (w.succNodup n), hassoc, List.mem_append, hnew,
      relax_fst _ _ _ _ (w.succNodup n), inv.ready v hv]
    by_cases h : v ∈ succ n
    · simp only [h, true_and, if_true]
      constructor
      · rintro (h0 | h1)
        · exfalso
          have hc := inv.count v
          rw [h0] at hc
          exact hnot (waiting_zero (by exact_mod_cast hc.symm) n hnmem h)
        · omega
      · intro h1; right; omega
    · simp [h]
  · intro i v hi u hu hv
    have hi' := hi
    rw [relax_snd _ _ _ (w.succNodup n), hassoc] at hi ⊢
    by_cases hlt : i < (order ++ n :: z).length
    · rw [List.getElem?_append_left hlt] at hi
      obtain ⟨h1, h2⟩ := inv.before i v hi u hu hv
      refine ⟨by simp [h1], ?_⟩
      rw [List.take_append_of_le_length (by omega)]
      exact h2
    · have hmem : v ∈ (succ n).filter (fun v => f v = 1) := by
        rw [List.getElem?_append_right (by omega)] at hi
        exact List.mem_of_getElem? hi
      obtain ⟨hs, h1⟩ := (hnew v).mp hmem
      have h0 : (relax (succ n) f z).1 v = 0 := by
        rw [relax_fst _ _ _ _ (w.succNodup n), if_pos hs]; omega
      rw [hcount v] at h0
      have hu' := waiting_zero (by exact_mod_cast h0) u hu hv
      refine ⟨hu', ?_⟩
      rw [List.take_append, List.take_of_length_le (by omega)]
      apply List.mem_append_left
      rcases List.mem_append.mp hu' with h | h
      · exact List.mem_append_left _ h
      · simp at h; simp [h]

/-- Length bound: a list without repeats inside `nodes` is no longer than `nodes`. -/
theorem nodup_sub_length {l nodes : List α} (hl : l.Nodup) (hs : ∀ v ∈ l, v ∈ nodes) :
    l.length ≤ nodes.length :=
  (List.subperm_of_subset hl hs).length_le

/-- The loop ends with an empty queue. -/
theorem kahnLoop_end {nodes : List α} {succ : α → List α} (w : WellFormed nodes succ) :
    ∀ (k : Nat) (f : α → Int) (z order : List α), KahnInv nodes succ f z order →
      nodes.length ≤ order.length + k →
      ∃ f', KahnInv nodes succ f' [] (kahnLoop succ k f z order) := by
  intro k
  induction k with
  | zero =>
    intro f z order inv hk
    have hlen := nodup_sub_length inv.nodup inv.sub
    have hz : z = [] := by
      rw [List.length_append] at hlen
      exact List.length_eq_zero_iff.mp (by omega)
    subst hz
    exact ⟨f, inv⟩
  | succ k ih =>
    intro f z order inv hk
    cases z with
    | nil => exact ⟨f, inv⟩
    | cons n z =>
      simp only [kahnLoop]
      exact ih _ _ _ (kahnInv_step w inv) (by rw [List.length_append, List.length_singleton]; omega)

theorem kahnFuel_inv {nodes : List α} {succ : α → List α} (w : WellFormed nodes succ) (k : Nat)
    (hk : nodes.length ≤ k) : ∃ f', KahnInv nodes succ f' [] (kahnFuel k nodes succ) := by
  unfold kahnFuel
  exact kahnLoop_end w k _ _ _ (kahnInv_init w) (by simpa using hk)

theorem kahnLoop_extends (succ : α → List α) :
    ∀ (k : Nat) (f : α → Int) (z order : List α) (m : Nat), k ≤ m →
      ∃ t, kahnLoop succ m f z order = kahnLoop succ k f z order ++ t := by
  have hpre : ∀ (k : Nat) (f : α → Int) (z order : List α), ∃ t, kahnLoop succ k f z order = order ++ t := by
    intro k
    induction k with
    | zero => intro f z order; exact ⟨[], by simp [kahnLoop]⟩
    | succ k ih =>
      intro f z order
      cases z with
      | nil => exact ⟨[], by simp [kahnLoop]⟩
      | cons n z =>
        simp only [kahnLoop]
        obtain ⟨t, ht⟩ := ih (relax (succ n) f z).1 (relax (succ n) f z).2 (order ++ [n])
        exact ⟨n :: t, by rw [ht]; simp⟩
  intro k
  induction k with
  | zero => intro f z order m _; simpa [kahnLoop] using hpre m f z order
  | succ k ih =>
    intro f z order m hm
    obtain ⟨m, rfl⟩ : ∃ m', m = m' + 1 := ⟨m - 1, by omega⟩
    cases z with
    | nil => exact ⟨[], by simp [kahnLoop]⟩
    | cons n z =>
      simp only [kahnLoop]
      exact ih _ _ _ m (by omega)

/-! ### Theorems about `topological_sort` -/

/-- The loop needs at most one pass per node: any larger bound gives the same order. -/
theorem C44_pass_bound_irrelevant {nodes : List α} {succ : α → List α} (w : WellFormed nodes succ)
    (k : Nat) (hk : nodes.length ≤ k) : kahnFuel k nodes succ = kahn nodes succ := by
  obtain ⟨t, ht⟩ := kahnLoop_extends succ nodes.length (indegrees nodes succ)
    (nodes.filter (fun n => indegrees nodes succ n = 0)) [] k hk
  have ht' : kahnFuel k nodes succ = kahn nodes succ ++ t := ht
  have ⟨f1, i1⟩ := kahnFuel_inv w k hk
  have ⟨f2, i2⟩ := kahnFuel_inv w nodes.length (le_refl _)
  have hkk : kahnFuel nodes.length nodes succ = kahn nodes succ := rfl
  rw [hkk] at i2
  cases t with
  | nil => simpa using ht'
  | cons x t =>
    exfalso
    have hx1 : x ∈ nodes := i1.sub x (by rw [ht']; simp)
    have hnd := i1.nodup
    rw [ht'] at hnd
    have hx2 : x ∉ kahn nodes succ := by
      intro h
      rw [List.append_nil, List.nodup_append] at hnd
      exact hnd.2.2 x h x (by simp) rfl
    have hnot : f2 x ≠ 0 := fun h => hx2 (by simpa using (i2.ready x hx1).mpr h)
    have hw : waiting nodes succ (kahn nodes succ) x ≠ 0 := by
      intro h; apply hnot; rw [i2.count x, h]; rfl
    -- the predecessors of `x` come before it
    apply hw
    unfold waiting
    rw [List.countP_eq_zero]
    intro u hu hcon
    simp only [decide_eq_true_eq] at hcon
    have hb := i1.before (kahn nodes succ).length x (by rw [ht']; simp) u hu hcon.2
    have htake : (kahnFuel k nodes succ ++ []).take (kahn nodes succ).length = kahn nodes succ := by
      rw [ht', List.append_nil, List.take_left]
    rw [htake] at hb
    exact hcon.1 hb.2

example : kahnFuel 7 ["c", "a", "b"] (fun n => if n = "a" then ["b"] else if n = "b" then ["c"] else []) =
    kahn ["c", "a", "b"] (fun n => if n = "a" then ["b"] else if n = "b" then ["c"] else []) := by decide +kernel

/-- No node is repeated and only nodes of the graph appear. -/
theorem C44_sort_nodup_subset {nodes : List α} {succ : α → List α} (w : WellFormed nodes succ) :
    (kahn nodes succ).Nodup ∧ ∀ v ∈ kahn nodes succ, v ∈ nodes := by
  have ⟨f, inv⟩ := kahnFuel_inv w nodes.length (le_refl _)
  have h1 := inv.nodup
  have h2 := inv.sub
  rw [List.append_nil] at h1 h2
  exact ⟨h1, h2⟩

/-- Every dependency of a node in the order occurs at a smaller position. -/
theorem C44_dependencies_come_first {nodes : List α} {succ : α → List α} (w : WellFormed nodes succ)
    (u v : α) (h : DependsOn nodes succ u v) (p s : List α) (hv : kahn nodes succ = p ++ v :: s) :
    u ∈ p := by
  have ⟨f, inv⟩ := kahnFuel_inv w nodes.length (le_refl _)
  have hb := inv.before p.length v
    (by show (kahn nodes succ ++ [])[p.length]? = some v; rw [List.append_nil, hv]; simp) u h.1 h.2
  have ht : (kahn nodes succ ++ []).take p.length = p := by
    rw [List.append_nil, hv, List.take_left]
  have h2 := hb.2
  have : (kahnFuel nodes.length nodes succ ++ []).take p.length = p := ht
  rw [this] at h2
  exact h2

example : kahn ["c", "a", "b"] (fun n => if n = "a" then ["b"] else if n = "b" then ["c"] else []) = ["a", "b"] ++ "c" :: [] := by
  decide +kernel

/-- A node is left out exactly when it lies on a cycle or depends on a node that does. -/
theorem C44_omits_exactly_behind_cycles {nodes : List α} {succ : α → List α} (w : WellFormed nodes succ)
    (v : α) (hv : v ∈ nodes) : v ∉ kahn nodes succ ↔ BehindCycle nodes succ v := by
  have ⟨f, inv0⟩ := kahnFuel_inv w nodes.length (le_refl _)
  have inv : KahnInv nodes succ f [] (kahn nodes succ) := inv0
  constructor
  · intro hnot
    -- every omitted node has an omitted predecessor
    have hpred : ∀ x : {x : α // x ∈ nodes ∧ x ∉ kahn nodes succ},
        ∃ y : {x : α // x ∈ nodes ∧ x ∉ kahn nodes succ}, DependsOn nodes succ y.1 x.1 := by
      rintro ⟨x, hx, hxn⟩
      have hf : f x ≠ 0 := fun h => hxn (by simpa using (inv.ready x hx).mpr h)
      have hw : waiting nodes succ (kahn nodes succ) x ≠ 0 := by
        intro h; apply hf; rw [inv.count x, h]; rfl
      have hpos : 0 < waiting nodes succ (kahn nodes succ) x := Nat.pos_of_ne_zero hw
      unfold waiting at hpos
      rw [List.countP_pos_iff] at hpos
      obtain ⟨u, hu, hcon⟩ := hpos
      simp only [decide_eq_true_eq] at hcon
      exact ⟨⟨u, hu, hcon.1⟩, hu, hcon.2⟩
    choose g hg using hpred
    let s : Nat → {x : α // x ∈ nodes ∧ x ∉ kahn nodes succ} := fun k => g^[k] ⟨v, hv, hnot⟩
    have hstep : ∀ k, DependsOn nodes succ (s (k + 1)).1 (s k).1 := by
      intro k
      show DependsOn nodes succ (g^[k + 1] ⟨v, hv, hnot⟩).1 _
      rw [Function.iterate_succ_apply']
      exact hg _
    have hreach : ∀ i d, Relation.ReflTransGen (DependsOn nodes succ) (s (i + d)).1 (s i).1 := by
      intro i d
      induction d with
      | zero => exact Relation.ReflTransGen.refl
      | succ d ih => exact Relation.ReflTransGen.head (hstep (i + d)) ih
    have : Finite {x : α // x ∈ nodes ∧ x ∉ kahn nodes succ} := by
      have hfin : ({x : α | x ∈ nodes ∧ x ∉ kahn nodes succ}).Finite :=
        (List.finite_toSet nodes).subset (fun x hx => hx.1)
      exact hfin.to_subtype
    obtain ⟨i, j, hij, heq⟩ := Finite.exists_ne_map_eq_of_infinite s
    have hcyc : ∀ i j, i < j → s i = s j → BehindCycle nodes succ v := by
      intro i j hlt heq
      refine ⟨(s i).1, ?_, ?_⟩
      · have h1 := hreach (i + 1) (j - i - 1)
        have : i + 1 + (j - i - 1) = j := by omega
        rw [this, ← heq] at h1
        exact Relation.TransGen.tail' h1 (hstep i)
      · have h0 := hreach 0 i
        rw [Nat.zero_add] at h0
        exact h0
    rcases Nat.lt_or_gt_of_ne hij with h | h
    · exact hcyc i j h heq
    · exact hcyc j i h heq.symm
  · rintro ⟨x, hxx, hxv⟩ hin
    -- predecessors of members are members
    have hback : ∀ a b, DependsOn nodes succ a b → b ∈ kahn nodes succ → a ∈ kahn nodes succ := by
      intro a b hab hb
      obtain ⟨p, s, hps⟩ := List.append_of_mem hb
      have := C44_dependencies_come_first w a b hab p s hps
      rw [hps]; exact List.mem_append_left _ this
    have hidx : ∀ a b, DependsOn nodes succ a b → b ∈ kahn nodes succ →
        (kahn nodes succ).idxOf a < (kahn nodes succ).idxOf b := by
      intro a b hab hb
      obtain ⟨p, s, hps⟩ := List.append_of_mem hb
      have ha := C44_dependencies_come_first w a b hab p s hps
      have hbp : b ∉ p := by
        have hnd := (C44_sort_nodup_subset w).1
        rw [hps, List.nodup_append] at hnd
        intro h
        exact hnd.2.2 b h b (by simp) rfl
      rw [hps, List.idxOf_append_of_mem ha, List.idxOf_append_of_notMem hbp]
      have := List.idxOf_lt_length_iff.mpr ha
      omega
    have hx : x ∈ kahn nodes succ := by
      revert hin
      refine Relation.ReflTransGen.head_induction_on hxv (fun h => h) ?_
      intro a c hac _ ih hin
      exact hback a c hac (ih hin)
    have key : ∀ a b, Relation.TransGen (DependsOn nodes succ) a b → b ∈ kahn nodes succ →
        (kahn nodes succ).idxOf a < (kahn nodes succ).idxOf b := by
      intro a b hab
      induction hab with
      | single h => intro hb; exact hidx _ _ h hb
      | tail _ h ih =>
        intro hc
        have hb := hback _ _ h hc
        exact lt_trans (ih hb) (hidx _ _ h hc)
    exact lt_irrefl _ (key x x hxx hx)

example : "x" ∈ ["x", "y", "z"] ∧ kahn ["x", "y", "z"] (fun n => if n = "x" then ["y"] else if n = "y" then ["x"] else []) = ["z"] := by
  decide +kernel

/-- Every node appears if and only if there is no cycle. -/
theorem C44_complete_iff_acyclic {nodes : List α} {succ : α → List α} (w : WellFormed nodes succ) :
    (∀ v ∈ nodes, v ∈ kahn nodes succ) ↔ IsAcyclic nodes succ := by
  constructor
  · intro hall x hxx
    have hx : x ∈ nodes := by
      have : ∃ y, DependsOn nodes succ x y := by
        cases Relation.TransGen.head'_iff.mp hxx with
        | intro y h => exact ⟨y, h.1⟩
      exact this.elim fun y h => h.1
    exact ((C44_omits_exactly_behind_cycles w x hx).mpr ⟨x, hxx, Relation.ReflTransGen.refl⟩) (hall x hx)
  · intro hac v hv
    by_contra hnot
    obtain ⟨x, hxx, _⟩ := (C44_omits_exactly_behind_cycles w v hv).mp hnot
    exact hac x hxx

/-- For an acyclic graph the order is a permutation of the nodes. -/
theorem C44_sort_is_permutation {nodes : List α} {succ : α → List α} (w : WellFormed nodes succ)
    (hac : IsAcyclic nodes succ) : (kahn nodes succ).Perm nodes := by
  have ⟨h1, h2⟩ := C44_sort_nodup_subset w
  rw [List.perm_ext_iff_of_nodup h1 w.nodup]
  intro v
  exact ⟨h2 v, (C44_complete_iff_acyclic w).mpr hac v⟩

/-! ### Graphs built with `add_node` and `add_edge` are well formed -/

theorem insertNew_mem (x y : α) (l : List α) : y ∈ insertNew x l ↔ y = x ∨ y ∈ l := by
  unfold insertNew
  split
  · rename_i h
    constructor
    · exact Or.inr
    · rintro (e | e)
      · exact e ▸ h
      · exact e
  · simp [or_comm]

theorem insertNew_nodup (x : α) (l : List α) (h : l.Nodup) : (insertNew x l).Nodup := by
  unfold insertNew
  split
  · exact h
  · rename_i hx
    rw [List.nodup_append]
    refine ⟨h, by simp, ?_⟩
    intro a ha b hb hab
    simp at hb
    exact hx (by rw [← hb, ← hab]; exact ha)

/-- `add_node` and `add_edge` keep the representation well formed, starting from the empty graph. -/
theorem C44_construction_well_formed :
    WellFormed (Graph.empty : Graph α).nodes (Graph.empty : Graph α).succ ∧
    (∀ (g : Graph α) x, WellFormed g.nodes g.succ →
      WellFormed (g.addNode x).nodes (g.addNode x).succ) ∧
    (∀ (g : Graph α) s d, WellFormed g.nodes g.succ →
      WellFormed (g.addEdge s d).nodes (g.addEdge s d).succ ∧
        ∀ u v, (v ∈ (g.addEdge s d).succ u ↔ v ∈ g.succ u ∨ (u = s ∧ v = d))) := by
  refine ⟨⟨by simp [Graph.empty], by simp [Graph.empty], by simp [Graph.empty]⟩, ?_, ?_⟩
  · intro g x w
    refine ⟨insertNew_nodup _ _ w.nodup, w.succNodup, ?_⟩
    intro u v hv
    show v ∈ insertNew x g.nodes
    rw [insertNew_mem]
    exact Or.inr (w.closed u v hv)
  · intro g s d w
    have hm : ∀ u v, (v ∈ (g.addEdge s d).succ u ↔ v ∈ g.succ u ∨ (u = s ∧ v = d)) := by
      intro u v
      unfold Graph.addEdge
      simp only []
      split
      · rename_i h
        rw [insertNew_mem]
        simp [h, or_comm]
      · rename_i h
        simp [h]
    refine ⟨⟨insertNew_nodup _ _ (insertNew_nodup _ _ w.nodup), ?_, ?_⟩, hm⟩
    · intro u
      unfold Graph.addEdge
      simp only []
      split
      · exact insertNew_nodup _ _ (w.succNodup u)
      · exact w.succNodup u
    · intro u v hv
      show v ∈ insertNew d (insertNew s g.nodes)
      rw [insertNew_mem, insertNew_mem]
      rcases (hm u v).mp hv with h | h
      · exact Or.inr (Or.inr (w.closed u v h))
      · exact Or.inl h.2

/-! ### The order used by the feature kit -/

/-- The subgraph of feature names. -/
theorem subgraph_wf {nameSet : List α} {succ : α → List α} (hn : nameSet.Nodup)
    (hs : ∀ u, (succ u).Nodup) :
    WellFormed nameSet (fun u => (succ u).filter (fun d => d ∈ nameSet)) where
  nodup := hn
  succNodup := fun u => (hs u).filter _
  closed := by intro u v hv; simpa using (List.mem_filter.mp hv).2

/-- With distinct feature names the kit's order is a permutation of the names, cyclic or not. -/
theorem C44_kit_order_is_permutation (names nameSet : List α) (succ : α → List α)
    (hn : names.Nodup) (hset : nameSet.Perm names) (hs : ∀ u, (succ u).Nodup) :
    (topologicalOrder names nameSet succ).Perm names := by
  have w := subgraph_wf (hset.nodup_iff.mpr hn) hs
  have ⟨h1, h2⟩ := C44_sort_nodup_subset w
  unfold topologicalOrder
  simp only []
  generalize kahn nameSet (fun u => (succ u).filter (fun d => d ∈ nameSet)) = o at h1 h2
  rw [List.perm_ext_iff_of_nodup _ hn]
  · intro v
    simp only [List.mem_append, List.mem_filter, decide_eq_true_eq]
    constructor
    · rintro (h | h)
      · exact hset.mem_iff.mp (h2 v h)
      · exact h.1
    · intro h
      by_cases ho : v ∈ o
      · exact Or.inl ho
      · exact Or.inr ⟨h, ho⟩
  · rw [List.nodup_append]
    refine ⟨h1, hn.filter _, ?_⟩
    intro a ha b hb hab
    subst hab
    simp at hb
    exact hb.2 ha

example : ["x", "y", "z"].Nodup ∧ ["z", "y", "x"].Perm ["x", "y", "z"] ∧
    topologicalOrder ["x", "y", "z"] ["z", "y", "x"] (fun n => if n = "x" then ["y"] else if n = "y" then ["x"] else []) = ["z", "x", "y"] := by
  decide +kernel

/-- In the kit's order a feature that is not behind a cycle comes after every feature it depends on. -/
theorem C44_kit_dependencies_first (names nameSet : List α) (succ : α → List α)
    (hn : names.Nodup) (hset : nameSet.Perm names) (hs : ∀ u, (succ u).Nodup)
    (u v : α) (hu : u ∈ names) (hv : v ∈ names) (huv : v ∈ succ u)
    (hac : ¬ BehindCycle nameSet (fun u => (succ u).filter (fun d => d ∈ nameSet)) v)
    (p s : List α) (hps : topologicalOrder names nameSet succ = p ++ v :: s) : u ∈ p := by
  have w := subgraph_wf (hset.nodup_iff.mpr hn) hs
  have hv' : v ∈ nameSet := hset.mem_iff.mpr hv
  have hin : v ∈ kahn nameSet (fun u => (succ u).filter (fun d => d ∈ nameSet)) := by
    by_contra h
    exact hac ((C44_omits_exactly_behind_cycles w v hv').mp h)
  obtain ⟨p', s', h'⟩ := List.append_of_mem hin
  have hup := C44_dependencies_come_first w u v
    ⟨hset.mem_iff.mpr hu, by simp [huv, hv']⟩ p' s' h'
  have hperm := C44_kit_order_is_permutation names nameSet succ hn hset hs
  have hnd : (topologicalOrder names nameSet succ).Nodup := hperm.nodup_iff.mpr hn
  have heq : topologicalOrder names nameSet succ =
      p' ++ v :: (s' ++ names.filter
        (fun n => n ∉ kahn nameSet (fun u => (succ u).filter (fun d => d ∈ nameSet)))) := by
    unfold topologicalOrder
    simp only []
    conv_lhs => arg 1; rw [h']
    simp
  have hpp : p = p' := by
    have hidx : ∀ (a b : List α), a ++ v :: b = topologicalOrder names nameSet succ →
        a = (topologicalOrder names nameSet succ).take ((topologicalOrder names nameSet succ).idxOf v) := by
      intro a b hab
      have hva : v ∉ a := by
        rw [← hab, List.nodup_append] at hnd
        intro h
        exact hnd.2.2 v h v (by simp) rfl
      rw [← hab, List.idxOf_append_of_notMem hva]
      simp
    rw [hidx p s hps.symm, ← hidx p' _ heq.symm]
  rw [hpp]
  exact hup

example : topologicalOrder ["x", "y"] ["y", "x"] (fun n => if n = "y" then ["x"] else []) = ["y"] ++ "x" :: [] ∧ ["y", "x"].Perm ["x", "y"] := by
  decide +kernel

/-! ### Each feature is evaluated exactly once -/

variable {F : Type}

theorem lastNamed_self (name : F → α) (feats : List F) (hn : (feats.map name).Nodup) (f : F)
    (hf : f ∈ feats) : lastNamed name feats (name f) = some f := by
  unfold lastNamed
  rw [List.find?_eq_some_iff_append]
  refine ⟨by simp, ?_⟩
  obtain ⟨a, b, hab⟩ := List.append_of_mem (List.mem_reverse.mpr hf)
  refine ⟨a, b, hab, ?_⟩
  intro x hx
  simp only [Bool.not_eq_true', decide_eq_false_iff_not]
  intro hxf
  have hr : (feats.reverse.map name).Nodup := by
    rw [List.map_reverse]; exact List.nodup_reverse.mpr hn
  rw [hab, List.map_append, List.nodup_append] at hr
  exact hr.2.2 (name x) (List.mem_map_of_mem hx) (name f) (by simp) hxf

theorem lastNamed_name (name : F → α) (feats : List F) (n : α) (f : F)
    (h : lastNamed name feats n = some f) : name f = n ∧ f ∈ feats := by
  unfold lastNamed at h
  have h1 := List.find?_some h
  have h2 := List.mem_of_find?_eq_some h
  exact ⟨by simpa using h1, List.mem_reverse.mp h2⟩

/-- With distinct names, the features run for `order="topo"` are a permutation of the features:
each runs exactly once, whatever the dependency graph (cycles included). -/
theorem C44_each_feature_once (name : F → α) (feats : List F) (nameSet : List α) (succ : α → List α)
    (hn : (feats.map name).Nodup) (hset : nameSet.Perm (feats.map name)) (hs : ∀ u, (succ u).Nodup) :
    (featuresSeq name feats (topologicalOrder (feats.map name) nameSet succ)).Perm feats := by
  have hperm := C44_kit_order_is_permutation (feats.map name) nameSet succ hn hset hs
  unfold featuresSeq
  have hrem : feats.filter
      (fun f => name f ∉ topologicalOrder (feats.map name) nameSet succ) = [] := by
    rw [List.filter_eq_nil_iff]
    intro f hf
    have := hperm.mem_iff.mpr (List.mem_map_of_mem (f := name) hf)
    simpa using this
  rw [hrem, List.append_nil]
  refine (hperm.filterMap _).trans ?_
  rw [List.filterMap_map]
  have : ∀ l : List F, (∀ f ∈ l, f ∈ feats) →
      l.filterMap (lastNamed name feats ∘ name) = l := by
    intro l hl
    induction l with
    | nil => rfl
    | cons a l ih =>
      rw [List.filterMap_cons, Function.comp_apply, lastNamed_self name feats hn a (hl a (by simp)),
        ih (fun f hf => hl f (List.mem_cons_of_mem _ hf))]
  rw [this feats (fun f hf => hf)]

example : featuresSeq (fun n : Nat => n) [5, 3] (topologicalOrder [5, 3] [3, 5] (fun n => if n = 3 then [5] else [])) = [3, 5] := by
  decide +kernel

/-- Violation: when two features share a name, only the last of them runs. -/
theorem C44_duplicate_name_dropped :
    ∃ (feats : List (String × Nat)) (nameSet : List String),
      nameSet.Nodup ∧ (∀ n, n ∈ nameSet ↔ n ∈ feats.map Prod.fst) ∧
      feats = [("ret", 1), ("ret", 2)] ∧
      featuresSeq Prod.fst feats (topologicalOrder (feats.map Prod.fst) nameSet (fun _ => []))
        = [("ret", 2)] :=
  ⟨[("ret", 1), ("ret", 2)], ["ret"], by decide, by simp, rfl, by decide +kernel⟩

/-- Violation of the documented "topological order": on a cycle, `topological_sort` silently
returns an incomplete order and raises nothing. -/
theorem C44_cycle_is_silent :
    kahn ["a", "b", "c"] (fun n => if n = "a" then ["b"] else if n = "b" then ["a", "c"] else []) = [] := by
  decide +kernel

/-! ### Non-vacuity -/

example : kahn ["c", "a", "b"] (fun n => if n = "a" then ["b"] else if n = "b" then ["c"] else [])
    = ["a", "b", "c"] := by decide +kernel

example : WellFormed ["c", "a", "b"]
    (fun n => if n = "a" then ["b"] else if n = "b" then ["c"] else []) where
  nodup := by decide
  succNodup := by intro u; split <;> [skip; split] <;> simp
  closed := by intro u v; split <;> [skip; split] <;> simp <;> (intro h; simp [h])

example : topologicalOrder ["x", "y"] ["y", "x"] (fun n => if n = "y" then ["x"] else []) = ["y", "x"] := by
  decide +kernel

/-! ### The graph of a sequence of calls -/

/-- One call on a graph: `add_node` or `add_edge`. -/
def applyCall (g : Graph α) (c : α ⊕ α × α) : Graph α :=
  match c with
  | .inl x => g.addNode x
  | .inr e => g.addEdge e.1 e.2

theorem applyCalls_spec (calls : List (α ⊕ α × α)) (g : Graph α) (w : WellFormed g.nodes g.succ) :
    WellFormed (calls.foldl applyCall g).nodes (calls.foldl applyCall g).succ ∧
    (∀ v, v ∈ (calls.foldl applyCall g).nodes ↔ v ∈ g.nodes ∨ Sum.inl v ∈ calls ∨ ∃ e, Sum.inr e ∈ calls ∧ (v = e.1 ∨ v = e.2)) ∧
    (∀ u v, v ∈ (calls.foldl applyCall g).succ u ↔ v ∈ g.succ u ∨ Sum.inr (u, v) ∈ calls) := by
  induction calls generalizing g with
  | nil => simp [w]
  | cons c t ih =>
    rw [List.foldl_cons]
    cases c with
    | inl x =>
      obtain ⟨h1, h2, h3⟩ := ih (g.addNode x) (C44_construction_well_formed.2.1 g x w)
      refine ⟨h1, ?_, ?_⟩
      · intro v
        rw [show applyCall g (.inl x) = g.addNode x from rfl, h2 v]
        show v ∈ insertNew x g.nodes ∨ _ ↔ _
        rw [insertNew_mem]
        simp only [List.mem_cons, Sum.inl.injEq, reduceCtorEq, false_or]
        generalize (∃ e, Sum.inr e ∈ t ∧ (v = e.1 ∨ v = e.2)) = q
        tauto
      · intro u v
        rw [show applyCall g (.inl x) = g.addNode x from rfl, h3 u v]
        show v ∈ g.succ u ∨ _ ↔ _
        simp
    | inr e =>
      obtain ⟨wf, hs⟩ := C44_construction_well_formed.2.2 g e.1 e.2 w
      obtain ⟨h1, h2, h3⟩ := ih (g.addEdge e.1 e.2) wf
      refine ⟨h1, ?_, ?_⟩
      · intro v
        rw [show applyCall g (.inr e) = g.addEdge e.1 e.2 from rfl, h2 v]
        show v ∈ insertNew e.2 (insertNew e.1 g.nodes) ∨ _ ↔ _
        rw [insertNew_mem, insertNew_mem]
        simp only [List.mem_cons, Sum.inr.injEq, reduceCtorEq, false_or, or_and_right, exists_or, exists_eq_left]
        generalize (∃ e, Sum.inr e ∈ t ∧ (v = e.1 ∨ v = e.2)) = q
        tauto
      · intro u v
        rw [show applyCall g (.inr e) = g.addEdge e.1 e.2 from rfl, h3 u v, hs u v]
        simp only [List.mem_cons, Sum.inr.injEq, Prod.ext_iff]
        tauto

/-- `topological_sort` of a graph made by any sequence of `add_node` and `add_edge` calls: no node twice, only nodes that were named in a call,
every node after all nodes with an edge to it; and a node is missing exactly when it lies behind a cycle of edges. -/
theorem C44_topological_sort (calls : List (α ⊕ α × α)) :
    let order := (calls.foldl applyCall Graph.empty).topologicalSort
    let edge := fun u v => Sum.inr (u, v) ∈ calls
    order.Nodup ∧
    (∀ v ∈ order, Sum.inl v ∈ calls ∨ ∃ e, Sum.inr e ∈ calls ∧ (v = e.1 ∨ v = e.2)) ∧
    (∀ u v p s, edge u v → order = p ++ v :: s → u ∈ p) ∧
    (∀ v, (Sum.inl v ∈ calls ∨ ∃ e, Sum.inr e ∈ calls ∧ (v = e.1 ∨ v = e.2)) →
      (v ∉ order ↔ ∃ x, Relation.TransGen edge x x ∧ Relation.ReflTransGen edge x v)) := by
  intro order edge
  obtain ⟨w, hn, hs⟩ := applyCalls_spec calls Graph.empty C44_construction_well_formed.1
  have hn' : ∀ v, v ∈ (calls.foldl applyCall Graph.empty).nodes ↔ Sum.inl v ∈ calls ∨ ∃ e, Sum.inr e ∈ calls ∧ (v = e.1 ∨ v = e.2) := by
    intro v; rw [hn v]; simp [Graph.empty]
  have hd : DependsOn (calls.foldl applyCall Graph.empty).nodes (calls.foldl applyCall Graph.empty).succ = edge := by
    funext u v
    apply propext
    unfold DependsOn
    rw [hn' u, hs u v]
    simp only [Graph.empty, List.not_mem_nil, false_or]
    constructor
    · exact fun h => h.2
    · exact fun h => ⟨Or.inr ⟨(u, v), h, Or.inl rfl⟩, h⟩
  obtain ⟨a, b⟩ := C44_sort_nodup_subset w
  refine ⟨a, fun v hv => (hn' v).mp (b v hv), ?_, ?_⟩
  · intro u v p s he ho
    exact C44_dependencies_come_first w u v (by rw [hd]; exact he) p s ho
  · intro v hv
    have := C44_omits_exactly_behind_cycles w v ((hn' v).mpr hv)
    unfold BehindCycle at this
    rw [hd] at this
    exact this

example : ([.inl "z", .inr ("b", "c"), .inr ("a", "b")].foldl applyCall Graph.empty : Graph String).topologicalSort = ["z", "a", "b", "c"] := by decide +kernel

end FinML
