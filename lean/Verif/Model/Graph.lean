

/-!
# Feature dependency graph and its topological order

Model of `finmlkit/feature/utils.py:308-345` (`ComputationGraph`) and of
`finmlkit/feature/kit.py:985-1013` (`FeatureKit.topological_order`) and
`kit.py:1034-1044` (the execution order chosen by `FeatureKit.build`).

Simplifications: Python iterates over sets in an arbitrary order.  A node set is therefore a
list in an arbitrary order, and every theorem quantifies over that order.  The dictionary
`edges` always has the same keys as `nodes`, so it is a function from nodes to successor lists.
-/

namespace FinML

variable {α : Type} [DecidableEq α]

/-- `ComputationGraph` (`feature/utils.py:308-312`): the nodes, and the successors of a node. -/
structure Graph (α : Type) where
  nodes : List α
  succ : α → List α

/-- `ComputationGraph.__init__` (`feature/utils.py:310-312`). -/
def Graph.empty : Graph α := ⟨[], fun _ => []⟩

/-- `set.add` on a list without repeats. -/
def insertNew (x : α) (l : List α) : List α := if x ∈ l then l else l ++ [x]

/-- `ComputationGraph.add_node` (`feature/utils.py:319-321`). -/
def Graph.addNode (g : Graph α) (x : α) : Graph α := ⟨insertNew x g.nodes, g.succ⟩

/-- `ComputationGraph.add_edge` (`feature/utils.py:314-317`). -/
def Graph.addEdge (g : Graph α) (src dst : α) : Graph α :=
  ⟨insertNew dst (insertNew src g.nodes),
   fun v => if v = src then insertNew dst (g.succ v) else g.succ v⟩

/-- `indeg[d] += k` (`feature/utils.py:328`, `336`). -/
def bump (f : α → Int) (d : α) (k : Int) : α → Int := fun v => if v = d then f v + k else f v

/-- The in-degree table (`feature/utils.py:325-328`). -/
def indegrees (nodes : List α) (succ : α → List α) : α → Int :=
  nodes.foldl (fun f u => (succ u).foldl (fun f d => bump f d 1) f) (fun _ => 0)

/-- One pass of the inner loop: decrement, and enqueue when zero (`feature/utils.py:335-338`). -/
def relaxOne (s : (α → Int) × List α) (d : α) : (α → Int) × List α :=
  let f' := bump s.1 d (-1)
  (f', if f' d = 0 then s.2 ++ [d] else s.2)

/-- The inner loop over the successors of the removed node (`feature/utils.py:335-338`). -/
def relax (ds : List α) (f : α → Int) (zero : List α) : (α → Int) × List α :=
  ds.foldl relaxOne (f, zero)

/-- The `while zero` loop (`feature/utils.py:332-338`), with a bound on the number of passes. -/
def kahnLoop (succ : α → List α) : Nat → (α → Int) → List α → List α → List α
  | 0, _, _, order => order
  | _ + 1, _, [], order => order
  | k + 1, f, n :: zero, order =>
    let r := relax (succ n) f zero
    kahnLoop succ k r.1 r.2 (order ++ [n])

/-- Kahn's algorithm with an explicit bound on the number of passes. -/
def kahnFuel (fuel : Nat) (nodes : List α) (succ : α → List α) : List α :=
  let f := indegrees nodes succ
  kahnLoop succ fuel f (nodes.filter (fun n => f n = 0)) []

/-- `ComputationGraph.topological_sort` (`feature/utils.py:323-339`).  At most one pass per node
is needed (`C44_pass_bound_irrelevant`). -/
def kahn (nodes : List α) (succ : α → List α) : List α := kahnFuel nodes.length nodes succ

/-- `ComputationGraph.topological_sort` (`feature/utils.py:323-339`). -/
def Graph.topologicalSort (g : Graph α) : List α := kahn g.nodes g.succ

/-- `FeatureKit.topological_order` (`feature/kit.py:988-1013`): Kahn's algorithm on the subgraph
of feature names (`nameSet`, an enumeration of `set(names)`), then the missing names. -/
def topologicalOrder (names nameSet : List α) (succ : α → List α) : List α :=
  let order := kahn nameSet (fun u => (succ u).filter (fun d => d ∈ nameSet))
  order ++ names.filter (fun n => n ∉ order)

/-- Dictionary lookup `name2feat[n]` where later features overwrite earlier ones
(`feature/kit.py:1037`). -/
def lastNamed {F : Type} (name : F → α) (feats : List F) (n : α) : Option F :=
  feats.reverse.find? (fun f => name f = n)

/-- The execution order for `order="topo"` (`feature/kit.py:1036-1042`). -/
def featuresSeq {F : Type} (name : F → α) (feats : List F) (topo : List α) : List F :=
  topo.filterMap (lastNamed name feats) ++ feats.filter (fun f => name f ∉ topo)

end FinML
