/-
Model of the feature expression evaluator in `finmlkit/feature/base.py` and `finmlkit/feature/kit.py`
and of the feature graph in `finmlkit/feature/utils.py:348-397`.

A column is a value of an arbitrary type `C`; a data frame maps column names to columns.
Column order, the index and the `backend` argument are not modelled (the backend is one fixed choice).
-/
import Verif.Model.Graph

namespace FinML

variable {C : Type}

/-- A data frame: `x[name]`, with `none` for a name that is not in `x.columns`. -/
abbrev ColFrame (C : Type) := String → Option C

/-- `df[name] = col`. -/
def ColFrame.set (d : ColFrame C) (n : String) (x : C) : ColFrame C := fun m => if m = n then some x else d m

/-- `pd.DataFrame(values, columns=[name])` (`kit.py:699-702`). -/
def oneColumn (n : String) (x : C) : ColFrame C := fun m => if m = n then some x else none

/-- A single-output transform that computes from required columns: `SISOTransform`,
`MISOTransform`, `Identity` and `ExternalFunction` (`base.py:335-501`, `504-715`,
`transforms.py:25-60`, `1668-1805`).  `siso` selects how the output is named. -/
structure Leaf (C : Type) where
  siso : Bool
  requires : List String
  produces : String
  run : List C → Except String C

/-- `output_name`: `base.py:485-492` (SISO) and `base.py:699-706` (MISO). -/
def Leaf.output (l : Leaf C) : String :=
  if l.siso then l.requires.headD "" ++ "_" ++ l.produces else l.produces

/-- The required columns, or an error naming a missing one (`base.py:470-475`, `683-689`). -/
def gather (d : ColFrame C) : List String → Except String (List C)
  | [] => .ok []
  | n :: ns =>
    match d n with
    | none => .error "column not found"
    | some x =>
      match gather d ns with
      | .error e => .error e
      | .ok xs => .ok (x :: xs)

/-- `CoreTransform.__call__` (`base.py:226-252`). -/
def evalLeaf (d : ColFrame C) (l : Leaf C) : Except String C :=
  match gather d l.requires with
  | .error e => .error e
  | .ok xs => l.run xs

/-- Transform expressions.  `name` is the stored `produces[0]`, which `Feature.apply` overwrites
(`kit.py:265`).  `bin` stands for `BinaryOpTransform` and `MinMaxOpTransform`, which have the same
`__call__` (`base.py:1283-1299`, `1393-1409`).  `un` stands for `UnaryOpTransform` and
`ConstantOpTransform` (`base.py:1352-1364`, `1320-1332`); a constant is part of `f`.
`comp` is `Compose` (`kit.py:637-721`) of a first step and further steps. -/
inductive Tr (C : Type) where
  | leaf (l : Leaf C)
  | bin (name : String) (f : C → C → C) (l r : Tr C)
  | un (name : String) (f : C → C) (t : Tr C)
  | comp (first : Leaf C) (rest : List (Leaf C))

/-- The name of a composed transform (`kit.py:637-642`). -/
def composeName (first : Leaf C) (rest : List (Leaf C)) : String :=
  "_".intercalate (first.output :: rest.map Leaf.produces)

/-- `output_name` (`base.py:1277-1281`, `1314-1318`, `1346-1350`, `1387-1391`, `kit.py:658-665`). -/
def Tr.output : Tr C → String
  | .leaf l => l.output
  | .bin n _ _ _ => n
  | .un n _ _ => n
  | .comp f r => composeName f r

/-- The columns a transform declares (`requires`): `base.py:1261`, `1305`, `1338`, `kit.py:638`. -/
def Tr.requires : Tr C → List String
  | .leaf l => l.requires
  | .bin _ _ l r => l.requires ++ r.requires
  | .un _ _ t => t.requires
  | .comp f _ => f.requires.take 1

/-- One step of a composed pipeline after the first (`kit.py:683-704`). -/
def composeStep (d : ColFrame C) (prev : C) (l : Leaf C) : Except String C :=
  match d l.produces with
  | some x => .ok x
  | none =>
    let req := l.requires.headD ""
    match d req with
    | some x => evalLeaf (oneColumn req x) l
    | none => evalLeaf (oneColumn req prev) l

/-- The steps after the first (`kit.py:683-704`). -/
def composeRest (d : ColFrame C) : C → List (Leaf C) → Except String C
  | v, [] => .ok v
  | v, l :: ls =>
    match composeStep d v l with
    | .error e => .error e
    | .ok w => composeRest d w ls

/-- The first step (`kit.py:683-693`). -/
def composeFirst (d : ColFrame C) (l : Leaf C) : Except String C :=
  match d l.produces with
  | some x => .ok x
  | none => evalLeaf d l

/-- `Compose._run_pipeline` (`kit.py:667-711`). -/
def runPipeline (d : ColFrame C) (first : Leaf C) (rest : List (Leaf C)) : Except String C :=
  match d (first.requires.headD "") with
  | none => .error "column not found"
  | some _ =>
    match d (composeName first rest) with
    | some x => .ok x
    | none =>
      match composeFirst d first with
      | .error e => .error e
      | .ok v => composeRest d v rest

/-- Reuse of a cached child (`base.py:1289-1296`, `1326-1329`, `1358-1361`, `1399-1406`),
also `Feature.__call__` (`kit.py:198-204`). -/
def cachedOr (d : ColFrame C) (n : String) (e : Except String C) : Except String C :=
  match d n with
  | some x => .ok x
  | none => e

/-- `__call__` of every transform, with its cache lookups. -/
def Tr.eval (d : ColFrame C) : Tr C → Except String C
  | .leaf l => evalLeaf d l
  | .bin n f l r =>
    cachedOr d n
      (match cachedOr d l.output (l.eval d) with
       | .error e => .error e
       | .ok a =>
         match cachedOr d r.output (r.eval d) with
         | .error e => .error e
         | .ok b => .ok (f a b))
  | .un n f t =>
    cachedOr d n
      (match cachedOr d t.output (t.eval d) with
       | .error e => .error e
       | .ok a => .ok (f a))
  | .comp f r => runPipeline d f r

/-- `Feature.__call__` with `cache=df` (`kit.py:198-204`). -/
def featureCall (d : ColFrame C) (t : Tr C) : Except String C := cachedOr d t.output (t.eval d)

/-- A feature: a single-output transform with the feature's own name (`kit.py:194-223`), or a
multi-output transform (`SIMOTransform`, `MIMOTransform`, `base.py:718-1254`) with the string form
of its name list. -/
inductive Feat (C : Type) where
  | single (name : String) (t : Tr C)
  | multi (label : String) (requires : List String) (outs : List String) (run : List C → Except String (List C))

/-- `str(f.name)`. -/
def Feat.name : Feat C → String
  | .single n _ => n
  | .multi l _ _ _ => l

/-- The loop state of `FeatureKit.build`: the result `out` and the working copy `df`. -/
structure KitState (C : Type) where
  out : ColFrame C
  df : ColFrame C

/-- Run one feature and store its result (`kit.py:1045-1066`).  Returns the (result name, cache
name, column) triples. -/
def Feat.results (d : ColFrame C) : Feat C → Except String (List (String × String × C))
  | .single n t =>
    match featureCall d t with
    | .error e => .error e
    | .ok x => .ok [(n, t.output, x)]
  | .multi _ req outs run =>
    match gather d req with
    | .error e => .error e
    | .ok xs =>
      match run xs with
      | .error e => .error e
      | .ok ys => if ys.length = outs.length then .ok ((outs.zip ys).map fun p => (p.1, p.1, p.2))
                  else .error "wrong number of outputs"

/-- Store the results (`kit.py:1057-1064`). -/
def KitState.store (s : KitState C) (rs : List (String × String × C)) : KitState C :=
  rs.foldl (fun s r => ⟨s.out.set r.1 r.2.2, s.df.set r.2.1 r.2.2⟩) s

/-- The loop of `FeatureKit.build` (`kit.py:1045-1066`). -/
def buildLoop : List (Feat C) → KitState C → Except String (KitState C)
  | [], s => .ok s
  | f :: fs, s =>
    match f.results s.df with
    | .error e => .error e
    | .ok rs => buildLoop fs (s.store rs)

/-- `df[self.retain]` (`kit.py:1030`): raises when a retained column is missing. -/
def retained (d : ColFrame C) (retain : List String) : Except String (ColFrame C) :=
  if retain.all (fun n => (d n).isSome) then .ok (fun n => if n ∈ retain then d n else none)
  else .error "column not found"

/-- `FeatureKit.build` with a given execution order (`kit.py:1015-1066`). -/
def buildKit (d : ColFrame C) (retain : List String) (feats : List (Feat C)) : Except String (ColFrame C) :=
  match retained d retain with
  | .error e => .error e
  | .ok o =>
    match buildLoop feats ⟨o, d⟩ with
    | .error e => .error e
    | .ok s => .ok s.out

/-- `_flatten_requires` (`utils.py:348-356`); the order of a `set` is irrelevant here. -/
def Tr.flatRequires : Tr C → List String
  | .leaf l => l.requires
  | .bin _ _ l r => l.flatRequires ++ r.flatRequires
  | .un _ _ t => t.flatRequires
  | .comp f _ => f.requires

/-- `_child_out_names` (`utils.py:364-376`). -/
def Tr.childOut : Tr C → List String
  | .leaf _ => []
  | .bin _ _ l r => [l.output, r.output]
  | .un _ _ t => [t.output]
  | .comp f _ => [f.output]

/-- Required columns of a feature as used by the graph (`utils.py:382`). -/
def Feat.reqs : Feat C → List String
  | .single _ t => t.flatRequires
  | .multi _ r _ _ => r

/-- Child outputs of a feature as used by the graph (`utils.py:388`). -/
def Feat.children : Feat C → List String
  | .single _ t => t.childOut
  | .multi _ _ _ _ => []

/-- The keys of `outputs` (`utils.py:362`): names of features with a string name. -/
def stringNames : List (Feat C) → List String
  | [] => []
  | .single n _ :: fs => n :: stringNames fs
  | .multi _ _ _ _ :: fs => stringNames fs

/-- The edges added for one feature (`utils.py:378-396`). -/
def addFeature (outputs : List String) (g : Graph String) (f : Feat C) : Graph String :=
  let g0 := g.addNode f.name
  let g1 := f.reqs.foldl (fun g r => (g.addNode ("input:" ++ r)).addEdge ("input:" ++ r) f.name) g0
  let g2 := f.children.foldl
    (fun g c => if c ∈ outputs ∧ c ≠ f.name then g.addEdge c f.name else g) g1
  outputs.foldl (fun g o => if o = f.name then g else if o ∈ f.reqs then g.addEdge o f.name else g) g2

/-- `build_feature_graph` (`utils.py:359-397`). -/
def buildFeatureGraph (feats : List (Feat C)) : Graph String :=
  feats.foldl (addFeature (stringNames feats)) Graph.empty

/-- `FeatureKit.build(order="topo")` (`kit.py:1033-1042`); `nameSet` enumerates `set(names)`. -/
def buildTopo (d : ColFrame C) (retain : List String) (feats : List (Feat C)) (nameSet : List String) :
    Except String (ColFrame C) :=
  buildKit d retain (featuresSeq Feat.name feats
    (topologicalOrder (feats.map Feat.name) nameSet (buildFeatureGraph feats).succ))

end FinML
