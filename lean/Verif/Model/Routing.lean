/-
Model of the two implementations behind every transform and of the `backend` argument
(`finmlkit/feature/base.py:226-252`, `finmlkit/feature/kit.py:198-204`, `665-721`, `1014-1085`), and of the timing
report of `FeatureKit.build`.

As in `Model/FeatureKit.lean` a column is a value of an arbitrary type `C` and a data frame maps names to columns.
-/
import Verif.Model.FeatureKit
import Mathlib.Data.Rat.Floor
import Mathlib.Data.List.Sort

namespace FinML

variable {C : Type}

/-- What a call can raise: missing columns (`base.py:474`, `688`), an unknown backend (`base.py:252`), the assertion of
`Compose` (`kit.py:719`), an error of the computation, a wrong number of outputs. -/
inductive CallError where
  | missing (cols : List String)
  | unknownBackend (b : String)
  | badBackend
  | failed (msg : String)
  | outputs
deriving DecidableEq

/-- A single-output transform with its pandas and its Numba implementation (`base.py:335-715`). -/
structure DualLeaf (C : Type) where
  siso : Bool
  requires : List String
  produces : String
  pd : List C → Except String C
  nb : List C → Except String C

/-- The transform with one implementation. -/
def DualLeaf.pick (l : DualLeaf C) (b : String) : Leaf C :=
  ⟨l.siso, l.requires, l.produces, if b = "pd" then l.pd else l.nb⟩

/-- `output_name` (`base.py:485-492`, `699-706`). -/
def DualLeaf.output (l : DualLeaf C) : String :=
  if l.siso then l.requires.headD "" ++ "_" ++ l.produces else l.produces

/-- The names of `requires` that are not columns (`base.py:473`, `686`). -/
def missingCols (d : ColFrame C) (req : List String) : List String := req.filter (fun n => (d n).isNone)

/-- Choose an implementation (`base.py:248-252`). -/
def route (b : String) (pd nb : Except String C) : Except CallError C :=
  if b = "pd" then pd.mapError .failed
  else if b = "nb" then nb.mapError .failed
  else .error (.unknownBackend b)

/-- `CoreTransform.__call__` (`base.py:226-252`): validation, then routing. -/
def callLeaf (d : ColFrame C) (b : String) (l : DualLeaf C) : Except CallError C :=
  if missingCols d l.requires = [] then
    route b (l.pd (l.requires.filterMap d)) (l.nb (l.requires.filterMap d))
  else .error (.missing (missingCols d l.requires))

/-- Transform expressions, see `Tr`. -/
inductive DualTr (C : Type) where
  | leaf (l : DualLeaf C)
  | bin (name : String) (f : C → C → C) (l r : DualTr C)
  | un (name : String) (f : C → C) (t : DualTr C)
  | comp (first : DualLeaf C) (rest : List (DualLeaf C))

/-- The expression with one implementation throughout. -/
def DualTr.pick (b : String) : DualTr C → Tr C
  | .leaf l => .leaf (l.pick b)
  | .bin n f l r => .bin n f (l.pick b) (r.pick b)
  | .un n f t => .un n f (t.pick b)
  | .comp f r => .comp (f.pick b) (r.map (fun l => l.pick b))

/-- The name of a composed transform (`kit.py:637-642`). -/
def dualComposeName (first : DualLeaf C) (rest : List (DualLeaf C)) : String :=
  "_".intercalate (first.output :: rest.map DualLeaf.produces)

/-- `output_name` (`base.py:1277-1281`, `1314-1318`, `1346-1350`, `1387-1391`, `kit.py:658-665`). -/
def DualTr.output : DualTr C → String
  | .leaf l => l.output
  | .bin n _ _ _ => n
  | .un n _ _ => n
  | .comp f r => dualComposeName f r

/-- One step of a pipeline after the first (`kit.py:683-704`). -/
def dualStep (d : ColFrame C) (b : String) (prev : C) (l : DualLeaf C) : Except CallError C :=
  match d l.produces with
  | some x => .ok x
  | none =>
    match d (l.requires.headD "") with
    | some x => callLeaf (oneColumn (l.requires.headD "") x) b l
    | none => callLeaf (oneColumn (l.requires.headD "") prev) b l

/-- The steps after the first (`kit.py:683-704`). -/
def dualRest (d : ColFrame C) (b : String) : C → List (DualLeaf C) → Except CallError C
  | v, [] => .ok v
  | v, l :: ls =>
    match dualStep d b v l with
    | .error e => .error e
    | .ok w => dualRest d b w ls

/-- The first step (`kit.py:683-693`). -/
def dualFirst (d : ColFrame C) (b : String) (l : DualLeaf C) : Except CallError C :=
  match d l.produces with
  | some x => .ok x
  | none => callLeaf d b l

/-- `Compose.__call__` (`kit.py:665-721`): the backend is asserted first. -/
def callCompose (d : ColFrame C) (b : String) (first : DualLeaf C) (rest : List (DualLeaf C)) : Except CallError C :=
  if b = "pd" ∨ b = "nb" then
    match d (first.requires.headD "") with
    | none => .error (.missing [first.requires.headD ""])
    | some _ =>
      match d (dualComposeName first rest) with
      | some x => .ok x
      | none =>
        match dualFirst d b first with
        | .error e => .error e
        | .ok v => dualRest d b v rest
  else .error .badBackend

/-- Reuse of a cached column (`base.py:1283-1296`, `1320-1329`, `1352-1361`, `1393-1406`, `kit.py:198-204`). -/
def dualCached (d : ColFrame C) (n : String) (e : Except CallError C) : Except CallError C :=
  match d n with
  | some x => .ok x
  | none => e

/-- `__call__` of every transform (`base.py:226-252`, `1283-1299`, `1320-1332`, `1352-1364`, `1393-1409`,
`kit.py:712-721`). -/
def DualTr.call (d : ColFrame C) (b : String) : DualTr C → Except CallError C
  | .leaf l => callLeaf d b l
  | .bin n f l r =>
    dualCached d n
      (match dualCached d l.output (l.call d b) with
       | .error e => .error e
       | .ok x =>
         match dualCached d r.output (r.call d b) with
         | .error e => .error e
         | .ok y => .ok (f x y))
  | .un n f t =>
    dualCached d n
      (match dualCached d t.output (t.call d b) with
       | .error e => .error e
       | .ok x => .ok (f x))
  | .comp f r => callCompose d b f r

/-- A feature, see `Feat`. -/
inductive DualFeat (C : Type) where
  | single (name : String) (t : DualTr C)
  | multi (label : String) (requires : List String) (outs : List String)
      (pd nb : List C → Except String (List C))

/-- The feature with one implementation throughout. -/
def DualFeat.pick (b : String) : DualFeat C → Feat C
  | .single n t => .single n (t.pick b)
  | .multi l req outs pd nb => .multi l req outs (if b = "pd" then pd else nb)

/-- Run one feature (`kit.py:1049-1066`); see `Feat.results`. -/
def DualFeat.results (d : ColFrame C) (b : String) : DualFeat C → Except CallError (List (String × String × C))
  | .single n t =>
    match dualCached d t.output (t.call d b) with
    | .error e => .error e
    | .ok x => .ok [(n, t.output, x)]
  | .multi _ req outs pd nb =>
    if missingCols d req = [] then
      match route b (pd (req.filterMap d)) (nb (req.filterMap d)) with
      | .error e => .error e
      | .ok ys => if ys.length = outs.length then .ok ((outs.zip ys).map fun p => (p.1, p.1, p.2))
                  else .error .outputs
    else .error (.missing (missingCols d req))

/-- The loop of `FeatureKit.build` (`kit.py:1045-1066`). -/
def dualLoop (b : String) : List (DualFeat C) → KitState C → Except CallError (KitState C)
  | [], s => .ok s
  | f :: fs, s =>
    match f.results s.df b with
    | .error e => .error e
    | .ok rs => dualLoop b fs (s.store rs)

/-- `FeatureKit.build(df, backend=b)` (`kit.py:1014-1085`), features in the given order. -/
def dualBuild (d : ColFrame C) (b : String) (retain : List String) (feats : List (DualFeat C)) :
    Except CallError (ColFrame C) :=
  if missingCols d retain = [] then
    match dualLoop b feats ⟨fun n => if n ∈ retain then d n else none, d⟩ with
    | .error e => .error e
    | .ok s => .ok s.out
  else .error (.missing (missingCols d retain))

/-! ### The timing report -/

/-- `timing_info[key] = elapsed` (`kit.py:1053-1054`): a dictionary keeps the place of a repeated key. -/
def setTime (info : List (String × ℚ)) (key : String) (t : ℚ) : List (String × ℚ) :=
  if key ∈ info.map Prod.fst then info.map (fun p => if p.1 = key then (key, t) else p) else info ++ [(key, t)]

/-- The dictionary after all features (`kit.py:1043-1054`). -/
def timingInfo (runs : List (String × ℚ)) : List (String × ℚ) := runs.foldl (fun i r => setTime i r.1 r.2) []

/-- The longest time (`kit.py:1077`). -/
def maxTime : List (String × ℚ) → ℚ
  | [] => 0
  | p :: ps => ps.foldl (fun m q => max m q.2) p.2

/-- The length of a bar (`kit.py:1081-1083`): a string times a negative number is empty. -/
def timingBar (maxT t : ℚ) : Nat := if 0 < maxT then (⌊t / maxT * 50⌋).toNat else 0

/-- The lines of the report (`kit.py:1068-1084`): name, bar length, time; slowest first, stable. -/
def timingReport (runs : List (String × ℚ)) : List (String × Nat × ℚ) :=
  let sorted := (timingInfo runs).insertionSort (fun p q => q.2 ≤ p.2)
  sorted.map (fun p => (p.1, timingBar (maxTime sorted) p.2, p.2))

end FinML
