/-
Model of `ExternalFunction` (`finmlkit/feature/transforms.py:1668-1805`).

`V` are cell values, `A` further positional arguments, `W` the keyword arguments.  Data-frame columns share one index.
The Python import system is a parameter (`World`): looking up an attribute in a module fails, or gives an object,
which is a function or not callable.  Functions do not change their arguments.
-/
import Verif.Model.Months

namespace FinML

/-- What a function receives or returns: a series with its index, an array, or a single value. -/
inductive XItem (V : Type) where
  | series (index : List Int) (vals : List V)
  | array (vals : List V)
  | scalar (v : V)
deriving DecidableEq

/-- A function result: one object, or a tuple or list of objects. -/
inductive XRes (V : Type) where
  | one (x : XItem V)
  | many (xs : List (XItem V))
deriving DecidableEq

/-- A Python function, called with columns and further positional arguments. -/
abbrev XFn (V A W : Type) := List (XItem V) → List A → W → Except String (XRes V)

/-- The import system: module and attribute name. -/
structure World (V A W : Type) where
  look : List Char → List Char → Except String (Option (XFn V A W))

/-- The `func` argument: an import path, or an object with `__module__` and `__name__`. -/
inductive XFunc (V A W : Type) where
  | path (p : List Char)
  | obj (md nm : Option (List Char)) (f : XFn V A W)

/-- The attributes of the transform (`transforms.py:1725-1733`). -/
structure XTransform (V A W : Type) where
  callable : Option (XFn V A W)
  path : Option (List Char)
  requires : List String
  produces : List (List Char)
  args : List A
  kwargs : W
  passNumpy : Bool

/-- Python truth value of an optional text. -/
def nonEmptyText : Option (List Char) → Option (List Char)
  | some (c :: s) => some (c :: s)
  | _ => none

/-- `func.split(".")[-1]`: the text after the last dot. -/
def afterDot (p : List Char) : List Char := (p.reverse.takeWhile (fun c => decide (c ≠ '.'))).reverse

/-- `transforms.py:1706-1715`: the display name. -/
def XFunc.name {V A W : Type} : XFunc V A W → List Char
  | .path p => afterDot p
  | .obj _ nm _ => (nonEmptyText nm).getD "external".toList

/-- `transforms.py:1706-1715`: the import path. -/
def XFunc.path? {V A W : Type} : XFunc V A W → Option (List Char)
  | .path p => some p
  | .obj md nm _ =>
    match nonEmptyText md, nonEmptyText nm with
    | some m, some n => some (m ++ '.' :: n)
    | _, _ => none

/-- `transforms.py:1706-1715`: the stored object. -/
def XFunc.object? {V A W : Type} : XFunc V A W → Option (XFn V A W)
  | .path _ => none
  | .obj _ _ f => some f

/-- `transforms.py:1684-1733`: the constructor. -/
def XTransform.make {V A W : Type} (func : XFunc V A W) (inputs : List String) (outputs : Option (List (List Char)))
    (args : List A) (kwargs : W) (passNumpy : Bool) : XTransform V A W :=
  { callable := func.object?, path := func.path?, requires := inputs,
    produces := outputs.getD ["ext_".toList ++ func.name], args := args, kwargs := kwargs, passNumpy := passNumpy }

/-- `rsplit(".", 1)` unpacked into two names; without a dot the unpacking fails. -/
def rsplitDot (p : List Char) : Option (List Char × List Char) :=
  let r := p.reverse.dropWhile (fun c => decide (c ≠ '.'))
  match r with
  | [] => none
  | _ :: m => some (m.reverse, afterDot p)

/-- `transforms.py:1749-1760` `_resolve_func`. -/
def XTransform.resolve {V A W : Type} (w : World V A W) (t : XTransform V A W) : Except String (XFn V A W) :=
  match t.callable with
  | some f => .ok f
  | none =>
    match nonEmptyText t.path with
    | none => .error "ExternalFunction requires a callable or import path"
    | some p =>
      match rsplitDot p with
      | none => .error "ValueError: not enough values to unpack"
      | some (m, a) =>
        match w.look m a with
        | .error e => .error e
        | .ok none => .error "TypeError: not callable"
        | .ok (some f) => .ok f

/-- A data frame: an index and columns. -/
structure XFrame (V : Type) where
  index : List Int
  col : String → Option (List V)

/-- A named result column. -/
structure XCol (V : Type) where
  name : List Char
  index : List Int
  vals : List V
deriving DecidableEq

/-- `pd.Series(item, index=index, name=name)`, or a renamed copy of a series (`transforms.py:1791-1796`,
`1799-1805`): a series keeps its own index, an array must fit, a single value is repeated. -/
def toCol {V : Type} (index : List Int) (name : List Char) : XItem V → Except String (XCol V)
  | .series ix vs => .ok ⟨name, ix, vs⟩
  | .array vs => if vs.length = index.length then .ok ⟨name, index, vs⟩ else .error "ValueError: length mismatch"
  | .scalar v => .ok ⟨name, index, index.map (fun _ => v)⟩

/-- The loop over several outputs (`transforms.py:1789-1797`). -/
def toCols {V : Type} (index : List Int) : List (List Char × XItem V) → Except String (List (XCol V))
  | [] => .ok []
  | (n, x) :: r =>
    match toCol index n x with
    | .error e => .error e
    | .ok c =>
      match toCols index r with
      | .error e => .error e
      | .ok cs => .ok (c :: cs)

/-- `transforms.py:1784-1805`: one column, or a tuple of columns. -/
def XTransform.outputs {V A W : Type} (t : XTransform V A W) (index : List Int) :
    XRes V → Except String (XCol V ⊕ List (XCol V))
  | .many xs =>
    if xs.length ≠ t.produces.length then .error "ValueError: wrong number of outputs"
    else match toCols index (t.produces.zip xs) with
      | .error e => .error e
      | .ok cs => .ok (.inr cs)
  | .one x =>
    match t.produces with
    | [] => .error "IndexError"
    | n :: _ =>
      match toCol index n x with
      | .error e => .error e
      | .ok c => .ok (.inl c)

/-- The selected columns as series or arrays (`transforms.py:1766-1778`). -/
def XTransform.inputs {V A W : Type} (t : XTransform V A W) (x : XFrame V) : List (XItem V) :=
  t.requires.map (fun c =>
    let vs := (x.col c).getD []
    if t.passNumpy then .array vs else .series x.index vs)

/-- `transforms.py:1762-1805` `__call__`: the result and the transform afterwards (the imported function is kept). -/
def XTransform.call {V A W : Type} (w : World V A W) (x : XFrame V) (t : XTransform V A W) :
    Except String (XCol V ⊕ List (XCol V)) × XTransform V A W :=
  if t.requires.all (fun c => (x.col c).isSome) = false then (.error "Missing required columns", t)
  else
    match t.resolve w with
    | .error e => (.error e, t)
    | .ok f =>
      let t' := { t with callable := some f }
      if t.requires = [] then (.error "IndexError", t')
      else
        match f (t.inputs x) t.args t.kwargs with
        | .error e => (.error e, t')
        | .ok r => (t.outputs x.index r, t')

/-- Serialisation and reconstruction (`utils.py:183-192`, `270-286`): path, columns and arguments are kept, the object
is not. -/
def XTransform.rebuild {V A W : Type} (t : XTransform V A W) : Except String (XTransform V A W) :=
  match nonEmptyText t.path with
  | none => .error "ExternalFunction config requires 'func' path"
  | some p => if t.requires = [] then .error "ExternalFunction config missing 'requires'"
    else .ok (.make (.path p) t.requires (some t.produces) t.args t.kwargs t.passNumpy)

end FinML
