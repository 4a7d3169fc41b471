/-
Model of the arithmetic of features: the operators and convenience methods of `Feature`
(`finmlkit/feature/kit.py:240-461`) and the operation transforms they create
(`finmlkit/feature/base.py:1257-1409`).

A column is a list of extended numbers (`Ext`: finite, infinite or NaN) without rounding and without
signed zeros.  All columns of a data frame share one index, so pandas alignment is positional.
The elementary functions and functions passed to `Feature.apply` are parameters.
-/
import Verif.Model.FeatureKit
import Verif.Model.Config
import Verif.Model.Label
import Verif.Model.PandasFeatures

namespace FinML

variable {K : Type} [Field K] [LinearOrder K]

/-! ### Numbers -/

/-- IEEE addition. -/
def Ext.add : Ext K → Ext K → Ext K
  | .nan, _ => .nan
  | .fin x, .fin y => .fin (x + y)
  | .fin _, b => b
  | .pinf, .nan => .nan
  | .pinf, .ninf => .nan
  | .pinf, _ => .pinf
  | .ninf, .nan => .nan
  | .ninf, .pinf => .nan
  | .ninf, _ => .ninf

/-- Negation. -/
def Ext.neg : Ext K → Ext K
  | .fin x => .fin (-x)
  | .pinf => .ninf
  | .ninf => .pinf
  | .nan => .nan

/-- IEEE subtraction. -/
def Ext.sub (a b : Ext K) : Ext K := a.add b.neg

/-- IEEE multiplication. -/
def Ext.mul : Ext K → Ext K → Ext K
  | .fin x, b => b.scale x
  | a, .fin y => a.scale y
  | .nan, _ => .nan
  | _, .nan => .nan
  | .pinf, b => b
  | .ninf, b => b.neg

/-- IEEE division; a zero divisor counts as positive zero. -/
def Ext.div : Ext K → Ext K → Ext K
  | .fin x, .fin y => if y = 0 then (if 0 < x then .pinf else if x < 0 then .ninf else .nan) else .fin (x / y)
  | .nan, _ => .nan
  | _, .nan => .nan
  | .fin _, _ => .fin 0
  | a, .fin y => if y < 0 then a.neg else a
  | _, _ => .nan

/-- `a <= b`, false for NaN. -/
def Ext.le : Ext K → Ext K → Bool
  | .nan, _ => false
  | _, .nan => false
  | .ninf, _ => true
  | _, .pinf => true
  | .fin x, .fin y => decide (x ≤ y)
  | _, _ => false

/-- `np.minimum`: NaN wins. -/
def Ext.min (a b : Ext K) : Ext K :=
  if a = .nan ∨ b = .nan then .nan else if a.le b then a else b

/-- `np.maximum`: NaN wins. -/
def Ext.max (a b : Ext K) : Ext K :=
  if a = .nan ∨ b = .nan then .nan else if a.le b then b else a

/-- `abs`. -/
def Ext.abs : Ext K → Ext K
  | .fin x => .fin |x|
  | .nan => .nan
  | _ => .pinf

/-- The finite value; pandas windows treat infinities as NaN. -/
def Ext.toOption : Ext K → Option K
  | .fin x => some x
  | _ => none

/-- NaN for a missing value. -/
def Ext.ofOption : Option K → Ext K
  | some x => .fin x
  | none => .nan

/-- A column. -/
abbrev SCol (K : Type) := List (Ext K)

/-! ### Binary operations -/

/-- Operations between two features (`kit.py:271-297`, `429-461`). -/
inductive BinOp where
  | add | sub | mul | div | min | max
deriving DecidableEq

/-- The `op_name` (`kit.py:273-294`, `439`, `456`). -/
def BinOp.text : BinOp → List Char
  | .add => ['a', 'd', 'd']
  | .sub => ['s', 'u', 'b']
  | .mul => ['m', 'u', 'l']
  | .div => ['d', 'i', 'v']
  | .min => ['m', 'i', 'n']
  | .max => ['m', 'a', 'x']

/-- The `op_func` on one row (`kit.py:273-294`, `439`, `456`). -/
def BinOp.row : BinOp → Ext K → Ext K → Ext K
  | .add => Ext.add
  | .sub => Ext.sub
  | .mul => Ext.mul
  | .div => Ext.div
  | .min => Ext.min
  | .max => Ext.max

/-- Operations with a constant (`kit.py:275-320`, `441-443`, `458-460`). -/
inductive CstOp where
  | add | sub | mul | div | rsub | rdiv | min | max
deriving DecidableEq

/-- The `op_name` (`kit.py:275-320`, `441-443`, `458-460`). -/
def CstOp.text : CstOp → List Char
  | .add => ['a', 'd', 'd']
  | .sub => ['s', 'u', 'b']
  | .mul => ['m', 'u', 'l']
  | .div => ['d', 'i', 'v']
  | .rsub => ['r', 's', 'u', 'b']
  | .rdiv => ['r', 'd', 'i', 'v']
  | .min => ['m', 'i', 'n']
  | .max => ['m', 'a', 'x']

/-- The `op_func(x, c)` on one row (`kit.py:275-320`, `441-443`, `458-460`). -/
def CstOp.row : CstOp → Ext K → Ext K → Ext K
  | .add, x, c => x.add c
  | .sub, x, c => x.sub c
  | .mul, x, c => x.mul c
  | .div, x, c => x.div c
  | .rsub, x, c => c.sub x
  | .rdiv, x, c => c.div x
  | .min, x, c => x.min c
  | .max, x, c => x.max c

/-! ### Functions of one feature -/

/-- Elementary functions and user functions. -/
structure Fns (K : Type) where
  log : K → K
  log1p : K → K
  exp : K → K
  sqrt : K → K
  custom : Nat → SCol K → SCol K

/-- `v > 0` (`kit.py:349`). -/
def Ext.isPos : Ext K → Bool
  | .fin x => decide (0 < x)
  | .pinf => true
  | _ => false

/-- `v >= 0` (`kit.py:357`, `381`). -/
def Ext.isNonneg : Ext K → Bool
  | .fin x => decide (0 ≤ x)
  | .pinf => true
  | _ => false

/-- An increasing function that is unbounded above, on an accepted argument. -/
def Ext.lift (f : K → K) : Ext K → Ext K
  | .fin x => .fin (f x)
  | .pinf => .pinf
  | _ => .nan

/-- `np.exp`. -/
def Ext.exp (f : K → K) : Ext K → Ext K
  | .fin x => .fin (f x)
  | .pinf => .pinf
  | .ninf => .fin 0
  | .nan => .nan

/-- `x ** 2`. -/
def Ext.square : Ext K → Ext K
  | .fin x => .fin (x ^ 2)
  | .nan => .nan
  | _ => .pinf

/-- `Series.clip(lower, upper)` on one value: pandas orders two scalar bounds first; NaN stays NaN. -/
def clipRow (lo hi : Option K) (v : Ext K) : Ext K :=
  match lo, hi with
  | none, none => v
  | some a, none => v.max (.fin a)
  | none, some b => v.min (.fin b)
  | some a, some b => (v.max (.fin (Min.min a b))).min (.fin (Max.max a b))

/-- State of pandas' `ewm(...).mean()`. -/
structure PdEwm (K : Type) where
  weighted : Option K
  oldWt : K

/-- One step of pandas' `ewm(alpha, adjust, ignore_na=False).mean()`. -/
def pdEwmStep (adjust : Bool) (α : K) (s : PdEwm K) (cur : Option K) : PdEwm K :=
  match s.weighted, cur with
  | some w, some x =>
    let ow := s.oldWt * (1 - α)
    let nw := if adjust then 1 else α
    ⟨some (if w = x then w else (ow * w + nw * x) / (ow + nw)), if adjust then ow + nw else 1⟩
  | some w, none => ⟨some w, s.oldWt * (1 - α)⟩
  | none, some x => ⟨some x, s.oldWt⟩
  | none, none => s

/-- The loop over the values. -/
def pdEwmGo (adjust : Bool) (α : K) : PdEwm K → List (Option K) → List (Option K)
  | _, [] => []
  | s, x :: xs => (pdEwmStep adjust α s x).weighted :: pdEwmGo adjust α (pdEwmStep adjust α s x) xs

/-- `ewm(span, adjust).mean()` (`kit.py:400`). -/
def pdEwm (adjust : Bool) (span : Nat) (xs : List (Option K)) : List (Option K) :=
  pdEwmGo adjust (2 / ((span : K) + 1)) ⟨none, 1⟩ xs

/-- Sample standard deviation of a window (`ddof = 1`); NaN for a single value. -/
def stdWin (sqrt : K → K) (l : List K) : Option K :=
  if l.length ≤ 1 then none
  else some (sqrt ((l.map (fun x => (x - l.sum / (l.length : K)) ^ 2)).sum / ((l.length : K) - 1)))

/-- A pandas window function on a column. -/
def windowed (w : Nat) (f : List K → Option K) (xs : SCol K) : SCol K :=
  (pdRolling (xs.map Ext.toOption) w f).map Ext.ofOption

/-- `Series.shift(p)` on a column (`kit.py:427`). -/
def shiftCol (p : Int) (xs : SCol K) : SCol K :=
  tabulate xs.length (fun i => if (i : Int) - p < 0 then .nan else xs.getD ((i : Int) - p).toNat .nan)

/-- The functions behind `Feature`'s methods (`kit.py:300`, `324-427`). -/
def unaryCol (G : Fns K) : UFn → SCol K → SCol K
  | .abs => List.map Ext.abs
  | .log => List.map (fun v => if v.isPos then v.lift G.log else .nan)
  | .log1p => List.map (fun v => if v.isNonneg then v.lift G.log1p else .nan)
  | .exp => List.map (Ext.exp G.exp)
  | .square => List.map Ext.square
  | .sqrt => List.map (fun v => if v.isNonneg then v.lift G.sqrt else .nan)
  | .clip lo hi => List.map (clipRow (lo.map (fun q : Rat => (q : K))) (hi.map (fun q : Rat => (q : K))))
  | .rmean n => windowed n.toNat (fun l => some (l.sum / (l.length : K)))
  | .rstd n => windowed n.toNat (stdWin G.sqrt)
  | .rsum n => windowed n.toNat (fun l => some l.sum)
  | .ema n adjust => fun xs => (pdEwm adjust n.toNat (xs.map Ext.toOption)).map Ext.ofOption
  | .lag p => shiftCol p
  | .custom _ i => G.custom i

/-! ### Expressions -/

/-- The transforms built by `Feature`'s operators and methods, over given base transforms.  `absf` is
`UnaryOpTransform` named by its constructor (`kit.py:300`, `341`); `app` is `Feature.apply`
(`kit.py:240-268`), for features that keep their default name. -/
inductive FX (K : Type) where
  | atom (l : Leaf (SCol K))
  | bin (op : BinOp) (l r : FX K)
  | cst (op : CstOp) (c : Rat) (t : FX K)
  | absf (t : FX K)
  | app (fn : UFn) (t : FX K)

/-- The output names (`base.py:1262`, `1305`, `1338`, `1372`, `kit.py:253-266`); `F` prints constants. -/
def FX.name (F : FloatText) : FX K → List Char
  | .atom l => l.output.toList
  | .bin op l r => op.text ++ '(' :: (l.name F ++ ',' :: (r.name F ++ [')']))
  | .cst op c t => op.text ++ '(' :: (t.name F ++ ',' :: (F.text c ++ [')']))
  | .absf t => ['a', 'b', 's'] ++ '(' :: (t.name F ++ [')'])
  | .app fn t => t.name F ++ '_' :: fn.opName F

/-- The transform object. -/
def FX.toTr (F : FloatText) (G : Fns K) : FX K → Tr (SCol K)
  | .atom l => .leaf l
  | .bin op l r => .bin (String.ofList ((FX.bin op l r).name F)) (List.zipWith op.row) (l.toTr F G) (r.toTr F G)
  | .cst op c t => .un (String.ofList ((FX.cst op c t).name F)) (List.map (fun x => op.row x (.fin (c : K)))) (t.toTr F G)
  | .absf t => .un (String.ofList ((FX.absf t).name F)) (unaryCol G .abs) (t.toTr F G)
  | .app fn t => .un (String.ofList ((FX.app fn t).name F)) (unaryCol G fn) (t.toTr F G)

/-- A Python operand: a feature or a number. -/
inductive Operand (K : Type) where
  | feat (t : FX K)
  | num (c : Rat)

/-- `a + b` (`kit.py:271-276`, `303-306`). -/
def pyAdd : Operand K → Operand K → Option (FX K)
  | .feat a, .feat b => some (.bin .add a b)
  | .feat a, .num c => some (.cst .add c a)
  | .num c, .feat b => some (.cst .add c b)
  | .num _, .num _ => none

/-- `a - b` (`kit.py:278-283`, `308-311`). -/
def pySub : Operand K → Operand K → Option (FX K)
  | .feat a, .feat b => some (.bin .sub a b)
  | .feat a, .num c => some (.cst .sub c a)
  | .num c, .feat b => some (.cst .rsub c b)
  | .num _, .num _ => none

/-- `a * b` (`kit.py:285-290`, `313-316`). -/
def pyMul : Operand K → Operand K → Option (FX K)
  | .feat a, .feat b => some (.bin .mul a b)
  | .feat a, .num c => some (.cst .mul c a)
  | .num c, .feat b => some (.cst .mul c b)
  | .num _, .num _ => none

/-- `a / b` (`kit.py:292-297`, `318-321`). -/
def pyDiv : Operand K → Operand K → Option (FX K)
  | .feat a, .feat b => some (.bin .div a b)
  | .feat a, .num c => some (.cst .div c a)
  | .num c, .feat b => some (.cst .rdiv c b)
  | .num _, .num _ => none

/-- `Feature.min(a, b)` (`kit.py:429-444`). -/
def featMin : Operand K → Operand K → Option (FX K)
  | .feat a, .feat b => some (.bin .min a b)
  | .feat a, .num c => some (.cst .min c a)
  | .num c, .feat b => some (.cst .min c b)
  | .num _, .num _ => none

/-- `Feature.max(a, b)` (`kit.py:446-461`). -/
def featMax : Operand K → Operand K → Option (FX K)
  | .feat a, .feat b => some (.bin .max a b)
  | .feat a, .num c => some (.cst .max c a)
  | .num c, .feat b => some (.cst .max c b)
  | .num _, .num _ => none

end FinML
