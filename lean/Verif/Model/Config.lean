/-
Model of saving and loading feature configurations: `finmlkit/feature/utils.py:19-303` and
`finmlkit/feature/kit.py:225-246`, `956-983`.

An object is described by how it was constructed.  Two transforms with the same description compute
the same values.  Simplifications: floats are exact rationals, `Timedelta.total_seconds` is exact,
`int()` accepts only an optional minus sign and digits, and the text form of a float is a parameter.
-/
import Mathlib.Data.Rat.Floor
import Mathlib.Data.Nat.Digits.Defs

namespace FinML

/-! ### Parameter values -/

mutual
/-- Python values that occur as constructor arguments. -/
inductive Val where
  | none
  | bool (b : Bool)
  | int (z : Int)
  | flt (q : Rat)
  | str (s : String)
  | td (ns : Int)
  | list (vs : Vals)
  | tup (vs : Vals)
  | dict (fs : Fields)
  | other (repr : String)
/-- Lists of values. -/
inductive Vals where
  | nil
  | cons (v : Val) (vs : Vals)
/-- Dictionary entries. -/
inductive Fields where
  | nil
  | cons (k : String) (v : Val) (fs : Fields)
end

/-- `val.get(key)` on a dictionary. -/
def Fields.get? : Fields → String → Option Val
  | .nil, _ => Option.none
  | .cons k v fs, key => if k = key then some v else fs.get? key

mutual
/-- `_serialize_value` (`utils.py:21-37`).  The result is again a value, made of JSON types only. -/
def serVal : Val → Val
  | .none => .none
  | .bool b => .bool b
  | .int z => .int z
  | .flt q => .flt q
  | .str s => .str s
  | .td ns => .dict (.cons "__timedelta__" (.bool true) (.cons "seconds" (.flt (ns / 10 ^ 9)) .nil))
  | .list vs => .list (serVals vs)
  | .tup vs => .list (serVals vs)
  | .dict fs => .dict (serFields fs)
  | .other r => .str r
/-- Elementwise. -/
def serVals : Vals → Vals
  | .nil => .nil
  | .cons v vs => .cons (serVal v) (serVals vs)
/-- Elementwise. -/
def serFields : Fields → Fields
  | .nil => .nil
  | .cons k v fs => .cons k (serVal v) (serFields fs)
end

/-- Python truth of a value, for `val.get("__timedelta__")` (`utils.py:45`). -/
def truthy : Option Val → Bool
  | some (.bool b) => b
  | some (.int z) => z ≠ 0
  | some (.flt q) => q ≠ 0
  | some (.str s) => s ≠ ""
  | some (.list .nil) => false
  | some (.dict .nil) => false
  | some .none => false
  | Option.none => false
  | some _ => true

/-- `pd.Timedelta(seconds=x)` (`utils.py:46`). -/
def secondsToTd : Option Val → Val
  | some (.flt q) => .td (q * 10 ^ 9).floor
  | some (.int z) => .td (z * 10 ^ 9)
  | _ => .none

mutual
/-- `_deserialize_value` (`utils.py:40-51`). -/
def deVal : Val → Val
  | .dict fs =>
    if truthy (fs.get? "__timedelta__") then secondsToTd (fs.get? "seconds") else .dict (deFields fs)
  | .list vs => .list (deVals vs)
  | v => v
/-- Elementwise. -/
def deVals : Vals → Vals
  | .nil => .nil
  | .cons v vs => .cons (deVal v) (deVals vs)
/-- Elementwise. -/
def deFields : Fields → Fields
  | .nil => .nil
  | .cons k v fs => .cons k (deVal v) (deFields fs)
end

/-! ### Unary operations and their names -/

/-- The functions a unary operation can carry.  `custom` is a user function passed to
`Feature.apply`. -/
inductive UFn where
  | abs | log | log1p | exp | square | sqrt
  | clip (lo hi : Option Rat)
  | rmean (n : Int) | rstd (n : Int) | rsum (n : Int)
  | ema (n : Int) (adjust : Bool)
  | lag (n : Int)
  | custom (suffix : List Char) (id : Nat)
deriving DecidableEq

/-- Decimal text of a natural number. -/
def natText (n : Nat) : List Char :=
  if n = 0 then ['0'] else ((Nat.digits 10 n).map fun d => Char.ofNat (48 + d)).reverse

/-- Decimal text of an integer. -/
def intText (z : Int) : List Char := if z < 0 then '-' :: natText z.natAbs else natText z.natAbs

/-- Value of a digit. -/
def digit? (c : Char) : Option Nat := if 48 ≤ c.toNat ∧ c.toNat ≤ 57 then some (c.toNat - 48) else none

/-- Digits to a number, most significant first. -/
def natOf : List Char → Nat → Option Nat
  | [], acc => some acc
  | c :: cs, acc =>
    match digit? c with
    | Option.none => Option.none
    | some d => natOf cs (10 * acc + d)

/-- `int(text)`. -/
def parseInt (s : List Char) : Option Int :=
  match s with
  | [] => Option.none
  | '-' :: cs => if cs = [] then Option.none else (natOf cs 0).map fun n => -(n : Int)
  | cs => (natOf cs 0).map fun n => (n : Int)

/-- `name[len(p):]` when `name.startswith(p)`. -/
def strip? (p s : List Char) : Option (List Char) := if p.isPrefixOf s then some (s.drop p.length) else none

/-- `name.split("_")`. -/
def splitU : List Char → List (List Char)
  | [] => [[]]
  | c :: cs =>
    if c = '_' then [] :: splitU cs
    else match splitU cs with
      | [] => [[c]]
      | w :: ws => (c :: w) :: ws

/-- How Python prints and parses floats; used for clip bounds only. -/
structure FloatText where
  text : Rat → List Char
  parse : List Char → Option Rat

/-- A clip bound in the name; `None` is replaced by the empty text (`kit.py:334`). -/
def boundText (F : FloatText) : Option Rat → List Char
  | Option.none => []
  | some q => F.text q

/-- The `suffix` of each operation (`kit.py:334-423`). -/
def UFn.opName (F : FloatText) : UFn → List Char
  | .abs => ['a', 'b', 's']
  | .log => ['l', 'o', 'g']
  | .log1p => ['l', 'o', 'g', '1', 'p']
  | .exp => ['e', 'x', 'p']
  | .square => ['s', 'q', 'u', 'a', 'r', 'e']
  | .sqrt => ['s', 'q', 'r', 't']
  | .clip lo hi => ['c', 'l', 'i', 'p', '_'] ++ boundText F lo ++ '_' :: boundText F hi
  | .rmean n => ['r', 'm', 'e', 'a', 'n'] ++ intText n
  | .rstd n => ['r', 's', 't', 'd'] ++ intText n
  | .rsum n => ['r', 's', 'u', 'm'] ++ intText n
  | .ema n _ => ['e', 'm', 'a'] ++ intText n
  | .lag n => ['l', 'a', 'g'] ++ intText n
  | .custom s _ => s

/-- The static table `_OP_UNARY` (`utils.py:80-87`). -/
def staticUnary (s : List Char) : Option UFn :=
  if s = ['a', 'b', 's'] then some .abs
  else if s = ['l', 'o', 'g'] then some .log
  else if s = ['l', 'o', 'g', '1', 'p'] then some .log1p
  else if s = ['e', 'x', 'p'] then some .exp
  else if s = ['s', 'q', 'u', 'a', 'r', 'e'] then some .square
  else if s = ['s', 'q', 'r', 't'] then some .sqrt
  else none

/-- The first matching rolling pattern, with the remaining text (`utils.py:105-122`). -/
def rollingPattern (s : List Char) : Option (List Char × (Int → UFn)) :=
  match strip? ['r', 'm', 'e', 'a', 'n'] s with
  | some r => some (r, .rmean)
  | none =>
  match strip? ['r', 's', 't', 'd'] s with
  | some r => some (r, .rstd)
  | none =>
  match strip? ['r', 's', 'u', 'm'] s with
  | some r => some (r, .rsum)
  | none =>
  match strip? ['t', 's', 'u', 'm'] s with
  | some r => some (r, .rsum)
  | none =>
  match strip? ['e', 'm', 'a'] s with
  | some r => some (r, fun n => .ema n true)
  | none =>
  match strip? ['l', 'a', 'g'] s with
  | some r => some (r, .lag)
  | none => none

/-- A clip bound read back: empty or unreadable text is `None` (`utils.py:94-101`). -/
def readBound (F : FloatText) (t : Option (List Char)) : Option Rat :=
  match t with
  | none => none
  | some [] => none
  | some w => F.parse w

/-- `_maybe_unary_from_name` (`utils.py:90-128`). -/
def unaryFromName (F : FloatText) (s : List Char) : Option UFn :=
  match strip? ['c', 'l', 'i', 'p', '_'] s with
  | some _ =>
    let parts := splitU s
    some (.clip (readBound F parts[1]?) (readBound F parts[2]?))
  | none =>
    match rollingPattern s with
    | none => staticUnary s
    | some (r, mk) =>
      match parseInt r with
      | some n => some (mk n)
      | none => staticUnary s

/-! ### Transforms and their configuration -/

/-- A transform class as the generic (de)serialiser sees it: its constructor parameters with their
defaults, and the parameters that can be read back from an instance under the same name
(`input_col` and `input_cols` are always readable through `requires`, `utils.py:203-206`). -/
structure ClassInfo where
  name : String
  params : List (String × Option Val)
  kept : List String

mutual
/-- Description of a transform object.  `shallow` is an object made without its constructor
(`utils.py:293-303`).  `un` carries the output name set by `Feature.apply` (`kit.py:265`). -/
inductive Obj where
  | gen (cls : ClassInfo) (args : List (String × Val))
  | shallow (cls : ClassInfo) (args : List (String × Val))
  | ext (func : Option String) (requires produces : List String) (args : Vals) (kwargs : Fields) (passNumpy : Bool)
  | bin (op : String) (l r : Obj)
  | minmax (op : String) (l r : Obj)
  | cst (op : String) (k : Rat) (t : Obj)
  | un (fn : UFn) (outName : Option String) (t : Obj)
  | comp (steps : Objs)
/-- Steps of a composed transform. -/
inductive Objs where
  | nil
  | cons (o : Obj) (os : Objs)
end

mutual
/-- The saved configuration (`utils.py:132-224`); the informative `requires`/`produces` of
reconstructed kinds are omitted. -/
inductive Cfg where
  | transform (cls : ClassInfo) (params : List (String × Val))
  | external (func : Option String) (requires produces : List String) (args : Vals) (kwargs : Fields) (passNumpy : Bool)
  | binary (op : String) (l r : Cfg)
  | minmax (op : String) (l r : Cfg)
  | const (op : String) (k : Rat) (t : Cfg)
  | unary (op : List Char) (t : Cfg)
  | compose (steps : Cfgs)
/-- Steps of a composed transform. -/
inductive Cfgs where
  | nil
  | cons (c : Cfg) (cs : Cfgs)
end

/-- The parameters the generic serialiser finds (`utils.py:196-213`). -/
def keptParams (cls : ClassInfo) (args : List (String × Val)) : List (String × Val) :=
  args.filter fun p => p.1 ∈ cls.kept

mutual
/-- `transform_to_config` (`utils.py:132-224`). -/
def toConfig (F : FloatText) : Obj → Cfg
  | .gen cls args => .transform cls ((keptParams cls args).map fun p => (p.1, serVal p.2))
  | .shallow cls args => .transform cls ((keptParams cls args).map fun p => (p.1, serVal p.2))
  | .ext f rq pr a k pn => .external f rq pr (serVals a) (serFields k) pn
  | .bin op l r => .binary op (toConfig F l) (toConfig F r)
  | .minmax op l r => .minmax op (toConfig F l) (toConfig F r)
  | .cst op k t => .const op k (toConfig F t)
  | .un fn _ t => .unary (fn.opName F) (toConfig F t)
  | .comp os => .compose (toConfigs F os)
/-- Each step. -/
def toConfigs (F : FloatText) : Objs → Cfgs
  | .nil => .nil
  | .cons o os => .cons (toConfig F o) (toConfigs F os)
end

/-- Calling a constructor with keyword arguments: every parameter is given or has a default. -/
def construct (cls : ClassInfo) (kw : List (String × Val)) : Option (List (String × Val)) :=
  if kw.all (fun p => p.1 ∈ cls.params.map Prod.fst) then
    cls.params.mapM fun p =>
      match kw.find? (fun q => q.1 = p.1) with
      | some q => some (p.1, q.2)
      | none => p.2.map fun v => (p.1, v)
  else none

/-- Keys of `_OP_BINARY` (`utils.py:66-73`). -/
def binaryOps : List String := ["add", "sub", "mul", "div", "rsub", "rdiv"]

/-- Keys of `_OP_MINMAX` (`utils.py:75-78`). -/
def minmaxOps : List String := ["min", "max"]

/-- Operation names accepted for constants (`utils.py:248-259`). -/
def constOps : List String := ["add", "sub", "mul", "div", "rsub", "rdiv", "min", "max"]

mutual
/-- `transform_from_config` (`utils.py:227-303`). -/
def fromConfig (F : FloatText) : Cfg → Except String Obj
  | .binary op l r =>
    match fromConfig F l, fromConfig F r with
    | .ok a, .ok b => if op ∈ binaryOps then .ok (.bin op a b) else .error "Unsupported binary op"
    | .error e, _ => .error e
    | _, .error e => .error e
  | .minmax op l r =>
    match fromConfig F l, fromConfig F r with
    | .ok a, .ok b => if op ∈ minmaxOps then .ok (.minmax op a b) else .error "Unsupported minmax op"
    | .error e, _ => .error e
    | _, .error e => .error e
  | .const op k t =>
    match fromConfig F t with
    | .ok a => if op ∈ constOps then .ok (.cst op k a) else .error "Unsupported const op"
    | .error e => .error e
  | .unary op t =>
    match fromConfig F t with
    | .ok a =>
      match unaryFromName F op with
      | some fn => .ok (.un fn none a)
      | none => .error "Unsupported unary op"
    | .error e => .error e
  | .compose cs =>
    match fromConfigs F cs with
    | .ok .nil => .error "tuple index out of range"
    | .ok os => .ok (.comp os)
    | .error e => .error e
  | .external f rq pr a k pn =>
    match f with
    | none => .error "ExternalFunction config requires 'func' path"
    | some p => if rq = [] then .error "ExternalFunction config missing 'requires'"
                else .ok (.ext (some p) rq pr (deVals a) (deFields k) pn)
  | .transform cls params =>
    let kw := params.map fun p => (p.1, deVal p.2)
    match construct cls kw with
    | some args => .ok (.gen cls args)
    | none => .ok (.shallow cls kw)
/-- Each step. -/
def fromConfigs (F : FloatText) : Cfgs → Except String Objs
  | .nil => .ok .nil
  | .cons c cs =>
    match fromConfig F c with
    | .error e => .error e
    | .ok o =>
      match fromConfigs F cs with
      | .error e => .error e
      | .ok os => .ok (.cons o os)
end

/-! ### The transform classes of `finmlkit/feature/transforms.py` -/

/-- A required parameter. -/
def req (n : String) : String × Option Val := (n, none)

/-- A parameter with a default. -/
def opt (n : String) (v : Val) : String × Option Val := (n, some v)

/-- A class all of whose constructor parameters can be read back. -/
def allKept (name : String) (ps : List (String × Option Val)) : ClassInfo := ⟨name, ps, ps.map Prod.fst⟩

/-- The constructor signatures (`transforms.py:25-1664`).  `input_cols=None` is replaced by a fixed
list in the constructor, so an instance always has an explicit list. -/
def transformClasses : List ClassInfo :=
  [ allKept "Identity" [opt "input_col" (.str "close")],
    allKept "Lag" [opt "periods" (.int 1), opt "input_col" (.str "close")],
    ⟨"ReturnT", [opt "window" (.td 1000), opt "is_log" (.bool false), opt "input_col" (.str "close")],
      ["is_log", "input_col"]⟩,
    allKept "Return" [opt "periods" (.int 1), opt "input_col" (.str "close"), opt "is_log" (.bool false)],
    allKept "ROC" [req "periods", opt "input_col" (.str "close")],
    ⟨"PctChange", [req "window", opt "input_col" (.str "close")], ["input_col"]⟩,
    allKept "RSIWilder" [opt "window" (.int 14), opt "input_col" (.str "close")],
    allKept "StochK" [opt "length" (.int 14), opt "input_cols" .none],
    ⟨"EWMST", [req "half_life", opt "input_col" (.str "y")], ["input_col"]⟩,
    allKept "ZScore" [req "window", req "input_col", opt "ddof" (.int 0)],
    allKept "BurstRatio" [req "window", req "input_col"],
    allKept "VWAPDistance" [req "periods", opt "is_log" (.bool false), opt "input_cols" .none],
    allKept "TimeCues" [opt "input_col" (.str "close")],
    allKept "RealizedVolatility" [req "window", opt "is_sample" (.bool false), opt "input_col" (.str "ret")],
    allKept "BollingerPercentB" [req "window", opt "num_std" (.flt 2), opt "input_col" (.str "close")],
    allKept "ParkinsonRange" [opt "input_cols" .none],
    allKept "SMA" [req "window", opt "input_col" (.str "x")],
    allKept "EWMA" [req "span", opt "input_col" .none],
    allKept "FlowAcceleration" [req "window", req "recent_periods", opt "input_col" (.str "volume")],
    allKept "CUSUMTest" [opt "window_size" (.int 50), opt "warmup_period" (.int 30), opt "max_age" (.int 144),
      opt "input_col" (.str "close")],
    allKept "ATR" [opt "window" (.int 14), opt "ema_based" (.bool false), opt "normalize" (.bool false),
      opt "input_cols" .none],
    allKept "PriceVolumeCorrelation" [opt "window" (.int 8), opt "input_cols" .none],
    allKept "VPIN" [opt "window" (.int 32), opt "input_cols" .none],
    allKept "VarianceRatio14" [opt "window" (.int 32), opt "input_col" (.str "close"),
      opt "ret_type" (.str "log"), opt "ddof" (.int 0)],
    allKept "KurtosisTransform" [opt "window" (.int 32), opt "input_col" (.str "ret1")],
    allKept "TrendSlope" [opt "window" (.int 24), opt "input_col" (.str "close")],
    allKept "ADX" [opt "length" (.int 14), opt "input_cols" .none],
    allKept "MeanReversionZScore" [opt "window" (.int 48), opt "input_col" (.str "close")],
    allKept "DailyGap" [opt "input_col" (.str "close")],
    allKept "ORBBreak" [opt "input_cols" .none],
    ⟨"BarRate", [req "window", opt "input_col" (.str "close")], ["input_col"]⟩,
    allKept "CandleShape" [opt "input_cols" .none],
    allKept "HurstExponent" [opt "window" (.int 24), opt "input_col" (.str "ret1")],
    allKept "ApproximateEntropy" [opt "window" (.int 24), opt "m" (.int 2), opt "tolerance" (.flt (1 / 5)),
      opt "input_col" (.str "ret1")],
    allKept "BarDurationEWMA" [opt "span" (.int 20), opt "input_col" (.str "close")],
    allKept "BarDuration" [opt "periods" (.int 1), opt "input_col" (.str "close")],
    allKept "BiPowerVariation" [opt "window" (.int 12), opt "input_col" (.str "ret1")],
    allKept "DirRunLen" [opt "input_col" (.str "ret1")] ]

end FinML
