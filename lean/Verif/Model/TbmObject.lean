/-
Model of the `TBMLabel` object of `finmlkit/label/kit.py`: construction, repeated calls of `compute_labels`, the
properties that read its state, and `compute_weights`.

Simplifications: those of `Model/Label`; an `event_idx` column is a function from rows to indices; the touch time of an
event whose touch index is uninitialised is `none` (the code reads an arbitrary trade or raises `IndexError`).
-/
import Verif.Model.Label

namespace FinML

variable {K : Type} [Field K] [LinearOrder K]

/-- `np.max` of two barrier multipliers, `label/kit.py:169`. -/
def Ext.npMax : Ext K → Ext K → Ext K
  | .nan, _ => .nan
  | _, .nan => .nan
  | .pinf, _ => .pinf
  | _, .pinf => .pinf
  | .ninf, b => b
  | a, .ninf => a
  | .fin a, .fin b => .fin (max a b)

/-- `.astype(np.int8)`, `label/kit.py:299`. -/
def castInt8 (x : Int) : Int := (x + 128) % 256 - 128

/-- Arguments of the constructor, `label/kit.py:101-108`, with the facts about the frame that it checks. -/
structure TbmArgs (K : Type) where
  rows : List (EventRow K)
  nCols : Nat
  hasTarget : Bool
  datetimeIndex : Bool
  /-- the multipliers if they were given as a tuple -/
  barriers : Option (List (Ext K))
  minRet : K
  vertical : Int
  minClose : Int
  isMeta : Bool
  /-- integer dtype of the `side` column; `none` if there is no such column -/
  sideInteger : Option Bool
  /-- the `event_idx` column -/
  idx : Option (EventRow K → Nat)

/-- One row of the output frame, `label/kit.py:304-311`. -/
structure TbmRowOut (K : Type) where
  ts : Int
  touchTime : Option Int
  eventIdx : Nat
  out : TbmOut K
deriving DecidableEq

/-- The object, `label/kit.py:143-152`. -/
structure TbmObj (K : Type) where
  bottom : Ext K
  top : Ext K
  minRet : K
  vertical : Int
  minClose : Int
  isMeta : Bool
  idx : Option (EventRow K → Nat)
  orig : List (EventRow K)
  feats : List (EventRow K)
  rowsOut : Option (List (TbmRowOut K))

/-- `label/kit.py:131-152`: the constructor. -/
def tbmNew (a : TbmArgs K) : Except String (TbmObj K) :=
  if !a.hasTarget then .error "Target column not found in features DataFrame."
  else if !a.datetimeIndex then .error "Features index must be a DatetimeIndex."
  else
    match a.barriers with
    | some [b, t] =>
      if a.minRet < 0 then .error "Minimum return must be non-negative."
      else if a.isMeta && a.sideInteger = none then .error "For meta labeling, 'side' column must be present."
      else if a.isMeta && a.sideInteger = some false then .error "The 'side' column must be of integer type."
      else
        match preprocessEvents a.nCols (b.npMax t) a.minRet a.rows with
        | .error e => .error e
        | .ok x => .ok ⟨b, t, a.minRet, a.vertical, a.minClose, a.isMeta, a.idx, x, x, none⟩
    | _ => .error "Horizontal barriers must be a tuple of two floats (bottom, top)."

/-- `label/kit.py:285-288`: the trade index of each event. -/
def tbmIndex (o : TbmObj K) (ts : List Int) (r : EventRow K) : Nat :=
  match o.idx with
  | some f => f r
  | none => searchLeft ts r.ts

/-- `label/kit.py:272-313` `compute_labels`: the object after the call, and whether the call raised.  Without trades the
last timestamp does not exist and the call raises before it assigns anything. -/
def tbmCompute (log : K → K) (o : TbmObj K) (ts : List Int) (close : List K) : TbmObj K × Option String :=
  match ts.getLast? with
  | none => (o, some "IndexError")
  | some l =>
    let x := dropTrailing o.vertical l o.orig
    let ev := x.map (tbmIndex o ts)
    match tripleBarrier log ⟨o.bottom, o.top, some o.vertical, o.minClose, o.minRet⟩ ts close ev
        (x.map (fun r => r.target.getD 0)) (if o.isMeta then some (x.map (fun r => castInt8 r.side)) else none) with
    | .error e => ({ o with feats := x }, some e)
    | .ok res =>
      ({ o with feats := x,
                rowsOut := some (List.zipWith (fun (r : EventRow K) (q : Nat × TbmOut K) =>
                  ⟨r.ts, q.2.touch.bind (fun t => ts[t]?), q.1, q.2⟩) x (ev.zip res)) }, none)

/-- A sequence of calls on one object; exceptions are caught by the caller. -/
def tbmCalls (log : K → K) (o : TbmObj K) : List (List Int × List K) → TbmObj K
  | [] => o
  | c :: cs => tbmCalls log (tbmCompute log o c.1 c.2).1 cs

/-- `label/kit.py:232-240` `labels`. -/
def tbmLabels (o : TbmObj K) : Except String (List Int) :=
  match o.rowsOut with
  | none => .error "Labels have not been computed yet."
  | some l => .ok (l.map (·.out.label))

/-- `label/kit.py:315-322` `compute_weights` and `:331-377` `compute_info_weights`: average uniqueness and return
attribution, one row per label.  An uninitialised touch index is `none`: nothing is claimed then. -/
def tbmWeights (log : K → K) (o : TbmObj K) (ts : List Int) (close : List K) (normalize : Bool) :
    Except String (List (Int × Option K × K)) :=
  match o.rowsOut with
  | none => .error "Events must be a pandas DataFrame."
  | some l =>
    let spans := l.map (fun r => (r.eventIdx, r.out.touch.getD 0))
    let u := averageUniqueness (K := K) ts.length spans
    match returnAttribution log spans close u.2 normalize with
    | .error e => .error e
    | .ok w => .ok (List.zipWith (fun (r : TbmRowOut K) q => (r.ts, q.1, q.2)) l (u.1.zip w))

end FinML
