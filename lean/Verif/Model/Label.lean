/-
Model of the labelling code: `finmlkit/label/tbm.py` (`triple_barrier`), `finmlkit/label/weights.py` (sample weights) and
the parts of `finmlkit/label/kit.py` that compute with them (`TBMLabel`, `SampleWeights`).

Simplifications: exact arithmetic; durations are whole nanoseconds; `np.log` is the parameter `log`; event indices are
non-negative and targets are not NaN.
-/
import Verif.Model.Indexers
import Verif.Model.Bars

namespace FinML

variable {K : Type} [Field K] [LinearOrder K]

/-! ## Extended numbers -/

/-- A float that may be infinite or NaN (barrier levels). -/
inductive Ext (K : Type)
  | fin (x : K)
  | pinf
  | ninf
  | nan
deriving DecidableEq

/-- `t * m` for a finite `t`. -/
def Ext.scale (t : K) : Ext K → Ext K
  | .fin x => .fin (t * x)
  | .pinf => if 0 < t then .pinf else if t < 0 then .ninf else .nan
  | .ninf => if 0 < t then .ninf else if t < 0 then .pinf else .nan
  | .nan => .nan

/-- `r >= b` for a finite `r`. -/
def Ext.leFin (b : Ext K) (r : K) : Bool :=
  match b with
  | .fin x => decide (x ≤ r)
  | .pinf => false
  | .ninf => true
  | .nan => false

/-- `r <= b` for a finite `r`. -/
def Ext.geFin (b : Ext K) (r : K) : Bool :=
  match b with
  | .fin x => decide (r ≤ x)
  | .pinf => true
  | .ninf => false
  | .nan => false

/-- `label/tbm.py:90-91`: the barrier if it is finite and non-zero. -/
def Ext.valid : Ext K → Option K
  | .fin x => if x = 0 then none else some x
  | _ => none

/-! ## Triple barrier -/

/-- State of the path loop, `label/tbm.py:104-108`. -/
structure TbmAcc (K : Type) where
  touch : Option Nat
  ret : K
  maxU : K
  maxL : K
deriving DecidableEq

/-- `label/tbm.py:119-124`: progress towards the barriers. -/
def tbmProgress (ub lb : Ext K) (ret : K) (a : TbmAcc K) : TbmAcc K :=
  match decide (ret > 0), ub.valid with
  | true, some u => { a with maxU := max a.maxU (ret / u) }
  | _, _ =>
    match decide (ret < 0), lb.valid with
    | true, some l => { a with maxL := max a.maxL (ret / l) }
    | _, _ => a

/-- `label/tbm.py:109-132`: the loop over the path; it stops at the first touch. -/
def tbmLoop (ts : List Int) (logc : List K) (t0 minClose : Int) (side base : K) (ub lb : Ext K) :
    List Nat → TbmAcc K → TbmAcc K
  | [], a => a
  | j :: js, a =>
    if ts.getD j 0 - t0 < minClose then tbmLoop ts logc t0 minClose side base ub lb js a
    else
      let ret := (logc.getD j 0 - base) * side
      let a := tbmProgress ub lb ret { a with ret := ret }
      if ub.leFin ret || lb.geFin ret then { a with touch := some j }
      else tbmLoop ts logc t0 minClose side base ub lb js a

/-- One event's output; `touch = none` is the uninitialised entry of `np.empty`, `none` numbers are NaN. -/
structure TbmOut (K : Type) where
  label : Int
  touch : Option Nat
  ret : Option K
  ratio : Option K
deriving DecidableEq

/-- Parameters shared by all events. -/
structure TbmParams (K : Type) where
  bottom : Ext K
  top : Ext K
  /-- vertical barrier in nanoseconds; `none` is infinite -/
  vertical : Option Int
  minClose : Int
  minRet : K

/-- `label/tbm.py:94-96`: index of the last bar not after the vertical barrier (-1 if none). -/
def verticalIdx (ts : List Int) (t0 : Int) : Option Int → Int
  | none => (ts.length : Int) - 1
  | some v => (searchRight ts (t0 + v) : Int) - 1

/-- `label/tbm.py:45`: `vertical_barrier <= 0`. -/
def verticalBad : Option Int → Bool
  | none => false
  | some v => decide (v ≤ 0)

/-- `label/tbm.py:139-143`: the label. -/
def tbmLabel (isMeta : Bool) (minRet ret : K) : Int :=
  if isMeta then (if ret ≥ minRet then 1 else 0)
  else if ret > 0 then 1 else if ret < 0 then -1 else 1

/-- `label/tbm.py:146-156`: the return-barrier ratio. -/
def tbmRatio (ub lb : Ext K) (touch t1 : Nat) (a : TbmAcc K) : Option K :=
  if touch = t1 then
    if a.ret > 0 then (if ub.valid.isSome then some (min (a.maxU / (1 + a.maxL)) 1) else none)
    else (if lb.valid.isSome then some (min (a.maxL / (1 + a.maxU)) 1) else none)
  else some 1

/-- `label/tbm.py:77-156`: one iteration of the event loop. -/
def tbmEvent (p : TbmParams K) (ts : List Int) (logc : List K) (isMeta : Bool) (i0 : Nat) (tgt : K) (side : Int) :
    TbmOut K :=
  let ub := p.top.scale tgt
  let lb := p.bottom.scale (-tgt)
  let t0 := ts.getD i0 0
  let t1 := verticalIdx ts t0 p.vertical
  if t1 ≤ (i0 : Int) then ⟨0, none, none, none⟩
  else
    let a := tbmLoop ts logc t0 p.minClose (side : K) (logc.getD i0 0) ub lb
      (List.range' (i0 + 1) (t1.toNat - i0)) ⟨none, 0, 0, 0⟩
    let touch := a.touch.getD t1.toNat
    ⟨tbmLabel isMeta p.minRet a.ret, some touch, some a.ret, tbmRatio ub lb touch t1.toNat a⟩

/-- `label/tbm.py:11-158` `triple_barrier`. -/
def tripleBarrier (log : K → K) (p : TbmParams K) (ts : List Int) (close : List K) (events : List Nat) (targets : List K)
    (side : Option (List Int)) : Except String (List (TbmOut K)) :=
  if verticalBad p.vertical then .error "The vertical barrier must be greater than zero."
  else if p.minRet < 0 then .error "The minimum return must be non-negative."
  else if ts.length ≠ close.length then .error "The lengths of timestamps and close must match."
  else if events.length ≠ targets.length then .error "The lengths of event_idxs and targets must match."
  else if events = [] then .error "The event_idxs array must not be empty."
  else
    let logc := close.map log
    match side with
    | none => .ok (List.zipWith (fun e t => tbmEvent p ts logc false e t 1) events targets)
    | some s =>
      if events.length ≠ s.length then .error "The length of event_idxs must match the length of side."
      else .ok (List.zipWith (fun e (x : K × Int) => tbmEvent p ts logc true e x.1 x.2) events (targets.zip s))

/-! ## `TBMLabel` -/

/-- A row of the events frame: timestamp, the cells of all columns (`none` = NaN), the cell of the target column and the
side. -/
structure EventRow (K : Type) where
  ts : Int
  cells : List (Option K)
  target : Option K
  side : Int
deriving DecidableEq

/-- Timestamp of the first row whose cell in column `c` is valid. -/
def firstValid (c : Nat) : List (EventRow K) → Option Int
  | [] => none
  | r :: rs => if (r.cells.getD c none).isSome then some r.ts else firstValid c rs

/-- `label/kit.py:158-165`: the latest of the first valid timestamps of the columns that are not entirely NaN. -/
def startTime (nCols : Nat) (rows : List (EventRow K)) : Option Int :=
  match (List.range nCols).filterMap (fun c => firstValid c rows) with
  | [] => none
  | x :: xs => some (xs.foldl max x)

/-- `label/kit.py:169-170`: `|target| * max_mult >= min_ret`; NaN compares false. -/
def targetOk (maxMult : Ext K) (minRet : K) : Option K → Bool
  | none => false
  | some t =>
    match maxMult.scale |t| with
    | .fin x => decide (minRet ≤ x)
    | .pinf => true
    | .ninf => false
    | .nan => false

/-- `label/kit.py:154-178` `_preprocess_features`. -/
def preprocessEvents (nCols : Nat) (maxMult : Ext K) (minRet : K) (rows : List (EventRow K)) :
    Except String (List (EventRow K)) :=
  match startTime nCols rows with
  | none => .error "All columns contain only NaN values."
  | some s =>
    let x := (rows.filter (fun r => decide (s ≤ r.ts))).filter (fun r => targetOk maxMult minRet r.target)
    if x.isEmpty then .error "No valid events found"
    else if x.any (fun r => r.target.isNone) then .error "Target return column contains NaN values."
    else .ok x

/-- `label/kit.py:262-269` `_drop_trailing_events`. -/
def dropTrailing (vertical lastTs : Int) (rows : List (EventRow K)) : List (EventRow K) :=
  rows.filter (fun r => decide (r.ts + vertical ≤ lastTs))

/-- `label/kit.py:272-313` `compute_labels` (event indices computed from the timestamps). -/
def computeLabels (log : K → K) (p : TbmParams K) (vertical : Int) (isMeta : Bool) (ts : List Int) (close : List K)
    (rows : List (EventRow K)) : Except String (List (TbmOut K)) :=
  let x := dropTrailing vertical (ts.getLastD 0) rows
  tripleBarrier log { p with vertical := some vertical } ts close (x.map (fun r => searchLeft ts r.ts))
    (x.map (fun r => r.target.getD 0)) (if isMeta then some (x.map (·.side)) else none)

/-! ## Sample weights -/

/-- Two's complement wrap-around of `int16`. -/
def wrap16 (x : Int) : Int := (x + 32768) % 65536 - 32768

/-- `label/weights.py:31-38`: number of labels open at each bar, in 16-bit arithmetic. -/
def concurrency (n : Nat) (spans : List (Nat × Nat)) : List Int :=
  spans.foldl (fun c s => c.mapIdx (fun i x => if s.1 ≤ i ∧ i ≤ s.2 then wrap16 (x + 1) else x)) (List.replicate n 0)

/-- Array slice `xs[a : b+1]`. -/
def spanSlice {α : Type} (xs : List α) (s : Nat × Nat) : List α := (xs.drop s.1).take (s.2 + 1 - s.1)

/-- `np.mean`; NaN (`none`) on an empty array. -/
def npMean (l : List K) : Option K := if l = [] then none else some (l.sum / (l.length : K))

/-- `label/weights.py:8-49` `average_uniqueness`. -/
def averageUniqueness (n : Nat) (spans : List (Nat × Nat)) : List (Option K) × List Int :=
  let c := concurrency n spans
  (spans.map (fun s => npMean ((spanSlice c s).map (fun (x : Int) => 1 / (x : K)))), c)

/-- `label/weights.py:77-82`: log returns, NaN at the first bar and after a zero price. -/
def logReturns (log : K → K) (close : List K) : List (Option K) :=
  match close with
  | [] => []
  | _ :: _ => none :: List.zipWith (fun a b => if a ≠ 0 then some (log (b / a)) else none) close close.tail

/-- `label/weights.py:89-92`: the sum of the attributed returns of one label. -/
def attrSum (lr : List (Option K)) (conc : List Int) (s : Nat × Nat) : K :=
  ((List.range' s.1 (s.2 + 1 - s.1)).map (fun j =>
    match lr.getD j none with
    | none => 0
    | some r => if conc.getD j 0 > 0 then r / ((conc.getD j 0 : Int) : K) else 0)).sum

/-- `label/weights.py:52-103` `return_attribution`. -/
def returnAttribution (log : K → K) (spans : List (Nat × Nat)) (close : List K) (conc : List Int) (normalize : Bool) :
    Except String (List K) :=
  let w := spans.map (fun s => |attrSum (logReturns log close) conc s|)
  if normalize then
    if w.sum ≤ 0 then .error "Sum of weights is zero or negative, cannot normalize."
    else .ok (w.map (fun x => x * ((spans.length : K) / w.sum)))
  else .ok w

/-- `np.cumsum`, starting from `c`. -/
def cumsumFrom (c : K) : List K → List K
  | [] => []
  | x :: xs => (c + x) :: cumsumFrom (c + x) xs

/-- `label/weights.py:106-142` `time_decay`.  At `last_weight = -1` the slope is a division by zero (the compiled
function raises `ZeroDivisionError`).  For an empty array the code reads `cum[-1]` outside the array; the model takes the
total to be 0. -/
def timeDecay (u : List K) (lw : K) : Except String (List K) :=
  if ¬ (-1 ≤ lw ∧ lw ≤ 1) then .error "last_weight must lie in [-1, 1]"
  else
    let cum := cumsumFrom 0 u
    let total := cum.getLastD 0
    if total = 0 then .error "The sum of all average uniqueness weights must be grater than 0."
    else if lw < 0 ∧ (lw + 1) * total = 0 then .error "ZeroDivisionError"
    else
      let slope := if lw ≥ 0 then (1 - lw) / total else 1 / ((lw + 1) * total)
      let const := 1 - slope * total
      let w := cum.map (fun c => const + slope * c)
      .ok (if lw < 0 then w.map (fun x => max x 0) else w)

/-- `np.unique`: the distinct labels in increasing order. -/
def uniqueLabels (labels : List Int) : List Int := labels.dedup.insertionSort (· ≤ ·)

/-- `label/weights.py:172-175`: total base weight per class. -/
def classSums (classes : List Int) (labels : List Int) (w : List K) : List K :=
  (List.range classes.length).map (fun c =>
    (((labels.zip w).filter (fun p => searchLeft classes p.1 = c)).map (·.2)).sum)

/-- `label/weights.py:146-188` `class_balance_weights`: classes, class weights, class sums, final weights. -/
def classBalance (labels : List Int) (w : List K) : List Int × List K × List K × List K :=
  let classes := uniqueLabels labels
  let sums := classSums classes labels w
  let total := sums.sum
  let cw := sums.map (fun s => if s > 0 then total / ((classes.length : K) * s) else 0)
  (classes, cw, sums, List.zipWith (fun l x => x * cw.getD (searchLeft classes l) 0) labels w)

/-- `label/kit.py:422-478` `compute_final_weights` after its argument checks (equal indices, hence equal lengths):
decay times information weight times vertical-touch weight, normalised to mean one, then balanced. -/
def finalWeights (u : List K) (lw : K) (attr vtw : Option (List K)) (labels : Option (List Int)) :
    Except String (List K) :=
  match timeDecay u lw with
  | .error e => .error e
  | .ok d =>
    let info : Except String (List K) := match attr with
      | none => .ok u
      | some a => if a.sum ≤ 0 then .error "Return attribution sum is zero or negative, cannot normalize."
          else .ok (a.map (fun x => x * (u.length : K) / a.sum))
    match info with
    | .error e => .error e
    | .ok i =>
      let c := List.zipWith (· * ·) d i
      let c := match vtw with | none => c | some v => List.zipWith (· * ·) c v
      let mean := c.sum / (c.length : K)
      if mean ≤ 0 then .error "Mean of combined weights is zero or negative, cannot normalize."
      else
        let base := c.map (fun x => x / mean)
        match labels with
        | none => .ok base
        | some l => .ok (classBalance l base).2.2.2

end FinML
