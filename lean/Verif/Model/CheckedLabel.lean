/-
The compiled loops of the event filter, the lagged returns, the labels and the sample weights with every array access checked, as
`Model/Checked` does for the bars: an access outside `0 ≤ i < len` ends the run with `none`.  Array slices (`average_uniqueness`) and
whole-array operations are clipped by NumPy and have no accesses of their own.
-/
import Verif.Model.Checked
import Verif.Model.CusumFilter
import Verif.Model.Indicators
import Verif.Model.Label

namespace FinML

variable {K : Type} [Field K] [LinearOrder K]

/-- `xs[-1]`, which compiled code turns into `xs[len - 1]` without a check. -/
def rdLast {α : Type} (xs : List α) : Option α := rd xs ((xs.length : Int) - 1)

/-! ## `sampling/filters.py` -/

/-- `sampling/filters.py:42-45`: the log returns from position 1 on. -/
def logStepsChk (log : K → K) (series : List K) : Option (List K) :=
  (List.range' 1 (series.length - 1)).mapM (fun i : Nat => do
    let a ← rd series (i : Int)
    let b ← rd series ((i : Int) - 1)
    some (log (a / b)))

/-- `sampling/filters.py:53-68`: the loop; `buf` is `event_indices` (`none`: not written yet), `num` is `num_events`.  `lr` holds the
log returns, its entry 0 is the NaN of `:43`. -/
def cusumFilterLoopChk (lr : List (Option K)) (thr : List K) : List Nat → K → K → List (Option Nat) → Nat → Option (List (Option Nat) × Nat)
  | [], _, _, buf, num => some (buf, num)
  | i :: is, sPos, sNeg, buf, num =>
    match rd lr (i : Int), rd thr (i : Int) with
    | some (some ret), some thrs =>
      let sPos := max 0 (sPos + ret)
      let sNeg := min 0 (sNeg + ret)
      if sNeg < -thrs then
        match wr buf (num : Int) (some i) with
        | none => none
        | some buf => cusumFilterLoopChk lr thr is sPos 0 buf (num + 1)
      else if sPos > thrs then
        match wr buf (num : Int) (some i) with
        | none => none
        | some buf => cusumFilterLoopChk lr thr is 0 sNeg buf (num + 1)
      else cusumFilterLoopChk lr thr is sPos sNeg buf num
    | _, _ => none

/-- `sampling/filters.py:35-39`: a single threshold repeated. -/
def thresholdChk (n : Nat) (threshold : List K) : Option (List K) :=
  if threshold.length = 1 then (rd threshold 0).map (List.replicate n) else some threshold

/-- `sampling/filters.py:6-70` `cusum_filter`; the result holds the first `num_events` entries of the buffer. -/
def cusumFilterChk (log : K → K) (series threshold : List K) : Option (Except String (List (Option Nat))) :=
  if series.length ≤ 1 then some (.error "Input time series must have at least 2 elements.")
  else if threshold.length ≠ 1 ∧ threshold.length ≠ series.length then
    some (.error "Threshold array must either contain 1 const. element or len(raw_time_series) elements.")
  else do
    let thr ← thresholdChk series.length threshold
    let lr ← logStepsChk log series
    let r ← cusumFilterLoopChk (none :: lr.map some) thr (List.range' 1 (series.length - 1)) 0 0 (List.replicate series.length none) 0
    some (.ok (r.1.take r.2))

/-! ## `feature/core/utils.py` -/

/-- `feature/core/utils.py:44-62`: one iteration; the value written to `returns[i]`. -/
def laggedAtChk (log : K → K) (ts : List Int) (close : List K) (w : Int) (isLog : Bool) (i : Nat) : Option (Ext K) :=
  match rd ts (i : Int) with
  | none => none
  | some t =>
    let lag : Int := (searchRight ts (t - w) : Int) - 1
    if 0 ≤ lag ∧ lag < (i : Int) then
      match rd close lag with
      | none => none
      | some c =>
        if c ≠ 0 then
          match rd close (i : Int) with
          | none => none
          | some x => some (.fin (if isLog then log (x / c) else x / c - 1))
        else some .pinf
    else some .nan

/-- `feature/core/utils.py:44-62`: the loop over `range(start_idx, n)`. -/
def laggedLoopChk (log : K → K) (ts : List Int) (close : List K) (w : Int) (isLog : Bool) : List Nat → List (Ext K) → Option (List (Ext K))
  | [], out => some out
  | i :: is, out =>
    match laggedAtChk log ts close w isLog i with
    | none => none
    | some v =>
      match wr out (i : Int) v with
      | none => none
      | some out => laggedLoopChk log ts close w isLog is out

/-- `feature/core/utils.py:13-64` `comp_lagged_returns`. -/
def laggedReturnsChk (log : K → K) (ts : List Int) (close : List K) (w : Int) (isLog : Bool) : Option (Except String (List (Ext K))) :=
  if w ≤ 0 then some (.error "The return window must be greater than zero.")
  else
    match rd ts 0 with
    | none => none
    | some t0 =>
      let start := searchLeft ts (t0 + w)
      (laggedLoopChk log ts close w isLog (List.range' start (close.length - start)) (List.replicate close.length .nan)).map .ok

/-! ## `label/tbm.py` -/

/-- `label/tbm.py:109-132`: the loop over the path. -/
def tbmLoopChk (ts : List Int) (logc : List K) (t0 minClose : Int) (side base : K) (ub lb : Ext K) :
    List Nat → TbmAcc K → Option (TbmAcc K)
  | [], a => some a
  | j :: js, a =>
    match rd ts (j : Int) with
    | none => none
    | some t =>
      if t - t0 < minClose then tbmLoopChk ts logc t0 minClose side base ub lb js a
      else
        match rd logc (j : Int) with
        | none => none
        | some lc =>
          let ret := (lc - base) * side
          let a := tbmProgress ub lb ret { a with ret := ret }
          if ub.leFin ret || lb.geFin ret then some { a with touch := some j }
          else tbmLoopChk ts logc t0 minClose side base ub lb js a

/-- `label/tbm.py:77-156`: one iteration of the event loop; the event index is any integer. -/
def tbmEventChk (p : TbmParams K) (ts : List Int) (logc : List K) (isMeta : Bool) (i0 : Int) (tgt : K) (side : Int) : Option (TbmOut K) :=
  let ub := p.top.scale tgt
  let lb := p.bottom.scale (-tgt)
  match rd ts i0 with
  | none => none
  | some t0 =>
    let t1 := verticalIdx ts t0 p.vertical
    if t1 ≤ i0 then some ⟨0, none, none, none⟩
    else
      match rd logc i0 with
      | none => none
      | some base =>
        match tbmLoopChk ts logc t0 p.minClose (side : K) base ub lb (List.range' (i0.toNat + 1) (t1.toNat - i0.toNat)) ⟨none, 0, 0, 0⟩ with
        | none => none
        | some a =>
          let touch := a.touch.getD t1.toNat
          some ⟨tbmLabel isMeta p.minRet a.ret, some touch, some a.ret, tbmRatio ub lb touch t1.toNat a⟩

/-- `label/tbm.py:77-80,103`: the loop over the events, reading `event_idxs`, `targets` and `side`. -/
def tbmEventsChk (p : TbmParams K) (ts : List Int) (logc : List K) (isMeta : Bool) (events : List Int) (targets : List K) (side : List Int) :
    Option (List (TbmOut K)) :=
  (List.range events.length).mapM (fun i : Nat => do
    let e ← rd events (i : Int)
    let t ← rd targets (i : Int)
    let s ← rd side (i : Int)
    tbmEventChk p ts logc isMeta e t s)

/-- `label/tbm.py:11-158` `triple_barrier`. -/
def tripleBarrierChk (log : K → K) (p : TbmParams K) (ts : List Int) (close : List K) (events : List Int) (targets : List K)
    (side : Option (List Int)) : Option (Except String (List (TbmOut K))) :=
  if verticalBad p.vertical then some (.error "The vertical barrier must be greater than zero.")
  else if p.minRet < 0 then some (.error "The minimum return must be non-negative.")
  else if ts.length ≠ close.length then some (.error "The lengths of timestamps and close must match.")
  else if events.length ≠ targets.length then some (.error "The lengths of event_idxs and targets must match.")
  else if events = [] then some (.error "The event_idxs array must not be empty.")
  else
    let logc := close.map log
    match side with
    | none => (tbmEventsChk p ts logc false events targets (List.replicate events.length 1)).map .ok
    | some s =>
      if events.length ≠ s.length then some (.error "The length of event_idxs must match the length of side.")
      else (tbmEventsChk p ts logc true events targets s).map .ok

/-! ## `label/weights.py` -/

/-- `label/weights.py:77-82`: the log returns of the close prices. -/
def logReturnsChk (log : K → K) (close : List K) : Option (List (Option K)) :=
  if close = [] then some []
  else
    ((List.range' 1 (close.length - 1)).mapM (fun i : Nat => do
      let a ← rd close ((i : Int) - 1)
      let b ← rd close (i : Int)
      some (if a ≠ 0 then some (log (b / a)) else none))).map (none :: ·)

/-- `label/weights.py:90-92`: one bar of a label; `log_rets[j]` is read only where the concurrency is positive. -/
def attrStepChk (lr : List (Option K)) (conc : List Int) (w : K) (j : Int) : Option K :=
  match rd conc j with
  | none => none
  | some c =>
    if c > 0 then
      match rd lr j with
      | none => none
      | some none => some w
      | some (some r) => some (w + r / (c : K))
    else some w

/-- `label/weights.py:85-94`: one label. -/
def attrChk (lr : List (Option K)) (conc : List Int) (s : Int × Int) : Option K :=
  ((idxRange s.1 s.2).foldlM (attrStepChk lr conc) 0).map (fun w => |w|)

/-- `label/weights.py:52-103` `return_attribution`; the event and touch indices are any integers. -/
def returnAttributionChk (log : K → K) (spans : List (Int × Int)) (close : List K) (conc : List Int) (normalize : Bool) :
    Option (Except String (List K)) :=
  match logReturnsChk log close with
  | none => none
  | some lr =>
    match spans.mapM (attrChk lr conc) with
    | none => none
    | some w =>
      if normalize then
        if w.sum ≤ 0 then some (.error "Sum of weights is zero or negative, cannot normalize.")
        else some (.ok (w.map (fun x => x * ((spans.length : K) / w.sum))))
      else some (.ok w)

/-- `label/weights.py:106-142` `time_decay`: `cum_avg_uniqueness[-1]` is the only access. -/
def timeDecayChk (u : List K) (lw : K) : Option (Except String (List K)) :=
  if ¬ (-1 ≤ lw ∧ lw ≤ 1) then some (.error "last_weight must lie in [-1, 1]")
  else
    match rdLast (cumsumFrom 0 u) with
    | none => none
    | some total =>
      if total = 0 then some (.error "The sum of all average uniqueness weights must be grater than 0.")
      else if lw < 0 ∧ (lw + 1) * total = 0 then some (.error "ZeroDivisionError")
      else
        let slope := if lw ≥ 0 then (1 - lw) / total else 1 / ((lw + 1) * total)
        let const := 1 - slope * total
        let w := (cumsumFrom 0 u).map (fun c => const + slope * c)
        some (.ok (if lw < 0 then w.map (fun x => max x 0) else w))

/-- `label/weights.py:172-175`: the class totals, written in place. -/
def classSumsChk (classes labels : List Int) (w : List K) : List Nat → List K → Option (List K)
  | [], sums => some sums
  | i :: is, sums =>
    match rd labels (i : Int) with
    | none => none
    | some l =>
      let c : Int := searchLeft classes l
      match rd sums c, rd w (i : Int) with
      | some s, some x =>
        match wr sums c (s + x) with
        | none => none
        | some sums => classSumsChk classes labels w is sums
      | _, _ => none

/-- `label/weights.py:184-186`: the final weights. -/
def finalClassChk (classes labels : List Int) (w cw : List K) : Option (List K) :=
  (List.range labels.length).mapM (fun i : Nat => do
    let l ← rd labels (i : Int)
    let x ← rd w (i : Int)
    let c ← rd cw (searchLeft classes l : Int)
    some (x * c))

/-- `label/weights.py:146-188` `class_balance_weights`. -/
def classBalanceChk (labels : List Int) (w : List K) : Option (List Int × List K × List K × List K) :=
  let classes := uniqueLabels labels
  match classSumsChk classes labels w (List.range labels.length) (List.replicate classes.length 0) with
  | none => none
  | some sums =>
    let cw := sums.map (fun s => if s > 0 then sums.sum / ((classes.length : K) * s) else 0)
    (finalClassChk classes labels w cw).map (fun f => (classes, cw, sums, f))

end FinML
