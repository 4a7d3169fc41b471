/-
The triple barrier method in float64 arithmetic: `label/tbm.py:66-156`.  The log prices are given as float64 numbers (the error
of `np.log` itself is not modelled); durations and sides are integers that NumPy converts to float64.
-/
import Verif.Model.Float64
import Verif.Model.Label

namespace FinML

/-- `t * m` rounded, for a finite `t` (`label/tbm.py:87-88`). -/
def Ext.scale64 (t : ℚ) : Ext ℚ → Ext ℚ
  | .fin x => .fin (f64 (t * x))
  | m => m.scale t

/-- `label/tbm.py:116`: the return at a bar. -/
def tbmRet64 (lc base : ℚ) (side : Int) : ℚ := f64 (f64 (lc - base) * side)

/-- `label/tbm.py:119-124`. -/
def tbmProgress64 (ub lb : Ext ℚ) (ret : ℚ) (a : TbmAcc ℚ) : TbmAcc ℚ :=
  match decide (ret > 0), ub.valid with
  | true, some u => { a with maxU := max a.maxU (f64 (ret / u)) }
  | _, _ =>
    match decide (ret < 0), lb.valid with
    | true, some l => { a with maxL := max a.maxL (f64 (ret / l)) }
    | _, _ => a

/-- `label/tbm.py:109-132`.  `minClose` is `min_close_time_ns`, a float. -/
def tbmLoop64 (ts : List Int) (logc : List ℚ) (t0 : Int) (minClose : ℚ) (side : Int) (base : ℚ) (ub lb : Ext ℚ) :
    List Nat → TbmAcc ℚ → TbmAcc ℚ
  | [], a => a
  | j :: js, a =>
    if f64 ((ts.getD j 0 - t0 : Int) : ℚ) < minClose then tbmLoop64 ts logc t0 minClose side base ub lb js a
    else
      let ret := tbmRet64 (logc.getD j 0) base side
      let a := tbmProgress64 ub lb ret { a with ret := ret }
      if ub.leFin ret || lb.geFin ret then { a with touch := some j }
      else tbmLoop64 ts logc t0 minClose side base ub lb js a

/-- `label/tbm.py:146-156`. -/
def tbmRatio64 (ub lb : Ext ℚ) (touch t1 : Nat) (a : TbmAcc ℚ) : Option ℚ :=
  if touch = t1 then
    if a.ret > 0 then (if ub.valid.isSome then some (min (f64 (a.maxU / f64 (1 + a.maxL))) 1) else none)
    else (if lb.valid.isSome then some (min (f64 (a.maxL / f64 (1 + a.maxU))) 1) else none)
  else some 1

/-- Parameters in the units of the caller: seconds for the vertical barrier (`none` is infinite) and the minimum time. -/
structure TbmParams64 where
  bottom : Ext ℚ
  top : Ext ℚ
  vertical : Option ℚ
  minCloseSec : ℚ
  minRet : ℚ

/-- `label/tbm.py:94-96`. -/
def verticalIdxOpt64 (ts : List Int) (t0 : Int) : Option ℚ → Int
  | none => (ts.length : Int) - 1
  | some v => verticalIdx64 ts t0 v

/-- `label/tbm.py:77-156`: one iteration of the event loop. -/
def tbmEvent64 (p : TbmParams64) (ts : List Int) (logc : List ℚ) (isMeta : Bool) (i0 : Nat) (tgt : ℚ) (side : Int) :
    TbmOut ℚ :=
  let ub := p.top.scale64 tgt
  let lb := p.bottom.scale64 (-tgt)
  let t0 := ts.getD i0 0
  let t1 := verticalIdxOpt64 ts t0 p.vertical
  if t1 ≤ (i0 : Int) then ⟨0, none, none, none⟩
  else
    let a := tbmLoop64 ts logc t0 (f64 (p.minCloseSec * 1000000000)) side (logc.getD i0 0) ub lb
      (List.range' (i0 + 1) (t1.toNat - i0)) ⟨none, 0, 0, 0⟩
    let touch := a.touch.getD t1.toNat
    ⟨tbmLabel isMeta p.minRet a.ret, some touch, some a.ret, tbmRatio64 ub lb touch t1.toNat a⟩

end FinML
