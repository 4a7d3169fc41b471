/-
Specification vocabulary for triple-barrier labels.
-/
import Verif.Model.Label

namespace FinML

variable {K : Type} [Field K] [LinearOrder K]

/-- Side-adjusted log return of bar `j` relative to the event bar `i0`. -/
def pathReturn (logc : List K) (i0 : Nat) (side : Int) (j : Nat) : K :=
  (logc.getD j 0 - logc.getD i0 0) * (side : K)

/-- The return is at or beyond the upper barrier `tgt * m`.  An infinite multiplier gives an infinite barrier whose sign
depends on the sign of the target. -/
def UpperHit (m : Ext K) (tgt r : K) : Prop :=
  match m with
  | .fin x => tgt * x ≤ r
  | .pinf => tgt < 0
  | .ninf => 0 < tgt
  | .nan => False

/-- The return is at or beyond the lower barrier `-tgt * m`. -/
def LowerHit (m : Ext K) (tgt r : K) : Prop :=
  match m with
  | .fin x => r ≤ -(tgt * x)
  | .pinf => tgt < 0
  | .ninf => 0 < tgt
  | .nan => False

/-- `t1` is the last bar not later than `v` nanoseconds after bar `i0`. -/
def IsVerticalBar (ts : List Int) (i0 : Nat) (v : Option Int) (t1 : Nat) : Prop :=
  i0 ≤ t1 ∧ t1 < ts.length ∧
  ∀ j, j < ts.length → (j ≤ t1 ↔ match v with | none => True | some v => ts.getD j 0 ≤ ts.getD i0 0 + v)

/-- Bars at which a position opened at `i0` may be closed: after the event, not after `t1`, not before the minimum holding
time. -/
def Closable (ts : List Int) (i0 t1 : Nat) (minClose : Int) (j : Nat) : Prop :=
  i0 < j ∧ j ≤ t1 ∧ minClose ≤ ts.getD j 0 - ts.getD i0 0

instance (ts : List Int) (i0 t1 : Nat) (mc : Int) (j : Nat) : Decidable (Closable ts i0 t1 mc j) := by
  unfold Closable; infer_instance

/-- First passage: `touch` and `r` describe the earliest closable bar at which the path is at or beyond a horizontal
barrier. -/
def FirstTouch (p : TbmParams K) (ts : List Int) (logc : List K) (i0 t1 : Nat) (tgt : K) (side : Int)
    (touch : Nat) (r : K) : Prop :=
  Closable ts i0 t1 p.minClose touch ∧ r = pathReturn logc i0 side touch ∧
  (UpperHit p.top tgt r ∨ LowerHit p.bottom tgt r) ∧
  ∀ j, Closable ts i0 t1 p.minClose j → j < touch →
    ¬ (UpperHit p.top tgt (pathReturn logc i0 side j) ∨ LowerHit p.bottom tgt (pathReturn logc i0 side j))

/-- No closable bar is at or beyond a horizontal barrier. -/
def NoTouch (p : TbmParams K) (ts : List Int) (logc : List K) (i0 t1 : Nat) (tgt : K) (side : Int) : Prop :=
  ∀ j, Closable ts i0 t1 p.minClose j →
    ¬ (UpperHit p.top tgt (pathReturn logc i0 side j) ∨ LowerHit p.bottom tgt (pathReturn logc i0 side j))

/-- `m` is the largest of 0 and the values `f j` over the indices satisfying `P`. -/
def IsMaxFrom0 (P : Nat → Prop) (f : Nat → K) (m : K) : Prop :=
  0 ≤ m ∧ (∀ j, P j → f j ≤ m) ∧ (m = 0 ∨ ∃ j, P j ∧ m = f j)

end FinML
