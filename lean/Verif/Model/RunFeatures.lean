/-
Models of `CUSUMTest._nb` (`finmlkit/feature/transforms.py:669-704`, the post-processing of the structural break test)
and `DirRunLen` (`finmlkit/feature/transforms.py:1605-1664`).
-/
import Verif.Model.CusumTest

namespace FinML

variable {K : Type} [Field K] [LinearOrder K]

/-! ### CUSUMTest -/

/-- `transforms.py:676-677`: `snt - critical_values`; `none` is NaN. -/
def breakOf (stat crit : Option K) : Option K :=
  match stat, crit with
  | some s, some c => some (s - c)
  | _, _ => none

/-- `transforms.py:680-681`: a comparison with NaN is false. -/
def flagOf (b : Option K) : Bool :=
  match b with
  | none => false
  | some x => decide (0 < x)

/-- `transforms.py:684-685`: `np.clip(break, -10, 10)`. -/
def scoreOf (b : Option K) : Option K := b.map (fun x => min 10 (max (-10) x))

/-- `transforms.py:694`: `(flag == 1).cumsum()` at row `i`. -/
def flagGroup (flags : List Bool) (i : Nat) : Nat := (flags.take (i + 1)).countP id

/-- `transforms.py:694`: `groupby(...).cumcount()` at row `i`: earlier rows of the same group. -/
def rawAge (flags : List Bool) (i : Nat) : Nat :=
  (List.range i).countP (fun j => flagGroup flags j == flagGroup flags i)

/-- `transforms.py:694-695`: clipped to `max_age` and stored in one byte. -/
def breakAge (maxAge : Nat) (flags : List Bool) : List Nat :=
  tabulate flags.length (fun i => min (rawAge flags i) maxAge % 256)

/-- One direction of the output: scores, flags, ages (`transforms.py:676-704`). -/
def breakFeatures (maxAge : Nat) (stat crit : List (Option K)) : List (Option K) × List Bool × List Nat :=
  let b := List.zipWith breakOf stat crit
  (b.map scoreOf, b.map flagOf, breakAge maxAge (b.map flagOf))

/-! ### DirRunLen -/

/-- `np.sign`; the sign of NaN is NaN. -/
def signOf : Option K → Option Int
  | none => none
  | some x => some (if 0 < x then 1 else if x < 0 then -1 else 0)

/-- `sign == prev_sign and sign != 0`, `transforms.py:1653`: NaN equals nothing. -/
def sameSign (sign prev : Option Int) : Bool :=
  match sign, prev with
  | some a, some b => decide (a = b) && decide (a ≠ 0)
  | _, _ => false

/-- `transforms.py:1652-1660`: the run length counter after row `i` (row 0 is not visited). -/
def runCount (x : List (Option K)) : Nat → Nat
  | 0 => 0
  | i + 1 =>
    let sign := signOf (x.getD (i + 1) none)
    let prev := if i = 0 then signOf (x.getD 1 none) else signOf (x.getD i none)
    if sameSign sign prev then runCount x i + 1 else if sign ≠ some 0 then 1 else 0

/-- Storing an integer in an `int8` array. -/
def toInt8 (n : Nat) : Int := ((n : Int) + 128) % 256 - 128

/-- `transforms.py:1636-1664` `DirRunLen.numba_core`. -/
def dirRunLen (x : List (Option K)) : List Int := tabulate x.length (fun i => toInt8 (runCount x i))

end FinML
