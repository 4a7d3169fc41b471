/-
Model of the structural-break test in `finmlkit/feature/core/structural_break/cusum.py`.
-/
import Verif.Model.Indicators
import Verif.Model.VolumeProfile

namespace FinML

variable {K : Type} [Field K] [LinearOrder K]

/-- The four numbers returned for one time index, `cusum.py:61-66`. -/
structure Snt (K : Type) where
  up : K
  down : K
  critUp : K
  critDown : K
deriving DecidableEq

/-- `cusum.py:29-32`: initial values. -/
def sntInit : Snt K := ⟨-(1 / 1000000), -(1 / 1000000), 0, 0⟩

/-- `cusum.py:42-59`: one start index `n`.  `lg`, `sq` are the natural logarithm and the square root. -/
def sntStep (lg sq : K → K) (y : List K) (t : Nat) (sigma : K) (s : Snt K) (n : Nat) : Snt K :=
  let dyn := y.getD t 0 - y.getD n 0
  let den := sigma * sq ((t - n : Nat) : K)
  if den ≤ 1 / 10 ^ 16 then s
  else
    let u := max 0 dyn / den
    let d := -(min 0 dyn) / den
    let s1 := if u > s.up then { s with up := u, critUp := sq (46 / 10 + lg ((t - n : Nat) : K)) } else s
    if d > s1.down then { s1 with down := d, critDown := sq (46 / 10 + lg ((t - n : Nat) : K)) } else s1

/-- `cusum.py:11-66` `_comp_max_s_nt`: start indices `1, …, t - 2`. -/
def compMaxSnt (lg sq : K → K) (y : List K) (t : Nat) (sigma : K) : Snt K :=
  if t < 1 ∨ sigma ≤ 0 then sntInit
  else ((List.range (t - 2)).map (· + 1)).foldl (sntStep lg sq y t sigma) sntInit

/-- `cusum.py:112`, `:159`: sum of the first `k + 1` squared differences. -/
def cumSqDiff (y : List K) (k : Nat) : K :=
  ((List.range (k + 1)).map (fun j => (y.getD (j + 1) 0 - y.getD j 0) ^ 2)).sum

/-- `cusum.py:115-121`, `:162-169`: the statistic at index `t` of a log-price series. -/
def sntAt (lg sq : K → K) (y : List K) (t : Nat) : Snt K :=
  compMaxSnt lg sq y t (sq (cumSqDiff y (t - 1) / ((t - 1 : Nat) : K)))

/-- `cusum.py:69-133` `cusum_test_developing`.  The division by `t - 1` at `:115` fails at index 1. -/
def cusumDeveloping (lg sq : K → K) (prices : List K) (warmup : Nat) : Except String (List (Option (Snt K))) :=
  if warmup ≤ 1 ∧ 1 < prices.length then .error "ZeroDivisionError"
  else
    let y := prices.map lg
    .ok (tabulate prices.length (fun t => if t < warmup then none else some (sntAt lg sq y t)))

/-- `cusum.py:136-176` `cusum_test_last`. -/
def cusumLast (lg sq : K → K) (prices : List K) : Snt K :=
  sntAt lg sq (prices.map lg) (prices.length - 1)

/-- `cusum.py:226-227`: effective window. -/
def effWindow (window warmup : Nat) : Nat := if window < warmup + 2 then warmup + 2 else window

/-- `cusum.py:234-260`: the element writes of iteration `c` of the parallel loop, given the result `dev` of the
developing test on the first window. -/
def iterWrites (lg sq : K → K) (prices : List K) (w : Nat) (dev : List (Option (Snt K))) (c : Nat) :
    List (Nat × Option (Snt K)) :=
  if c = w then (List.range (w + 1)).map (fun k => (k, dev.getD k none))
  else [(c, some (cusumLast lg sq ((prices.take (c + 1)).drop (c - w))))]

/-- `cusum.py:233`: iterations `window … n - 1`. -/
def rollingIters (n w : Nat) : List Nat := (List.range (n - w)).map (w + ·)

/-- All element writes of the parallel loop, iteration after iteration. -/
def rollingWrites (lg sq : K → K) (prices : List K) (w : Nat) (dev : List (Option (Snt K))) :
    List (Nat × Option (Snt K)) :=
  (rollingIters prices.length w).flatMap (iterWrites lg sq prices w dev)

/-- `cusum.py:179-274` `cusum_test_rolling`.  An out-of-bounds write is reported as an error. -/
def cusumRolling (lg sq : K → K) (prices : List K) (window warmup : Nat) : Except String (List (Option (Snt K))) :=
  if prices.any (fun p => decide (p ≤ 0)) then .error "All close prices must be positive."
  else
    let n := prices.length
    let w := effWindow window warmup
    if n < warmup + 2 then .ok (List.replicate n none)
    else if n > w then
      match cusumDeveloping lg sq (prices.take (w + 1)) warmup with
      | .error e => .error e
      | .ok dev =>
        match writeAll (List.replicate n none) (rollingWrites lg sq prices w dev) with
        | some out => .ok out
        | none => .error "out of bounds"
    else cusumDeveloping lg sq prices warmup

end FinML
