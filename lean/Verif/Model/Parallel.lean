/-
The parallel loops (`prange` under `@njit(parallel=True)`) as interleavings of the memory accesses of their iterations, and
the loop of `comp_bar_directional_features` (`finmlkit/bar/base.py:466-535`), whose iterations read and write cells of the output
arrays many times.

An iteration is a list of register operations and accesses to array cells; the branches on read-only inputs are resolved in the
list.  A schedule names the iteration that makes its next step.  Simplification: accesses are atomic and in program order
(sequential consistency); numbers are exact.  The scalars assigned in the loop body are private to the iteration, as Numba
makes them.
-/
import Verif.Model.Bars

namespace FinML

/-- One step of an iteration with registers `L`: a register operation, or an access that reads a cell and leaves a value in it. -/
inductive POp (C L V : Type)
  | reg (f : L → L)
  | acc (cell : C) (run : L → V → L × V)

/-- The cells an iteration accesses. -/
def POp.cells {C L V : Type} : List (POp C L V) → List C
  | [] => []
  | .reg _ :: p => POp.cells p
  | .acc c _ :: p => c :: POp.cells p

/-- Effect of one step on the registers and the memory. -/
def POp.step {C L V : Type} [DecidableEq C] : POp C L V → L × (C → V) → L × (C → V)
  | .reg f, s => (f s.1, s.2)
  | .acc c run, s => ((run s.1 (s.2 c)).1, fun c' => if c' = c then (run s.1 (s.2 c)).2 else s.2 c')

/-- An iteration executed alone. -/
def runAlone {C L V : Type} [DecidableEq C] (p : List (POp C L V)) (s : L × (C → V)) : L × (C → V) := p.foldl (fun s o => o.step s) s

/-- A loop in execution: for every iteration its registers and remaining steps; and the memory. -/
structure PState (C L V : Type) where
  regs : Nat → L
  prog : Nat → List (POp C L V)
  mem : C → V

/-- Iteration `i` makes its next step (nothing, if it has finished). -/
def PState.next {C L V : Type} [DecidableEq C] (s : PState C L V) (i : Nat) : PState C L V :=
  match s.prog i with
  | [] => s
  | o :: p =>
    { regs := fun j => if j = i then (o.step (s.regs i, s.mem)).1 else s.regs j
      prog := fun j => if j = i then p else s.prog j
      mem := (o.step (s.regs i, s.mem)).2 }

/-- Execution under a schedule. -/
def PState.run {C L V : Type} [DecidableEq C] (s : PState C L V) (sched : List Nat) : PState C L V := sched.foldl PState.next s

/-- The sequential loop: iterations `0, …, n-1` one after the other. -/
def seqLoop {C L V : Type} [DecidableEq C] (regs : Nat → L) (prog : Nat → List (POp C L V)) (m : C → V) : Nat → (C → V)
  | 0 => m
  | n + 1 => (runAlone (prog n) (regs n, seqLoop regs prog m n)).2

/-! ## `comp_bar_directional_features` -/

/-- The output arrays, `bar/base.py:449-464`. -/
inductive DirArr
  | ticksBuy | ticksSell | volBuy | volSell | dolBuy | dolSell | meanSpread | maxSpread
  | cumTicksMin | cumTicksMax | cumVolMin | cumVolMax | cumDolMin | cumDolMax
deriving DecidableEq

variable {K : Type} [Field K] [LinearOrder K]

/-- Contents of a cell: integer arrays and float arrays (`none`: a NaN or infinite quotient). -/
inductive DirVal (K : Type)
  | int (z : Int)
  | num (x : K)
  | undef
deriving DecidableEq

/-- `bar/base.py:449-464`: the arrays before the loop. -/
def dirMem0 (c : DirArr × Nat) : DirVal K :=
  match c.1 with
  | .ticksBuy => .int 0
  | .ticksSell => .int 0
  | .cumTicksMin => .int 1000000000
  | .cumTicksMax => .int (-1000000000)
  | .cumVolMin => .num 1000000000
  | .cumVolMax => .num (-1000000000)
  | .cumDolMin => .num 1000000000
  | .cumDolMax => .num (-1000000000)
  | _ => .num 0

/-- Registers of an iteration: the scalars of `bar/base.py:468-488` (the fields of `DirAcc` for the extremes are not used) and the
value just loaded. -/
structure DirRegs (K : Type) where
  acc : DirAcc K
  tmp : DirVal K

/-- `bar/base.py:492-519`: the scalars after one trade. -/
def dirSums (s : DirAcc K) (t : DirTick K) : DirAcc K :=
  let s := dirSpread s t
  if t.side = 1 then
    { s with
      ticksBuy := s.ticksBuy + 1
      volBuy := s.volBuy + t.vol
      dolBuy := s.dolBuy + t.price * t.vol
      cumTicks := s.cumTicks + 1
      cumVol := s.cumVol + t.vol
      cumDol := s.cumDol + t.price * t.vol }
  else if t.side = -1 then
    { s with
      ticksSell := s.ticksSell + 1
      volSell := s.volSell + t.vol
      dolSell := s.dolSell + t.price * t.vol
      cumTicks := s.cumTicks - 1
      cumVol := s.cumVol - t.vol
      cumDol := s.cumDol - t.price * t.vol }
  else s

/-- Load of a cell into the temporary register. -/
def dirLoad (a : DirArr) (i : Nat) : POp (DirArr × Nat) (DirRegs K) (DirVal K) := .acc (a, i) (fun l v => ({ l with tmp := v }, v))

/-- Store of a value computed from the registers. -/
def dirStore (a : DirArr) (i : Nat) (f : DirRegs K → DirVal K) : POp (DirArr × Nat) (DirRegs K) (DirVal K) := .acc (a, i) (fun l _ => (l, f l))

/-- `max(x, current)` and `min(x, current)` of the loaded value. -/
def dirMaxInt (z : Int) : DirVal K → DirVal K
  | .int a => .int (max a z)
  | v => v
def dirMinInt (z : Int) : DirVal K → DirVal K
  | .int a => .int (min a z)
  | v => v
def dirMaxNum (x : K) : DirVal K → DirVal K
  | .num a => .num (max a x)
  | v => v
def dirMinNum (x : K) : DirVal K → DirVal K
  | .num a => .num (min a x)
  | v => v

/-- `bar/base.py:521-526`: the six read-modify-writes. -/
def dirExtremeOps (i : Nat) : List (POp (DirArr × Nat) (DirRegs K) (DirVal K)) :=
  [dirLoad .cumTicksMax i, dirStore .cumTicksMax i (fun l => dirMaxInt l.acc.cumTicks l.tmp),
   dirLoad .cumTicksMin i, dirStore .cumTicksMin i (fun l => dirMinInt l.acc.cumTicks l.tmp),
   dirLoad .cumVolMax i, dirStore .cumVolMax i (fun l => dirMaxNum l.acc.cumVol l.tmp),
   dirLoad .cumVolMin i, dirStore .cumVolMin i (fun l => dirMinNum l.acc.cumVol l.tmp),
   dirLoad .cumDolMax i, dirStore .cumDolMax i (fun l => dirMaxNum l.acc.cumDol l.tmp),
   dirLoad .cumDolMin i, dirStore .cumDolMin i (fun l => dirMinNum l.acc.cumDol l.tmp)]

/-- `bar/base.py:491-526`: one trade. -/
def dirTickOps (i : Nat) (t : DirTick K) : List (POp (DirArr × Nat) (DirRegs K) (DirVal K)) :=
  .reg (fun l => { l with acc := dirSums l.acc t }) :: (if t.side = 1 ∨ t.side = -1 then dirExtremeOps i else [])

/-- `bar/base.py:528-535`: the stores at the end of the iteration. -/
def dirFinalOps (i : Nat) : List (POp (DirArr × Nat) (DirRegs K) (DirVal K)) :=
  [dirStore .ticksBuy i (fun l => .int l.acc.ticksBuy), dirStore .ticksSell i (fun l => .int l.acc.ticksSell),
   dirStore .volBuy i (fun l => .num l.acc.volBuy), dirStore .volSell i (fun l => .num l.acc.volSell),
   dirStore .dolBuy i (fun l => .num l.acc.dolBuy), dirStore .dolSell i (fun l => .num l.acc.dolSell),
   dirStore .maxSpread i (fun l => .num l.acc.maxSpread),
   dirStore .meanSpread i (fun l => if l.acc.ticksBuy + l.acc.ticksSell = 0 then .undef
     else .num (l.acc.cumSpread / ((l.acc.ticksBuy + l.acc.ticksSell : Int) : K)))]

/-- The trades of a bar with what the loop reads of them, `bar/base.py:491-499`. -/
def dirBarTicks (prices volumes : List K) (sides : List Int) (c₀ c₁ : Int) : List (DirTick K) :=
  (idxRange (c₀ + 1) c₁).map (fun j =>
    { side := pyGet sides 0 j, price := pyGet prices 0 j, prevPrice := pyGet prices 0 (j - 1), vol := pyGet volumes 0 j : DirTick K })

/-- Iteration `i`: the steps, `bar/base.py:490-535`. -/
def dirProg (prices volumes : List K) (sides closes : List Int) (i : Nat) : List (POp (DirArr × Nat) (DirRegs K) (DirVal K)) :=
  match (closePairs closes)[i]? with
  | none => []
  | some c => (dirBarTicks prices volumes sides c.1 c.2).flatMap (dirTickOps i) ++ dirFinalOps i

/-- Iteration `i`: the registers at its start, `bar/base.py:468-488`. -/
def dirRegs0 (sides closes : List Int) (i : Nat) : DirRegs K :=
  match (closePairs closes)[i]? with
  | none => ⟨dirInit 0, .undef⟩
  | some c => ⟨dirInit (if c.2 > c.1 + 1 then pyGet sides 0 (c.1 + 1 - 1) else 0), .undef⟩

/-- The parallel loop before its first step. -/
def dirLoop (prices volumes : List K) (sides closes : List Int) : PState (DirArr × Nat) (DirRegs K) (DirVal K) :=
  ⟨dirRegs0 sides closes, dirProg prices volumes sides closes, dirMem0⟩

/-- The row of the output arrays at index `i`. -/
def dirRow (m : DirArr × Nat → DirVal K) (i : Nat) : List (DirVal K) :=
  [m (.ticksBuy, i), m (.ticksSell, i), m (.volBuy, i), m (.volSell, i), m (.dolBuy, i), m (.dolSell, i), m (.meanSpread, i),
   m (.maxSpread, i), m (.cumTicksMin, i), m (.cumTicksMax, i), m (.cumVolMin, i), m (.cumVolMax, i), m (.cumDolMin, i), m (.cumDolMax, i)]

/-- The same row from the sequential model. -/
def dirBarRow (b : DirBar K) : List (DirVal K) :=
  [.int b.ticksBuy, .int b.ticksSell, .num b.volBuy, .num b.volSell, .num b.dolBuy, .num b.dolSell,
   (match b.meanSpread with | some x => .num x | none => .undef), .num b.maxSpread, .int b.cumTicksMin, .int b.cumTicksMax,
   .num b.cumVolMin, .num b.cumVolMax, .num b.cumDolMin, .num b.cumDolMax]

end FinML
