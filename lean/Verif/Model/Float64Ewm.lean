/-
The exponentially weighted mean of `finmlkit/feature/core/ma.py` and the exponentially weighted standard deviations of
`finmlkit/feature/core/volatility.py` with their float64 arithmetic.  The
square root at the end of the deviations is left out: their values are the variances (`:62-65`, `:205-209`).  `exp(-dt / half_life)` of `ewmst` is
given as a float64 number per step.
-/
import Verif.Model.Float64
import Verif.Model.Indicators

namespace FinML

/-- `volatility.py:31-32` and `ma.py:29`, `:36-37`: the decay factor. -/
def ewmBeta64 (span : Nat) : ℚ := f64 (1 - f64 (2 / f64 ((span : ℚ) + 1)))

/-- `ma.py:30-37`: numerator and denominator after position `t`. -/
def ewmaState64 (y : List ℚ) (b : ℚ) : Nat → ℚ × ℚ
  | 0 => (y.getD 0 0, 1)
  | t + 1 => (f64 (y.getD (t + 1) 0 + f64 (b * (ewmaState64 y b t).1)), f64 (1 + f64 (b * (ewmaState64 y b t).2)))

/-- `ma.py:6-43` `ewma` in float64. -/
def ewma64 (y : List ℚ) (span : Nat) : Except String (List ℚ) :=
  if span < 1 then .error "span size is less than or equal to 1. Please provide a span size greater than 1."
  else .ok (tabulate y.length (fun t => f64 ((ewmaState64 y (ewmBeta64 span) t).1 / (ewmaState64 y (ewmBeta64 span) t).2)))

/-- `volatility.py:45-55`: the sums after the first `t` observations. -/
def ewmsState64 (y : List (Option ℚ)) (b : ℚ) : Nat → EwmAcc ℚ
  | 0 => ⟨0, 0, 0, 0⟩
  | t + 1 =>
    let s := ewmsState64 y b t
    let v := y.getD t none
    ⟨f64 (f64 (b * s.sw) + validWeight v), f64 (f64 (f64 (b * b) * s.sw2) + validWeight v),
      f64 (f64 (b * s.sy) + orZero v), f64 (f64 (b * s.sy2) + f64 (sqOrZero v))⟩

/-- `volatility.py:57-67`: the variance from the sums. -/
def ewmVar64 (s : EwmAcc ℚ) : Option ℚ :=
  if s.sw > 0 then
    let mean := f64 (s.sy / s.sw)
    let den := f64 (s.sw - f64 (s.sw2 / s.sw))
    if den > 0 then
      some (max (f64 (f64 (f64 (f64 (s.sy2 / s.sw) - f64 (mean * mean)) * s.sw) / den)) 0)
    else none
  else none

/-- `volatility.py:9-69` `ewms` before the square root. -/
def ewmsVar64 (y : List (Option ℚ)) (span : Nat) : List (Option ℚ) :=
  if span ≤ 1 then tabulate y.length (fun _ => none)
  else tabulate y.length (fun t => ewmVar64 (ewmsState64 y (ewmBeta64 span) (t + 1)))

/-- `volatility.py:168-198`: one step of `ewmst`; `q` is `exp(-dt / half_life)`. -/
def ewmstStep64 (s : EwmAcc ℚ) (q : ℚ) (v : Option ℚ) : EwmAcc ℚ :=
  let a := f64 (1 - q)
  let om := f64 (1 - a)
  let sw := f64 (a + f64 (om * s.sw))
  let sw2 := f64 (f64 (a * a) + f64 (f64 (om * om) * s.sw2))
  match v with
  | none => ⟨sw, sw2, f64 (om * s.sy), f64 (om * s.sy2)⟩
  | some x => ⟨sw, sw2, f64 (f64 (a * x) + f64 (om * s.sy)), f64 (f64 (f64 (a * x) * x) + f64 (om * s.sy2))⟩

/-- `volatility.py:200-210`: the variance from the sums. -/
def ewmstVar64 (s : EwmAcc ℚ) : Option ℚ :=
  if s.sw > 0 then
    let mean := f64 (s.sy / s.sw)
    let raw := f64 (f64 (s.sy2 / s.sw) - f64 (mean * mean))
    let den := f64 (s.sw - f64 (s.sw2 / s.sw))
    some (if den > 0 ∧ raw > 0 then f64 (raw * f64 (s.sw / den)) else 0)
  else none

/-- `volatility.py:139-219` `ewmst` before the square root and the floor, from the second bar on; each bar is given by its decay
factor and its observation. -/
def ewmstVars64 : EwmAcc ℚ → List (ℚ × Option ℚ) → List (Option ℚ)
  | _, [] => []
  | s, (q, v) :: l => ewmstVar64 (ewmstStep64 s q v) :: ewmstVars64 (ewmstStep64 s q v) l

/-- `volatility.py:168-198`: the sums after position `i`, for the decay factors of the timestamps. -/
def ewmstState64 (decay : Int → ℚ) (ts : List Int) (y : List (Option ℚ)) : Nat → EwmAcc ℚ
  | 0 => ⟨0, 0, 0, 0⟩
  | i + 1 => ewmstStep64 (ewmstState64 decay ts y i) (decayAt decay ts (i + 1)) (y.getD (i + 1) none)

/-- `volatility.py:139-219` `ewmst`. -/
def ewmst64 (sqrt64 : ℚ → ℚ) (decay : Int → ℚ) (floor : ℚ) (ts : List Int) (y : List (Option ℚ)) : List (Option ℚ) :=
  tabulate y.length (fun i =>
    if i = 0 then none
    else (ewmstVar64 (ewmstState64 decay ts y i)).map (fun v => if sqrt64 v < floor then floor else sqrt64 v))

end FinML
