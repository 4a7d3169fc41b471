/-
The volume profile in the arithmetic of the code (`finmlkit/feature/core/volume.py:180-204`, `:277-390`): level volumes
are float32; a sum of two entries of a float32 array is float32, a variable that also holds a Python float is float64.
-/
import Verif.Model.Float64
import Verif.Model.VolumeProfile

namespace FinML

/-- `np.sum` of a float32 array (`volume.py:295`, `:376`): one float32 accumulator, in order; also the running `+=` on an
entry of a float32 array (`volume.py:200-201`, `:265-269`). -/
def npSum32 (l : List ℚ) : ℚ := l.foldl (fun a x => f32 (a + x)) 0

/-- `volume.py:192-201`, `:438`: volume of one level of the profile from the buys and sells of the bars of the window. -/
def levelTotal32 (buys sells : List ℚ) : ℚ := f32 (npSum32 buys + npSum32 sells)

/-- `volume.py:310-313`, `:327-330`: the two entries are added in float32. -/
def pairUp32 (vols : List ℚ) (e : ℚ) (up : Nat) : ℚ :=
  if up < vols.length then
    if up + 1 < vols.length then f32 (vols.getD up 0 + vols.getD (up + 1) 0) else vols.getD up 0
  else e

/-- `volume.py:315-318`, `:337-340`. -/
def pairDown32 (vols : List ℚ) (e : ℚ) (down : Int) : ℚ :=
  if 0 ≤ down then
    if 0 ≤ down - 1 then f32 (vols.getD down.toNat 0 + vols.getD (down - 1).toNat 0) else vols.getD down.toNat 0
  else e

/-- `volume.py:300-318`. -/
def vaInit32 (levels : List Int) (vols : List ℚ) : VaState ℚ :=
  let p := argMax vols
  { cum := vols.getD p 0, hva := levels.getD p 0, lva := levels.getD p 0, up := p + 1, down := (p : Int) - 1,
    cu := pairUp32 vols 0 (p + 1), cd := pairDown32 vols 0 ((p : Int) - 1) }

/-- `volume.py:323-330`: `cum_volume` is float64. -/
def vaUp32 (levels : List Int) (vols : List ℚ) (s : VaState ℚ) : VaState ℚ :=
  { s with cum := f64 (s.cum + s.cu), hva := levels.getD (min (s.up + 1) (levels.length - 1)) 0,
           up := s.up + 2, cu := pairUp32 vols (-1) (s.up + 2) }

/-- `volume.py:332-340`. -/
def vaDown32 (levels : List Int) (vols : List ℚ) (s : VaState ℚ) : VaState ℚ :=
  { s with cum := f64 (s.cum + s.cd), lva := levels.getD (max (s.down - 1) 0).toNat 0,
           down := s.down - 2, cd := pairDown32 vols (-1) (s.down - 2) }

/-- `volume.py:341-357`. -/
def vaBoth32 (levels : List Int) (vols : List ℚ) (s : VaState ℚ) : VaState ℚ :=
  { cum := f64 (s.cum + f64 (s.cu + s.cd)), hva := levels.getD (min (s.up + 1) (levels.length - 1)) 0,
    lva := levels.getD (max (s.down - 1) 0).toNat 0, up := s.up + 2, down := s.down - 2,
    cu := pairUp32 vols (-1) (s.up + 2), cd := pairDown32 vols (-1) (s.down - 2) }

/-- `volume.py:322-360`: one pass of the loop body; `none` is the `break` at `:360`. -/
def vaStep32 (levels : List Int) (vols : List ℚ) (s : VaState ℚ) : Option (VaState ℚ) :=
  if s.cu > s.cd then some (vaUp32 levels vols s)
  else if s.cu < s.cd then some (vaDown32 levels vols s)
  else if s.cd ≠ -1 then some (vaBoth32 levels vols s)
  else none

/-- `volume.py:321-360`: the loop with a bound on the number of passes. -/
def vaLoop32 (levels : List Int) (vols : List ℚ) (thr : ℚ) : Nat → VaState ℚ → VaState ℚ
  | 0, s => s
  | f + 1, s =>
    if s.cum < thr then
      match vaStep32 levels vols s with
      | some s' => vaLoop32 levels vols thr f s'
      | none => s
    else s

/-- `volume.py:298`: `total_volume * (va_pct / 100.0)`. -/
def vaThr32 (vols : List ℚ) (pct : ℚ) : ℚ := f64 (npSum32 vols * f64 (pct / 100))

/-- `volume.py:277-364` `comp_poc_hva_lva`, result `(poc, hva, lva)`. -/
def compPocHvaLva32 (levels : List Int) (vols : List ℚ) (pct : ℚ) : Int × Int × Int :=
  let s := vaLoop32 levels vols (vaThr32 vols pct) (vols.length + 2) (vaInit32 levels vols)
  (levels.getD (argMax vols) 0, s.hva, s.lva)

/-- `volume.py:367-390` `calc_volume_percentage_above_poc`, stored as float32 at `:454`. -/
def pctAbovePoc32 (levels : List Int) (vols : List ℚ) (poc : Int) : ℚ :=
  let total := npSum32 vols
  if total ≤ 0 then 0
  else
    let above := (levels.zip vols).foldl (fun acc p => if p.1 > poc then f64 (acc + p.2) else acc) 0
    if above ≤ 0 then 0 else f32 (f64 (above / total))

end FinML
