/-
Model of the volume-profile calculator `VolumePro` (`finmlkit/feature/core/volume.py:13-130`).

The window length is an integer number of nanoseconds, so `pd.Timedelta(seconds=…)` and `int(… * 1e9)` agree.
-/
import Verif.Model.VolumeProfile
import Verif.Model.FootprintData

namespace FinML

variable {K : Type} [Field K] [LinearOrder K]

/-- `volume.py:18-32`: the parameters of the calculator. -/
structure VpParams (K : Type) where
  windowNs : Int
  nBins : Int
  pct : K
deriving DecidableEq

/-- `volume.py:34-47` `reset_parameters`. -/
def VpParams.reset (p : VpParams K) (w n : Option Int) (q : Option K) : VpParams K :=
  ⟨w.getD p.windowNs, n.getD p.nBins, q.getD p.pct⟩

/-- One row of the result. -/
structure VpRow (K : Type) where
  poc : Option K
  hva : Option K
  lva : Option K
  above : K
deriving DecidableEq

/-- `volume.py:76-86`: conversion to prices, zeros become NaN; the share above the POC is left as it is. -/
def vpRow (tick : K) (o : VpOut K) : VpRow K := ⟨vpPrice tick o.poc, vpPrice tick o.hva, vpPrice tick o.lva, o.above⟩

/-- The arguments of `volume_profile_rolling` (`volume.py:68-73`): bars (time, high, low) and footprint columns are
combined by position. -/
def fpBars (bars : List (Int × K × K)) (d : FpData K) : List (FpBar K) :=
  List.zipWith (fun (r : Int × List Int × List K × List K) (b : Int × K × K) =>
      ⟨r.1, b.2.1, b.2.2, r.2.1, r.2.2.1, r.2.2.2⟩)
    (d.ts.zip (d.levels.zip (d.buyVol.zip d.sellVol))) bars

/-- `volume.py:49-86` `compute`, with the assertions of `volume.py:63` and `:414`. -/
def vpCompute (rnd : K → K → Int) (p : VpParams K) (bars : List (Int × K × K)) (d : FpData K) :
    Except String (List (Except String (VpRow K))) :=
  if bars.length ≠ d.ts.length then .error "Bars and footprint data should have the same length."
  else if d.ts.length = 0 ∨ d.levels.length ≠ d.ts.length ∨ d.buyVol.length ≠ d.ts.length ∨
      d.sellVol.length ≠ d.ts.length then
    .error "Input arrays should have the same length and be non-empty."
  else .ok ((volumeProfileRolling (rnd d.tick) (fpBars bars d) p.windowNs (some p.nBins) p.pct).map
    (fun r => r.map (vpRow d.tick)))

/-- A range bound: an integer, a timestamp, or a text denoting a period (first and last nanosecond). -/
inductive DateArg where
  | int (ns : Int)
  | stamp (ns : Int)
  | text (first last : Int)

/-- `volume.py:108`. -/
def DateArg.sameType : DateArg → DateArg → Bool
  | .int _, .int _ => true
  | .stamp _, .stamp _ => true
  | .text _ _, .text _ _ => true
  | _, _ => false

/-- `pd.to_datetime` (`volume.py:114`). -/
def DateArg.first : DateArg → Int
  | .int n => n
  | .stamp n => n
  | .text f _ => f

/-- The last nanosecond selected by the end of a slice (`volume.py:110-119`). -/
def DateArg.last : DateArg → Int
  | .int n => n
  | .stamp n => n
  | .text _ l => l

/-- `bars.loc[index]` (`volume.py:125`): all rows of each label in turn; a missing label is an error. -/
def locRows (bars : List (Int × K × K)) (labels : List Int) : Except String (List (Int × K × K)) :=
  if labels.all (fun l => bars.any (fun b => decide (b.1 = l))) then
    .ok (labels.flatMap (fun l => bars.filter (fun b => decide (b.1 = l))))
  else .error "KeyError"

/-- `volume.py:88-130` `compute_range`. -/
def vpComputeRange (rnd : K → K → Int) (p : VpParams K) (bars : List (Int × K × K)) (d : FpData K)
    (start stop : DateArg) : Except String (List Int × List (Except String (VpRow K))) :=
  if bars.length ≠ d.ts.length then .error "Bars and footprint data should have the same length."
  else if start.sameType stop = false then .error "Start and end should be of the same type."
  else
    let a := start.first - p.windowNs
    match d.get (.dates (a, a) (stop.first, stop.last)) with
    | .error e => .error e
    | .ok (.inr _) => .error "TypeError"
    | .ok (.inl s) =>
      match locRows bars s.ts with
      | .error e => .error e
      | .ok b =>
        match vpCompute rnd p b s with
        | .error e => .error e
        | .ok v => .ok (s.ts, v)

end FinML
