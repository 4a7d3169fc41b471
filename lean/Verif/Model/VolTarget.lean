/-
The volatility target of the tutorials (`docs/source/tutorials/building_labels.rst`, `building_inter_bar_features.rst`): time-lagged returns
of the trade prices (`feature/transforms.py:89-117` `ReturnT`), their time-decayed deviation (`transforms.py:308-332` `EWMST`), composed by
`Compose` (`feature/kit.py:636-720`), and joined to the bars with `pd.merge_asof(..., direction="backward")`.
-/
import Verif.Model.BarKit
import Verif.Model.Indicators

namespace FinML

variable {K : Type} [Field K] [LinearOrder K]

/-- A return as `ewmst` (`feature/core/volatility.py:186`) sees it.  The infinite return of a zero base price (`feature/core/utils.py:62`) is not
modelled further and counts as missing; it does not occur with positive prices. -/
def Ext.toOpt : Ext K → Option K
  | .fin x => some x
  | _ => none

/-- `Compose(ReturnT(window, is_log, input_col="price"), EWMST(half_life))(trades.data)`: one value per trade.  `decay dt` is
`exp(-dt / half_life)` (`feature/core/volatility.py:182`), `floor` is `sigma_floor` (`volatility.py:143`). -/
def volSeries (log sqrt : K → K) (decay : Int → K) (floor : K) (w : Int) (isLog : Bool) (tr : KitTrades K) : Except String (List (Option K)) :=
  match laggedReturns log tr.ts tr.prices w isLog with
  | .error e => .error e
  | .ok r => .ok (ewmst sqrt decay floor tr.ts (r.map Ext.toOpt))

/-- One row of `pd.merge_asof(bars, sigma, left_index=True, right_index=True, direction="backward")`: the value of the last row of `sigma` not
later than the bar. -/
def asofAt (ts : List Int) (vals : List (Option K)) (t : Int) : Option K :=
  if searchRight ts t = 0 then none else vals.getD (searchRight ts t - 1) none

/-- The joined column, one value per bar. -/
def mergeAsof (ts : List Int) (vals : List (Option K)) (stamps : List Int) : List (Option K) := stamps.map (asofAt ts vals)

end FinML
