/-
Volatility features that the quick start (`examples/QuickStartGuide.ipynb`, code cell with `jump_var`, lines 11250-11330) builds from
`RealizedVolatility` and `BiPowerVariation` with the feature operators of `feature/kit.py`.
-/
import Verif.Model.FeatureAlgebra
import Verif.Model.PandasFeatures
import Verif.Model.Indicators

namespace FinML

variable {K : Type} [Field K] [LinearOrder K]

/-- `QuickStartGuide.ipynb:11259-11261`, one row: `(rv - bv).clip(lower=0) / (rv + eps)`. -/
def jumpPropRow (eps : K) (rv bv : Ext K) : Ext K :=
  (clipRow (some 0) none (rv.sub bv)).div (rv.add (.fin eps))

/-- `QuickStartGuide.ipynb:11256-11261`: the column `jump_prop` of a return column, both windows `w` (12 in the notebook), `eps = 1e-9`. -/
def jumpProp (sqrt : K → K) (c eps : K) (w : Nat) (r : List (Option K)) : List (Ext K) :=
  tabulate r.length (fun i =>
    jumpPropRow eps (Ext.ofOption ((realizedVol sqrt r w false).getD i none)) (Ext.ofOption ((biPower c w r).getD i none)))

/-- `QuickStartGuide.ipynb:11321-11324`: `rv_k / (rv_w + eps)` (3 against 12 and 6 against 24 in the notebook). -/
def volRatio (sqrt : K → K) (eps : K) (k w : Nat) (r : List (Option K)) : List (Ext K) :=
  tabulate r.length (fun i =>
    (Ext.ofOption ((realizedVol sqrt r k false).getD i none)).div
      ((Ext.ofOption ((realizedVol sqrt r w false).getD i none)).add (.fin eps)))

end FinML
