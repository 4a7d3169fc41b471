/-
The labelling workflow of the tutorials (`docs/source/tutorials/building_labels.rst:13-44`): bars, features, a volatility target joined to the
feature frame with `pd.merge_asof`, triple-barrier labels.
-/
import Verif.Model.TrainingSet
import Verif.Model.VolTarget

namespace FinML

variable {K : Type} [Field K] [LinearOrder K]

/-- The choices of the user with the joined column among the columns that the kit retains.  The tutorial joins it to the built features; they have
the rows of the bars, and no feature reads the column, so the order does not matter. -/
def TrainingSpec.withTarget (sp : TrainingSpec K) (name : String) (ts : List Int) (vals : List (Option K)) : TrainingSpec K :=
  { sp with cols := fun c => if c = name then some (fun row => asofAt ts vals row.1) else sp.cols c }

/-- `building_labels.rst:18-44`: `sigma = vola_estim(trades.data)`, `pd.merge_asof(feature_df, sigma, ...)`, `TBMLabel(feature_df, "sigma", ...)`,
`compute_labels(trades)`. -/
def tutorialSet (log log1p sqrt : K → K) (decay : Int → K) (floor : K) (w : Int) (isLog : Bool) (rndOf : K → K → Int)
    (inferTick : List K → Except String K) (sp : TrainingSpec K) (name : String) (tr : KitTrades K) (kind : KitKind K) :
    Except String (List (EventRow K × TbmRowOut K)) :=
  match volSeries log sqrt decay floor w isLog tr with
  | .error e => .error e
  | .ok v => trainingSet log log1p rndOf inferTick (sp.withTarget name tr.ts v) tr kind

end FinML
