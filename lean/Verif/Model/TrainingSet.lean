/-
The use of the package from trades to a training set: bars (`bar/base.py:132-169` `build_ohlcv`), features
(`feature/kit.py:1014-1085` `FeatureKit.build`), labels (`label/kit.py:101-322` `TBMLabel`).  The composition itself is the
user's code (as in the notebooks); every step is the model of the call.
-/
import Verif.Model.BarKit
import Verif.Model.FeatureKit
import Verif.Model.TbmObject

namespace FinML

variable {K : Type} [Field K] [LinearOrder K]

/-- The features frame as `TBMLabel` receives it (`label/kit.py:131-152`): one row per bar, with the columns `names`; `target` is the
position of the target column; the side is a function of the row. -/
def featureRows (names : List String) (target : Nat) (sideOf : List (Option K) → Int) (stamps : List Int)
    (out : ColFrame (List (Option K))) : List (EventRow K) :=
  (List.range stamps.length).map (fun i =>
    let cells := names.map (fun nm => ((out nm).getD []).getD i none)
    ⟨stamps.getD i 0, cells, cells.getD target none, sideOf cells⟩)

/-- The choices of the user besides the data. -/
structure TrainingSpec (K : Type) where
  /-- columns of the bar table that the kit may read -/
  cols : String → Option (Int × Ohlcv K → Option K)
  retain : List String
  feats : List (Feat (List (Option K)))
  names : List String
  target : Nat
  sideOf : List (Option K) → Int
  /-- barriers, minimal return, window, kind of labels -/
  args : TbmArgs K

/-- Features and label of every labelled event: `build_ohlcv`, `FeatureKit.build`, `TBMLabel(...)`, `compute_labels` on the trades of the
bars. -/
def trainingSet (log log1p : K → K) (rndOf : K → K → Int) (inferTick : List K → Except String K) (sp : TrainingSpec K)
    (tr : KitTrades K) (kind : KitKind K) : Except String (List (EventRow K × TbmRowOut K)) :=
  match (kitCall log log1p rndOf inferTick tr kind BuilderState.fresh .ohlcv).2 with
  | .ok (.bars T) =>
    match buildKit (fun name => (sp.cols name).map (fun g => T.map g)) sp.retain sp.feats with
    | .error e => .error e
    | .ok out =>
      match tbmNew { sp.args with rows := featureRows sp.names sp.target sp.sideOf (T.map Prod.fst) out, nCols := sp.names.length } with
      | .error e => .error e
      | .ok o =>
        match tbmCompute log o tr.ts tr.prices with
        | (_, some e) => .error e
        | (o', none) => .ok (o'.feats.zip (o'.rowsOut.getD []))
  | .ok _ => .error "unreachable"
  | .error e => .error e

end FinML
