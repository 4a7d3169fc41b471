/-
Model of the output names of the transform classes (`finmlkit/feature/transforms.py`).

A transform object is described by its class and constructor parameters.  Time windows are given in
seconds.  `F` prints floats as Python's `str` does.  Window and period parameters are integers.
-/
import Verif.Model.Config

namespace FinML

/-- The single-output transform classes with their parameters, without the input columns. -/
inductive Tx where
  | lag (periods : Int)
  | returnT (seconds : Rat) (isLog : Bool)
  | ret (periods : Int) (isLog : Bool)
  | roc (periods : Int)
  | pctChange (window : Int)
  | rsi (window : Int)
  | stochK (length : Int)
  | ewmst (seconds : Rat)
  | zscore (window ddof : Int)
  | burst (window : Int)
  | vwap (periods : Int) (isLog : Bool)
  | realized (window : Int) (isSample : Bool)
  | bollinger (window : Int) (numStd : Rat)
  | parkinson
  | sma (window : Int)
  | ewma (span : Int)
  | flow (window recent : Int)
  | atr (window : Int) (ema normalize : Bool)
  | corr (window : Int)
  | vpin (window : Int)
  | varRatio (window : Int) (retType : String) (ddof : Int)
  | kurt (window : Int)
  | slope (window : Int)
  | adx (length : Int)
  | meanRev (window : Int)
  | gap
  | barRate (seconds : Rat)
  | hurst (window : Int)
  | apen (window m : Int) (tolerance : Rat)
  | durEwma (span : Int)
  | dur (periods : Int)
  | biPower (window : Int)
  | runLen

/-- The letters before the first parameter in the output name.
Lines of `transforms.py`: 75, 103, 132, 166, 192, 218, 290, 320, 347, 374, 403, 462, 506, 533, 560, 588,
616, 727, 769, 832, 884, 915, 951, 1011, 1046, 1079, 1234, 1360, 1419, 1479, 1522, 1571, 1619. -/
def Tx.head : Tx → String
  | .lag _ => "lag"
  | .returnT _ _ => "ret"
  | .ret _ _ => "ret"
  | .roc _ => "roc"
  | .pctChange _ => "pctc"
  | .rsi _ => "rsiw"
  | .stochK _ => "stochk"
  | .ewmst _ => "ewms"
  | .zscore _ _ => "z"
  | .burst _ => "burst"
  | .vwap _ _ => "vwapd"
  | .realized _ _ => "rv"
  | .bollinger _ _ => "bollb"
  | .parkinson => "parkrange"
  | .sma _ => "sma"
  | .ewma _ => "ewma"
  | .flow _ _ => "flowacc_"
  | .atr _ _ _ => "atr"
  | .corr _ => "corr_pv_"
  | .vpin _ => "vpin_"
  | .varRatio _ _ _ => "var_ratio_"
  | .kurt _ => "kurt_"
  | .slope _ => "trend_slope_"
  | .adx _ => "adx_"
  | .meanRev _ => "mr_z_"
  | .gap => "daily_gap"
  | .barRate s => if (s / 60).den = 1 then "bars_per_hour" else "rate_"
  | .hurst _ => "hurst"
  | .apen _ _ _ => "apen"
  | .durEwma _ => "dur_ewma"
  | .dur _ => "dur_"
  | .biPower _ => "bv_"
  | .runLen => "dir_run_len"

/-- The rest of the output name (same lines). -/
def Tx.tail (F : FloatText) : Tx → List Char
  | .lag p => intText p
  | .returnT s _ => if s > 1 / 1000000 then F.text s ++ ['s'] else ['1']
  | .ret p _ => intText p
  | .roc p => intText p
  | .pctChange w => intText w
  | .rsi w => intText w
  | .stochK l => intText l
  | .ewmst s => F.text s ++ ['s']
  | .zscore w _ => intText w
  | .burst w => intText w
  | .vwap p _ => intText p
  | .realized w _ => intText w
  | .bollinger w _ => intText w
  | .parkinson => []
  | .sma w => intText w
  | .ewma s => intText s
  | .flow w r => intText w ++ '_' :: intText r
  | .atr w e n => intText w ++ (if e then ['_', 'e', 'm', 'a'] else []) ++ (if n then ['_', 'n', 'o', 'r', 'm'] else [])
  | .corr w => intText w
  | .vpin w => intText w
  | .varRatio w _ _ => ['1', '_', '4', '_'] ++ intText w
  | .kurt w => intText w
  | .slope w => intText w
  | .adx l => intText l
  | .meanRev w => intText w
  | .gap => []
  | .barRate s => if (s / 60).den = 1 then [] else F.text (s / 60) ++ ['m']
  | .hurst w => intText w
  | .apen w _ _ => intText w
  | .durEwma s => intText s
  | .dur p => intText p ++ ['b', 'a', 'r']
  | .biPower w => intText w
  | .runLen => []

/-- The `output_col` passed to the base class. -/
def Tx.suffix (F : FloatText) (t : Tx) : List Char := t.head.toList ++ t.tail F

/-- Classes with several inputs (`MISOTransform`): `StochK`, `VWAPDistance`, `ParkinsonRange`, `ATR`,
`PriceVolumeCorrelation`, `VPIN`, `ADX` (`transforms.py:276`, `388`, `521`, `711`, `754`, `816`, `991`). -/
def Tx.miso : Tx → Bool
  | .stochK _ => true
  | .vwap _ _ => true
  | .parkinson => true
  | .atr _ _ _ => true
  | .corr _ => true
  | .vpin _ => true
  | .adx _ => true
  | _ => false

/-- The column name: input and suffix for single-input classes (`base.py:485-492`), the suffix alone for
multi-input classes (`base.py:699-706`). -/
def Tx.outName (F : FloatText) (inputs : List (List Char)) (t : Tx) : List Char :=
  if t.miso then t.suffix F else inputs.headD [] ++ '_' :: t.suffix F

/-- The classes with several outputs (`transforms.py:421-448`, `631-709`, `1122-1208`, `1273-1339`).  The two last
take several inputs. -/
inductive MTx where
  | timeCues
  | cusum (window warmup maxAge : Int)
  | orb
  | candle

/-- Their `produces` (`transforms.py:431`, `651-658`, `1142`, `1293`). -/
def MTx.produces : MTx → List (List Char)
  | .timeCues => ["sin_td".toList, "cos_td".toList, "sin_dw".toList, "cos_dw".toList, "asia".toList, "eu".toList,
      "us".toList, "sess_x".toList, "top_hr".toList]
  | .cusum w _ _ =>
    let up := "cumote_up".toList ++ intText w
    let down := "cumote_down".toList ++ intText w
    [up ++ "_score".toList, down ++ "_score".toList, up ++ "_flag".toList, down ++ "_flag".toList,
      up ++ "_age".toList, down ++ "_age".toList]
  | .orb => ["orb_long".toList, "orb_short".toList]
  | .candle => ["wick_up_ratio".toList, "wick_dn_ratio".toList, "body_ratio".toList, "vwap_drift".toList]

/-- Their column names (`transforms.py:444-446`, `706-708`, `1205-1207`, `1336-1338`): the input columns are not part
of them, although the base class of the first two would add it (`base.py:968-975`). -/
def MTx.outNames (_inputs : List (List Char)) (t : MTx) : List (List Char) := t.produces

end FinML
