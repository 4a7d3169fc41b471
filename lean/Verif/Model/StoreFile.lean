/-
Model of the file behind `save_h5` (`finmlkit/bar/data_model.py:420-574`): the `mode` argument, and the view range of the object that is saved.
-/
import Verif.Model.Store
import Verif.Model.Inspector

namespace FinML

variable {K : Type} [Field K] [LinearOrder K] {κ : Type} [LinearOrder κ]

/-- The `mode` argument of `save_h5` (`bar/data_model.py:427, 471-476`), handed to `pd.HDFStore`. -/
inductive FileMode
  | append
  | write
  | readWrite
  | read
  | other
deriving DecidableEq

/-- Opening the file (`none`: there is no such file).  `"a"` creates a missing file, `"w"` starts with an empty one, `"r+"` and
`"r"` need an existing one; other modes are refused by pandas. -/
def openFile (mode : FileMode) (file : Option (Store κ K)) : Except String (Store κ K) :=
  match mode, file with
  | .append, none => .ok Store.empty
  | .append, some st => .ok st
  | .write, _ => .ok Store.empty
  | .readWrite, some st => .ok st
  | .read, some st => .ok st
  | .other, _ => .error "ValueError"
  | _, none => .error "OSError"

/-- A `TradesData` object: its data and its view range. -/
structure SavedTrades (K : Type) where
  whole : Frame K
  view : ViewRange

/-- `bar/data_model.py:466`: `save_h5` reads the property `data`, which honours the view range; the integrity fields are those
of the object. -/
def SavedTrades.savedFrame (o : SavedTrades K) : Frame K := { o.whole with rows := viewData o.view o.whole.rows }

/-- `bar/data_model.py:420-574` `save_h5` on a file: the file afterwards and the exception raised, if any.  The key is derived before
the file is opened (`:449-451`).  A file opened with `"r"` cannot be written to: some write is always attempted or the empty
frame raises, and nothing changes. -/
def saveFile (monthOf : Int → κ) (mode : FileMode) (monthKey : Option κ) (overwrite : Bool) (file : Option (Store κ K))
    (o : SavedTrades K) : Option (Store κ K) × Option String :=
  if o.savedFrame.rows = [] ∧ monthKey = none then (file, some "IndexError")
  else
    match openFile mode file with
    | .error e => (file, some e)
    | .ok st =>
      if mode = .read then (file, some "not writable")
      else
        let r := saveH5 monthOf monthKey overwrite st o.savedFrame
        (some r.1, r.2)

end FinML
