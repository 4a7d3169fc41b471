/-
Model of one run of the ingestion script: `scripts/binance2h5.py:354-431` (`orchestrate_symbol`) and `:434-449` (`main`).

The pieces are those of `Model/Archive` (download, names, renaming), `Model/Store` (`process_all` of the script) and
`Model/TimeBarStore` (`AddTimeBarH5.process_all`); here they are put in sequence.  Simplified: the archive directory of a symbol holds
monthly archives only (others are skipped, C78); reading an archive into a `TradesData` object is a function of its content; an
uncaught exception ends the run, and nothing is said about the files that this symbol's run had touched before it.
-/
import Verif.Model.Archive
import Verif.Model.Store
import Verif.Model.TimeBarStore

namespace FinML

variable {K : Type} [Field K] [LinearOrder K] {κ : Type} [LinearOrder κ] {D F : Type}

/-! ## Files -/

/-- The file of a name in a directory. -/
def fileAt (n : List Char) (dir : List (List Char × F)) : Option F := (dir.find? (fun e => decide (e.1 = n))).map Prod.snd

/-- Write a file. -/
def fileSet (n : List Char) (f : F) (dir : List (List Char × F)) : List (List Char × F) := (n, f) :: dir.filter (fun e => e.1 ≠ n)

/-- One HDF5 file: trades with their metadata, and time bars. -/
structure H5File (κ K : Type) where
  trades : Store κ K
  bars : KStore κ K

/-- A new file. -/
def H5File.empty : H5File κ K := ⟨Store.empty, KStore.empty⟩

/-- The working directory (one market): archives by symbol and month, and the directory of HDF5 files. -/
structure Disk (D κ K : Type) where
  raw : List Char → Month → MonthFiles D
  h5 : List (List Char × H5File κ K)

/-! ## One symbol -/

/-- The outcomes of the three downloads of one month, `scripts/binance2h5.py:373-388`. -/
structure MonthNet (D : Type) where
  first : List (Attempt D)
  chk : List (Attempt D)
  second : List (Attempt D)

/-- `scripts/binance2h5.py:366-388`: the download loop; `none` when a download raises. -/
def downloadAll (verify : D → Option D → Bool) (net : Month → MonthNet D) : List Month → (Month → MonthFiles D) → Option (Month → MonthFiles D)
  | [], raw => some raw
  | m :: ms, raw =>
    match downloadMonth verify (net m).first (net m).chk (net m).second (raw m) with
    | none => none
    | some s => downloadAll verify net ms (Function.update raw m s)

/-- `scripts/binance2h5.py:390-396`: the months whose archive is present. -/
def availableMonths (raw : Month → MonthFiles D) (months : List Month) : List Month := months.filter (fun m => (raw m).zip.isSome)

/-- `scripts/binance2h5.py:204-214`: verify and read one selected archive. -/
def taskOf (verify : D → Option D → Bool) (read : D → Except String (Frame K)) (s : MonthFiles D) : TaskResult K :=
  match s.zip with
  | none => .skipped
  | some z =>
    if verify z s.chk then
      match read z with
      | .ok f => .trades f
      | .error _ => .raised
    else .raised

/-- Does `process_all` of the script create the file?  `save_h5` of an object without trades raises before it opens the file
(`bar/data_model.py:450`), which ends the writer thread. -/
def createsFile (completion : List (TaskResult K)) : Bool :=
  match enqueued completion with
  | [] => false
  | f :: _ => !f.rows.isEmpty

/-- `bar/io.py:473-480`: the one-second bars of a stored month. -/
def secondBars (sortIdx : List (OutTrade K) → List (OutTrade K)) (st : Store κ K) (k : κ) : Except String (List (TBar K)) :=
  match loadTrades sortIdx st (some k) none none none with
  | .error e => .error e
  | .ok rows => buildTimeBars (rows.map (·.ts)) (rows.map (·.price)) (rows.map (·.amount)) 1000000000

/-- What does not change between the runs: how archives are verified, read and sorted. -/
structure Tool (D κ K : Type) where
  verify : D → Option D → Bool
  read : D → Except String (Frame K)
  monthOf : Int → κ
  sortIdx : List (OutTrade K) → List (OutTrade K)

/-- `scripts/binance2h5.py:418-431` with the file the run starts from (`none`: there is no such file): ingestion, then time bars of every
month in the file.  `AddTimeBarH5` cannot open a file that does not exist. -/
def ingestInto (T : Tool D κ K) (overwrite : Bool) (old : Option (H5File κ K)) (completion : List (TaskResult K)) : Except String (H5File κ K) :=
  match (match old with | some f => some f | none => if createsFile completion then some H5File.empty else none) with
  | none => .error "FileNotFoundError"
  | some f =>
    let st := processAll T.monthOf f.trades completion
    .ok ⟨st, (processAllBars overwrite (secondBars T.sortIdx st) f.bars (st.trades.map Prod.fst)).1⟩

/-- `scripts/binance2h5.py:354-431` `orchestrate_symbol`; `order` is the order in which the workers finish. -/
def orchestrate (T : Tool D κ K) (market symbol : List Char) (start stop : Month) (overwrite : Bool) (net : Month → MonthNet D)
    (order : List (TaskResult K) → List (TaskResult K)) (disk : Disk D κ K) : Except String (Disk D κ K) :=
  match marketLabel market with
  | .error e => .error e
  | .ok label =>
    match monthRange start stop with
    | .error e => .error e
    | .ok months =>
      match downloadAll T.verify net months (disk.raw symbol) with
      | none => .error "RequestException"
      | some raw =>
        let avail := availableMonths raw months
        match avail.head?, avail.getLast? with
        | some a, some b =>
          let target := targetName symbol label a b
          let dir := extendRename symbol label a.yymm b.yymm target disk.h5
          match ingestInto T overwrite (fileAt target dir) (order (avail.map (fun m => taskOf T.verify T.read (raw m)))) with
          | .error e => .error e
          | .ok f => .ok ⟨Function.update disk.raw symbol raw, fileSet target f dir⟩
        | _, _ => .ok ⟨Function.update disk.raw symbol raw, disk.h5⟩

/-! ## All symbols -/

/-- `scripts/binance2h5.py:445-449`: the loop over the symbols; the first exception ends the program. -/
def runTool (T : Tool D κ K) (market : List Char) (start stop : Month) (overwrite : Bool) (net : List Char → Month → MonthNet D)
    (order : List (TaskResult K) → List (TaskResult K)) : List (List Char) → Disk D κ K → Disk D κ K × Option String
  | [], disk => (disk, none)
  | s :: ss, disk =>
    match orchestrate T market (s.map Char.toUpper) start stop overwrite (net (s.map Char.toUpper)) order disk with
    | .error e => (disk, some e)
    | .ok disk' => runTool T market start stop overwrite net order ss disk'

end FinML
