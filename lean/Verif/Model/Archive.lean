/-
Model of the archive handling of `scripts/binance2h5.py`: reading one archive (`load_csv_from_zip`, `:144-190`), the
selection of archives (`_process_task`, `:195-203`), names of markets, URLs and files (`:275-351`), the renaming of an
existing file (`:404-412`) and the download phase (`:309-330`, `:360-401`).  Strings are lists of characters.

Simplified: a cell of a CSV file is given by its own reading (integer, non-integral number, truth value, text or
nothing); how pandas types the whole column is modelled where it matters (`is_buyer_maker`).  Truth values in numeric
columns are treated as text.  `sort_values('time')` is modelled by a stable sort (pandas does not promise stability).
-/
import Mathlib.Data.List.Sort
import Verif.Model.Months

namespace FinML

variable {K : Type} [Field K] [LinearOrder K]

/-! ## Reading an archive -/

/-- One cell of the CSV file; `real` stands for numbers that are not integral. -/
inductive Cell (K : Type) where
  | int (z : Int)
  | real (x : K)
  | flag (b : Bool)
  | text (s : List Char)
  | missing
deriving DecidableEq

/-- `pd.to_numeric(…, errors='coerce').astype(float)` on one cell (`scripts/binance2h5.py:178-179`). -/
def cellFloat : Cell K → Option K
  | .int z => some (z : K)
  | .real x => some x
  | _ => none

/-- `pd.to_numeric(…, errors='coerce').astype('Int64').astype('int64')` on one cell (`scripts/binance2h5.py:177,180`):
the second cast raises on a missing value, the first one on a non-integral one. -/
def cellInt : Cell K → Except String Int
  | .int z => .ok z
  | .real _ => .error "cannot safely cast non-equivalent float64 to int64"
  | _ => .error "cannot convert NA to integer"

/-- Is the cell read as a truth value by pandas? -/
def Cell.isFlag : Cell K → Bool
  | .flag _ => true
  | _ => false

/-- Is the cell a number or empty? -/
def Cell.isNumeric : Cell K → Bool
  | .int _ => true
  | .real _ => true
  | .missing => true
  | _ => false

/-- Is the cell an integer? -/
def Cell.isInt : Cell K → Bool
  | .int _ => true
  | _ => false

/-- The accepted spellings (`scripts/binance2h5.py:183`). -/
def trueWords : List (List Char) := ["1".toList, "true".toList, "t".toList, "yes".toList]

/-- `str(cell).lower()` is an accepted spelling, for a column of Python objects: every cell keeps its text. -/
def cellTrue : Cell K → Bool
  | .int z => decide (z = 1)
  | .flag b => b
  | .text s => decide (s.map Char.toLower ∈ trueWords)
  | _ => false

/-- `scripts/binance2h5.py:181-183`: the maker flags of the whole column.  A column of truth values is used as it is.
A numeric column with an empty or non-integral cell is a float column, whose cells print as `1.0`: no spelling
matches. -/
def makerFlags (col : List (Cell K)) : List Bool :=
  if col.all Cell.isFlag then col.map cellTrue
  else if col.all Cell.isInt then col.map cellTrue
  else if col.all Cell.isNumeric then col.map (fun _ => false)
  else col.map cellTrue

/-- One row of the result (`scripts/binance2h5.py:187`). -/
structure CsvTrade (K : Type) where
  time : Int
  price : Option K
  qty : Option K
  id : Int
  maker : Bool
deriving DecidableEq

/-- Column `i` of the table. -/
def csvCol (rows : List (List (Cell K))) (i : Nat) : List (Cell K) := rows.map (fun r => r.getD i .missing)

/-- The numeric columns of one row; column numbers from `scripts/binance2h5.py:160`. -/
def csvRow (r : List (Cell K)) (maker : Bool) : Except String (CsvTrade K) :=
  match cellInt (r.getD 4 .missing) with
  | .error e => .error e
  | .ok time =>
    match cellInt (r.getD 0 .missing) with
    | .error e => .error e
    | .ok id => .ok ⟨time, cellFloat (r.getD 1 .missing), cellFloat (r.getD 2 .missing), id, maker⟩

/-- All rows, or the first error. -/
def csvRows : List (List (Cell K)) → List Bool → Except String (List (CsvTrade K))
  | r :: rs, b :: bs =>
    match csvRow r b with
    | .error e => .error e
    | .ok x =>
      match csvRows rs bs with
      | .error e => .error e
      | .ok xs => .ok (x :: xs)
  | _, _ => .ok []

/-- `load_csv_from_zip` (`scripts/binance2h5.py:144-190`) on the rows of the file, all of width `w`.  Every line is
data (`header=None`).  With fewer than six columns the renamed columns never contain `time`; with more than seven the
assignment of seven names fails. -/
def loadCsv (w : Nat) (rows : List (List (Cell K))) : Except String (List (CsvTrade K)) :=
  if rows.isEmpty then .error "EmptyDataError"
  else if w < 6 then .error "Missing required columns"
  else if 7 < w then .error "Length mismatch"
  else match csvRows rows (makerFlags (csvCol rows 5)) with
    | .error e => .error e
    | .ok ts => .ok (ts.insertionSort (fun a b => a.time ≤ b.time))

/-! ## Names -/

/-- `\d{4}-\d{2}` at the start of a string. -/
def dateAt (s : List Char) : Bool :=
  (s.take 4).length == 4 && (s.take 4).all Char.isDigit && (s.drop 4).take 1 == ['-'] &&
  ((s.drop 5).take 2).length == 2 && ((s.drop 5).take 2).all Char.isDigit

/-- `re.search(r"(\d{4}-\d{2})", name)` (`scripts/binance2h5.py:196`; ASCII digits only). -/
def searchDate : List Char → Option (List Char)
  | [] => none
  | c :: cs => if dateAt (c :: cs) then some ((c :: cs).take 7) else searchDate cs

/-- `scripts/binance2h5.py:196-203`: does the archive pass the selection? -/
def taskDate (fromDate : Option (List Char)) (dates : List (List Char)) (name : List Char) : Option (List Char) :=
  match searchDate name with
  | none => none
  | some d =>
    if (match fromDate with | none => false | some f => f ≠ [] && decide (d < f)) then none
    else if dates ≠ [] ∧ d ∉ dates then none
    else some d

/-- `market_path` (`scripts/binance2h5.py:286-294`). -/
def marketPath (market : List Char) : Except String (List Char) :=
  let m := (strip market).map Char.toLower
  if m = "spot".toList then .ok "spot".toList
  else if m ∈ ["um".toList, "perpum".toList, "perp_um".toList, "usdm".toList, "usdsm".toList] then .ok "um".toList
  else if m ∈ ["cm".toList, "perpcm".toList, "perp_cm".toList, "coinm".toList] then .ok "cm".toList
  else .error "Unknown market"

/-- `market_label` (`scripts/binance2h5.py:275-283`). -/
def marketLabel (market : List Char) : Except String (List Char) :=
  let m := (strip market).map Char.toLower
  if m = "spot".toList then .ok "SPOT".toList
  else if m ∈ ["um".toList, "perpum".toList, "perp_um".toList, "usdm".toList, "usdsm".toList] then .ok "PERPum".toList
  else if m ∈ ["cm".toList, "perpcm".toList, "perp_cm".toList, "coinm".toList] then .ok "PERPcm".toList
  else .error "Unknown market"

/-- The file name of a monthly archive (`scripts/binance2h5.py:303`). -/
def zipName (symbol : List Char) (m : Month) : List Char :=
  symbol ++ "-trades-".toList ++ m.ym ++ ".zip".toList

/-- `build_urls` (`scripts/binance2h5.py:297-306`). -/
def buildUrls (market symbol : List Char) (m : Month) : Except String (List Char × List Char) :=
  match marketPath market with
  | .error e => .error e
  | .ok p =>
    let pre := if p = "spot".toList then "/data/spot/monthly/trades/".toList ++ symbol
      else "/data/futures/".toList ++ p ++ "/monthly/trades/".toList ++ symbol
    let url := "https://data.binance.vision".toList ++ pre ++ "/".toList ++ zipName symbol m
    .ok (url, url ++ ".CHECKSUM".toList)

/-- `os.path.basename`: what follows the last slash. -/
def basename (s : List Char) : List Char := (s.reverse.takeWhile (fun c => c ≠ '/')).reverse

/-- The name of the HDF5 file (`scripts/binance2h5.py:401`). -/
def targetName (symbol label : List Char) (a b : Month) : List Char :=
  symbol ++ "_".toList ++ label ++ "_".toList ++ a.yymm ++ "-".toList ++ b.yymm ++ ".h5".toList

/-- `parse_range_from_name` (`scripts/binance2h5.py:346-351`): the last 13 characters are `_dddd-dddd.h5`. -/
def parseRange (name : List Char) : List Char × List Char :=
  let s := name.drop (name.length - 13)
  let a := (s.drop 1).take 4
  let b := (s.drop 6).take 4
  if s.length = 13 ∧ s.take 1 = ['_'] ∧ a.all Char.isDigit = true ∧ (s.drop 5).take 1 = ['-'] ∧
      b.all Char.isDigit = true ∧ s.drop 10 = ".h5".toList then (a, b) else ([], [])

/-- `find_existing_h5` (`scripts/binance2h5.py:331-343`) on the names of a directory. -/
def isExisting (symbol label name : List Char) : Bool :=
  (".h5".toList).isSuffixOf (name.map Char.toLower) &&
  ((symbol.map Char.toUpper ++ "_".toList ++ label ++ "_".toList).map Char.toUpper).isPrefixOf (name.map Char.toUpper)

/-- The file that is renamed (`scripts/binance2h5.py:404-409`): the first one, in sorted order, with the same start
and an earlier end. -/
def toExtend (names : List (List Char)) (symbol label yStart yEnd : List Char) : Option (List Char) :=
  ((names.filter (isExisting symbol label)).insertionSort (fun a b => ¬ b < a)).find? (fun n =>
    (parseRange n).1 == yStart && (parseRange n).2 != [] && decide ((parseRange n).2 < yEnd))

/-- `os.replace(path, target)`: the entry moves, an existing target is overwritten. -/
def osReplace {D : Type} (path target : List Char) (dir : List (List Char × D)) : List (List Char × D) :=
  (dir.filter (fun e => e.1 ≠ target || e.1 = path)).map (fun e => if e.1 = path then (target, e.2) else e)

/-- `scripts/binance2h5.py:404-412`. -/
def extendRename {D : Type} (symbol label yStart yEnd target : List Char) (dir : List (List Char × D)) :
    List (List Char × D) :=
  match toExtend (dir.map Prod.fst) symbol label yStart yEnd with
  | none => dir
  | some path => if path ≠ target then osReplace path target dir else dir

/-! ## Download -/

/-- One attempt of `download_file` (`scripts/binance2h5.py:309-328`): not found, a complete file, or an exception,
possibly after part of the file was written. -/
inductive Attempt (D : Type) where
  | notFound
  | done (c : D)
  | broken (written : Option D)

/-- Result of `download_file`. -/
inductive DlResult where
  | yes
  | no
  | raised
deriving DecidableEq

/-- `download_file` with the outcomes of the remaining attempts (at least one); the second component is the file
afterwards. -/
def downloadFile {D : Type} : List (Attempt D) → Option D → DlResult × Option D
  | [], file => (.no, file)
  | .notFound :: _, file => (.no, file)
  | .done c :: _, _ => (.yes, some c)
  | [.broken w], file => (.raised, w.orElse (fun _ => file))
  | .broken w :: a :: rest, file => downloadFile (a :: rest) (w.orElse (fun _ => file))

/-- The two files of one month. -/
structure MonthFiles (D : Type) where
  zip : Option D
  chk : Option D
deriving DecidableEq

/-- One pass of the download loop (`scripts/binance2h5.py:366-388`); `verify zip chk` is `verify_zip_checksum`.
An exception in the first download ends the program (`none`). -/
def downloadMonth {D : Type} (verify : D → Option D → Bool) (first chkTry second : List (Attempt D))
    (s : MonthFiles D) : Option (MonthFiles D) :=
  match (match s.zip with | some z => (DlResult.yes, some z) | none => downloadFile first none) with
  | (.raised, _) => none
  | (.no, z) => some ⟨z, s.chk⟩
  | (.yes, none) => some ⟨none, s.chk⟩
  | (.yes, some z) =>
    let chk := match s.chk with | some c => some c | none => (downloadFile chkTry none).2
    if verify z chk then some ⟨some z, chk⟩ else some ⟨(downloadFile second none).2, chk⟩

/-- Characters matched by `\w` (ASCII). -/
def wordChar (c : Char) : Bool := c.isAlphanum || c == '_'

/-- Characters matched by `[a-fA-F0-9]`. -/
def hexChar (c : Char) : Bool :=
  c.isDigit || ('a' ≤ c && c ≤ 'f') || ('A' ≤ c && c ≤ 'F')

/-- Maximal runs of word characters. -/
def wordsOf : List Char → List (List Char)
  | [] => []
  | c :: cs =>
    if wordChar c then
      match cs with
      | [] => [[c]]
      | d :: _ => if wordChar d then
          match wordsOf cs with
          | w :: ws => (c :: w) :: ws
          | [] => [[c]]
        else [c] :: wordsOf cs
    else wordsOf cs

/-- `re.findall(r"\b[a-fA-F0-9]{n}\b", content)`: the words of `n` hexadecimal digits (`scripts/binance2h5.py:96-97`). -/
def hexWords (n : Nat) (content : List Char) : List (List Char) :=
  (wordsOf content).filter (fun w => w.length == n && w.all hexChar)

/-- `_read_checksum_file` (`scripts/binance2h5.py:100-115`) on the text of the file; `none` when there is no readable
file. -/
def readDigest : Option (List Char) → Option (List Char)
  | none => none
  | some content =>
    match hexWords 64 content with
    | w :: _ => some (w.map Char.toLower)
    | [] =>
      match hexWords 32 content with
      | w :: _ => some (w.map Char.toLower)
      | [] => none

end FinML
