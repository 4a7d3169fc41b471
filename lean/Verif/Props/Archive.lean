/-
C77: reading an archive.  C78: names of archives and files, renaming of an existing file.  C79: the download phase.
-/
import Mathlib.Data.List.Sort
import Mathlib.Data.List.GetD
import Mathlib.Data.Rat.Defs
import Mathlib.Algebra.Order.Ring.Rat
import Mathlib.Algebra.Order.Field.Basic
import Verif.Model.Archive
import Verif.Props.Months

set_option linter.unusedSectionVars false

namespace FinML

variable {K : Type} [Field K] [LinearOrder K] [IsStrictOrderedRing K]

/-! ## C77: reading an archive -/

/-- The integer in a cell. -/
def intOf : Cell K → Int
  | .int z => z
  | _ => 0

/-- The number in a cell, if it is one. -/
def numOf : Cell K → Option K
  | .int z => some (z : K)
  | .real x => some x
  | _ => none

/-- The trade a line stands for: columns id, price, qty, quoteQty, time, isBuyerMaker. -/
def lineTrade (r : List (Cell K)) (maker : Bool) : CsvTrade K :=
  { time := intOf (r.getD 4 .missing), price := numOf (r.getD 1 .missing), qty := numOf (r.getD 2 .missing),
    id := intOf (r.getD 0 .missing), maker := maker }

theorem makerFlags_length (col : List (Cell K)) : (makerFlags col).length = col.length := by
  unfold makerFlags
  split
  · simp
  · split
    · simp
    · split <;> simp

theorem csvRow_ok (r : List (Cell K)) (b : Bool) (t i : Int) (ht : r.getD 4 .missing = .int t)
    (hi : r.getD 0 .missing = .int i) : csvRow r b = .ok (lineTrade r b) := by
  unfold csvRow lineTrade
  rw [ht, hi]
  simp only [cellInt, intOf]
  congr 2

theorem csvRows_ok : ∀ (rows : List (List (Cell K))) (bs : List Bool), bs.length = rows.length →
    (∀ r ∈ rows, ∃ t i, r.getD 4 .missing = .int t ∧ r.getD 0 .missing = .int i) →
    csvRows rows bs = .ok (List.zipWith lineTrade rows bs) := by
  intro rows
  induction rows with
  | nil => intro bs _ _; simp [csvRows]
  | cons r rs ih =>
    intro bs hl h
    cases bs with
    | nil => simp at hl
    | cons b bs =>
      obtain ⟨t, i, ht, hi⟩ := h r (by simp)
      simp only [csvRows, csvRow_ok r b t i ht hi, ih bs (by simpa using hl) (fun r hr => h r (by simp [hr])),
        List.zipWith_cons_cons]

instance : Std.Total (fun a b : CsvTrade K => a.time ≤ b.time) where
  total a b := le_total a.time b.time

instance : IsTrans (CsvTrade K) (fun a b => a.time ≤ b.time) where
  trans _ _ _ h1 h2 := le_trans h1 h2

/-- **C77.** An archive with six or seven columns whose ids and times are integers on every line loads: the result
holds exactly one trade per line, with that line's values, ordered by time. -/
theorem C77_loads (w : Nat) (hw : w = 6 ∨ w = 7) (rows : List (List (Cell K))) (hne : rows ≠ [])
    (h : ∀ r ∈ rows, ∃ t i, r.getD 4 .missing = .int t ∧ r.getD 0 .missing = .int i) :
    ∃ out flags, loadCsv w rows = .ok out ∧ flags.length = rows.length ∧
      out.Perm (List.zipWith lineTrade rows flags) ∧ out.Pairwise (fun a b => a.time ≤ b.time) ∧
      (∀ bs : List Bool, rows.map (fun r => r.getD 5 .missing) = bs.map Cell.flag → flags = bs) := by
  refine ⟨_, makerFlags (csvCol rows 5), ?_, ?_, List.perm_insertionSort _ _, List.pairwise_insertionSort _ _, ?_⟩
  · unfold loadCsv
    rw [if_neg (by simpa using hne), if_neg (by omega), if_neg (by omega),
      csvRows_ok rows _ (by rw [makerFlags_length]; simp [csvCol]) h]
  · rw [makerFlags_length]; simp [csvCol]
  · intro bs hbs
    unfold csvCol
    rw [hbs]
    unfold makerFlags
    rw [if_pos (by simp [Cell.isFlag])]
    simp [cellTrue, Function.comp_def]

example : ∀ r ∈ [[Cell.int 7, .real (3 / 2 : ℚ), .int 1, .int 2, .int 1600, .flag true], [.int 8, .missing, .int 1, .int 2, .int 1500, .flag false]],
    ∃ t i, r.getD 4 .missing = .int t ∧ r.getD 0 .missing = .int i := by
  intro r hr
  simp only [List.mem_cons, List.not_mem_nil, or_false] at hr
  rcases hr with rfl | rfl
  · exact ⟨1600, 7, rfl, rfl⟩
  · exact ⟨1500, 8, rfl, rfl⟩

theorem csvRows_error : ∀ (rows : List (List (Cell K))) (bs : List Bool), bs.length = rows.length →
    (∃ r ∈ rows, (∀ z, r.getD 4 .missing ≠ .int z) ∨ (∀ z, r.getD 0 .missing ≠ .int z)) →
    ∃ e, csvRows rows bs = .error e := by
  intro rows
  induction rows with
  | nil => rintro bs _ ⟨r, hr, _⟩; simp at hr
  | cons r rs ih =>
    rintro bs hl ⟨x, hx, hbad⟩
    cases bs with
    | nil => simp at hl
    | cons b bs =>
      simp only [csvRows]
      cases hrow : csvRow r b with
      | error e => exact ⟨e, rfl⟩
      | ok y =>
        rcases List.mem_cons.mp hx with rfl | hx
        · exfalso
          unfold csvRow at hrow
          rcases hbad with hbad | hbad
          · cases hc : x.getD 4 .missing with
            | int z => exact hbad z hc
            | real _ => rw [hc] at hrow; simp [cellInt] at hrow
            | flag _ => rw [hc] at hrow; simp [cellInt] at hrow
            | text _ => rw [hc] at hrow; simp [cellInt] at hrow
            | missing => rw [hc] at hrow; simp [cellInt] at hrow
          · cases hc4 : cellInt (x.getD 4 .missing) with
            | error e => rw [hc4] at hrow; simp at hrow
            | ok t =>
              rw [hc4] at hrow
              cases hc : x.getD 0 .missing with
              | int z => exact hbad z hc
              | real _ => rw [hc] at hrow; simp [cellInt] at hrow
              | flag _ => rw [hc] at hrow; simp [cellInt] at hrow
              | text _ => rw [hc] at hrow; simp [cellInt] at hrow
              | missing => rw [hc] at hrow; simp [cellInt] at hrow
        · obtain ⟨e, he⟩ := ih bs (by simpa using hl) ⟨x, hx, hbad⟩
          rw [he]
          exact ⟨e, rfl⟩

/-- **C77.** One line whose time or id is not an integer makes the whole archive fail, whatever the other lines
hold. -/
theorem C77_rejects (w : Nat) (rows : List (List (Cell K))) (r : List (Cell K)) (hr : r ∈ rows)
    (hbad : (∀ z, r.getD 4 .missing ≠ .int z) ∨ (∀ z, r.getD 0 .missing ≠ .int z)) :
    ∃ e, loadCsv w rows = .error e := by
  unfold loadCsv
  split
  · exact ⟨_, rfl⟩
  · split
    · exact ⟨_, rfl⟩
    · split
      · exact ⟨_, rfl⟩
      · obtain ⟨e, he⟩ := csvRows_error rows (makerFlags (csvCol rows 5))
          (by rw [makerFlags_length]; simp [csvCol]) ⟨r, hr, hbad⟩
        rw [he]
        exact ⟨e, rfl⟩

example : ∀ z, ([Cell.int 7, .real (3 / 2 : ℚ), .int 1, .int 2, .missing, .flag true]).getD 4 .missing ≠ .int z := fun _ h => by cases h

/-- **C77 (header lines).** An archive whose first line names the columns is never loaded: the fallback that would
read the line as a header is not reached, and the name in the time column cannot be converted. -/
theorem C77_header_line_rejected (w : Nat) (header : List (Cell K)) (name : List Char)
    (hn : header.getD 4 .missing = .text name) (rows : List (List (Cell K))) :
    ∃ e, loadCsv w (header :: rows) = .error e :=
  C77_rejects w (header :: rows) header (by simp) (Or.inl (fun z => by rw [hn]; simp))

example : ([Cell.text "id".toList, .text "price".toList, .text "qty".toList, .text "quote_qty".toList, .text "time".toList] : List (Cell ℚ)).getD 4 .missing =
    .text "time".toList := rfl

/-- **C77.** Only archives with six or seven columns are loaded: the branches for other widths and for a missing maker
column are never used. -/
theorem C77_width (w : Nat) (rows : List (List (Cell K))) (out : List (CsvTrade K)) (h : loadCsv w rows = .ok out) :
    w = 6 ∨ w = 7 := by
  unfold loadCsv at h
  split at h
  · cases h
  · split at h
    · cases h
    · split at h
      · cases h
      · omega

example : (loadCsv 6 [[Cell.int 7, .real (3 / 2 : ℚ), .int 1, .int 2, .int 1600, .flag true]]).isOk = true := by decide +kernel

/-- **C77 (maker flags).** Truth values are kept; integers give `true` exactly for 1; in a column with at least one
text every text matches by spelling, whatever its case. -/
theorem C77_maker_flags (col : List (Cell K)) :
    (∀ bs : List Bool, col = bs.map Cell.flag → makerFlags col = bs) ∧
    (∀ zs : List Int, zs ≠ [] → col = zs.map Cell.int → makerFlags col = zs.map (fun z => decide (z = 1))) ∧
    (∀ ss : List (List Char), ss ≠ [] → col = ss.map Cell.text →
      makerFlags col = ss.map (fun s => decide (s.map Char.toLower ∈
        ["1".toList, "true".toList, "t".toList, "yes".toList]))) := by
  refine ⟨?_, ?_, ?_⟩
  · rintro bs rfl
    unfold makerFlags
    rw [if_pos (by simp [Cell.isFlag])]
    simp [cellTrue, Function.comp_def]
  · rintro zs hz rfl
    unfold makerFlags
    cases zs with
    | nil => exact absurd rfl hz
    | cons z zs =>
      rw [if_neg (by simp [Cell.isFlag]), if_pos (by simp [Cell.isInt])]
      simp [cellTrue, Function.comp_def]
  · rintro ss hs rfl
    unfold makerFlags
    cases ss with
    | nil => exact absurd rfl hs
    | cons s ss =>
      rw [if_neg (by simp [Cell.isFlag]), if_neg (by simp [Cell.isInt]), if_neg (by simp [Cell.isNumeric])]
      rw [List.map_map]
      rfl

/-- **C77 (maker flags, gap).** A maker column of numbers with one empty cell reads as all `false`: every buyer-maker
trade of the month silently changes side. -/
theorem C77_maker_gap (a b : List Int) :
    makerFlags (K := K) (a.map Cell.int ++ Cell.missing :: b.map Cell.int) =
      List.replicate (a.length + b.length + 1) false := by
  unfold makerFlags
  rw [if_neg (by simp [Cell.isFlag]), if_neg (by simp [Cell.isInt]), if_pos (by simp [Cell.isNumeric])]
  rw [List.map_const', List.length_append, List.length_cons, List.length_map, List.length_map]
  rfl

/-- **C77 (maker flags, mixed columns).** In a column that holds a text or mixes truth values with numbers, each line
is judged alone: a truth value counts as it is, the integer 1 and the accepted spellings count as true, an empty cell
and a fractional number as false. -/
theorem C77_maker_mixed (col : List (Cell K)) (h : (∃ s, Cell.text s ∈ col) ∨ ((∃ b, Cell.flag b ∈ col) ∧ ∃ c ∈ col, ∀ b, c ≠ Cell.flag b))
    (i : Nat) (hi : i < col.length) :
    (makerFlags col)[i]? = some (match col[i] with
      | .int z => decide (z = 1)
      | .real _ => false
      | .flag b => b
      | .text s => decide (s.map Char.toLower ∈ ["1".toList, "true".toList, "t".toList, "yes".toList])
      | .missing => false) := by
  have e : makerFlags col = col.map cellTrue := by
    unfold makerFlags
    split_ifs with h1 h2 h3
    · rfl
    · rfl
    · exfalso
      rw [List.all_eq_true] at h3
      rcases h with ⟨s, hs⟩ | ⟨⟨b, hb⟩, -⟩
      · simpa [Cell.isNumeric] using h3 _ hs
      · simpa [Cell.isNumeric] using h3 _ hb
    · rfl
  rw [e, List.getElem?_map, List.getElem?_eq_getElem hi, Option.map_some]
  cases col[i] <;> rfl

example : makerFlags (K := ℚ) [.text "Yes".toList, .missing, .int 1, .real (3/2), .flag true, .text "no".toList] =
    [true, false, true, false, true, false] := by decide +kernel

/- Non-vacuity of C77: two lines, out of order, with one unreadable price. -/
example : loadCsv (K := ℚ) 6 [[.int 8, .text "x".toList, .int 3, .int 0, .int 20, .flag true],
    [.int 7, .int 2, .int 1, .int 2, .int 10, .flag false]] =
    .ok [⟨10, some 2, some 1, 7, false⟩, ⟨20, none, some 3, 8, true⟩] := by decide +kernel

example : (match loadCsv (K := ℚ) 6 [[.text "id".toList, .text "price".toList, .text "qty".toList,
      .text "quote_qty".toList, .text "time".toList, .text "is_buyer_maker".toList],
    [.int 7, .int 2, .int 1, .int 2, .int 10, .flag false]] with | .ok _ => false | .error _ => true) = true := by
  decide +kernel

/-! ## C78: names -/

theorem searchDate_skip (c : Char) (cs : List Char) (h : c.isDigit = false) : searchDate (c :: cs) = searchDate cs := by
  simp [searchDate, dateAt, h]

theorem searchDate_symbol : ∀ (u rest : List Char), '-' ∉ u →
    searchDate (u ++ '-' :: 't' :: rest) = searchDate ('-' :: 't' :: rest) := by
  intro u
  induction u with
  | nil => intro rest _; rfl
  | cons c u ih =>
    intro rest h
    have hrec := ih rest (fun hm => h (by simp [hm]))
    have hd : dateAt (c :: u ++ '-' :: 't' :: rest) = false := by
      have hdash : ('-' : Char).isDigit = false := by decide
      have ht : ('t' : Char).isDigit = false := by decide
      match u, h with
      | [], _ => simp [dateAt, hdash]
      | [a], _ => simp [dateAt, hdash]
      | [a, b], _ => simp [dateAt, hdash]
      | [a, b, d], _ => simp [dateAt, ht]
      | a :: b :: d :: e :: u', h =>
        have : e ≠ '-' := fun he => h (by simp [he])
        simp [dateAt, this]
    show searchDate (c :: (u ++ '-' :: 't' :: rest)) = _
    rw [searchDate, if_neg, hrec]
    rw [List.cons_append] at hd
    simp [hd]

theorem ym_digits (m : Month) (h : m.Valid) (hy : m.year < 10000) : ∃ a b c d e f : Char,
    m.ym = [a, b, c, d, '-', e, f] ∧ a.isDigit = true ∧ b.isDigit = true ∧ c.isDigit = true ∧ d.isDigit = true ∧
      e.isDigit = true ∧ f.isDigit = true := by
  unfold Month.Valid at h
  refine ⟨_, _, _, _, _, _, ?_, (digitChar_facts (m.year / 1000) (by omega)).1,
    (digitChar_facts (m.year / 100 % 10) (by omega)).1, (digitChar_facts (m.year / 10 % 10) (by omega)).1,
    (digitChar_facts (m.year % 10) (by omega)).1, (digitChar_facts (m.month / 10) (by omega)).1,
    (digitChar_facts (m.month % 10) (by omega)).1⟩
  unfold Month.ym
  rw [zpad_four m.year hy, zpad_two m.month (by omega)]
  rfl

theorem yymm_digits (m : Month) (h : m.Valid) : ∃ a b c d : Char,
    m.yymm = [a, b, c, d] ∧ a.isDigit = true ∧ b.isDigit = true ∧ c.isDigit = true ∧ d.isDigit = true := by
  unfold Month.Valid at h
  refine ⟨_, _, _, _, ?_, (digitChar_facts (m.year % 100 / 10) (by omega)).1,
    (digitChar_facts (m.year % 100 % 10) (by omega)).1, (digitChar_facts (m.month / 10) (by omega)).1,
    (digitChar_facts (m.month % 10) (by omega)).1⟩
  unfold Month.yymm
  rw [zpad_two (m.year % 100) (by omega), zpad_two m.month (by omega)]
  rfl

theorem searchDate_zipName (symbol : List Char) (hs : '-' ∉ symbol) (m : Month) (h : m.Valid) (hy : m.year < 10000) :
    searchDate (zipName symbol m) = some m.ym := by
  obtain ⟨a, b, c, d, e, f, hm, ha, hb, hc, hd, he, hf⟩ := ym_digits m h hy
  have hz : zipName symbol m = symbol ++ '-' :: 't' :: (['r', 'a', 'd', 'e', 's', '-'] ++ m.ym ++ ".zip".toList) := by
    unfold zipName
    show symbol ++ ['-', 't', 'r', 'a', 'd', 'e', 's', '-'] ++ m.ym ++ ".zip".toList = _
    simp
  rw [hz, searchDate_symbol _ _ hs, hm]
  rw [searchDate_skip _ _ (by decide), searchDate_skip _ _ (by decide)]
  simp only [List.cons_append, List.nil_append]
  rw [searchDate_skip _ _ (by decide), searchDate_skip _ _ (by decide), searchDate_skip _ _ (by decide),
    searchDate_skip _ _ (by decide), searchDate_skip _ _ (by decide), searchDate_skip _ _ (by decide)]
  simp [searchDate, dateAt, ha, hb, hc, hd, he, hf]

theorem ym_injective (a b : Month) (ha : a.Valid) (hb : b.Valid) (hya : a.year < 10000) (hyb : b.year < 10000)
    (h : a.ym = b.ym) : a = b := by
  have h1 := C22_parse_ym ⟨2000, 1⟩ a ha hya
  have h2 := C22_parse_ym ⟨2000, 1⟩ b hb hyb
  rw [h, h2] at h1
  exact (Except.ok.inj h1).symm

/-- **C78.** For a symbol without a hyphen, the archive of month `m` is processed exactly when `m` is among the
selected months, and it is processed under its own date. -/
theorem C78_task_date (symbol : List Char) (hs : '-' ∉ symbol) (m : Month) (h : m.Valid) (hy : m.year < 10000)
    (months : List Month) (hne : months ≠ []) (hm : ∀ x ∈ months, x.Valid ∧ x.year < 10000) :
    taskDate none (months.map Month.ym) (zipName symbol m) = if m ∈ months then some m.ym else none := by
  unfold taskDate
  rw [searchDate_zipName symbol hs m h hy]
  have hmem : m.ym ∈ months.map Month.ym ↔ m ∈ months := by
    constructor
    · intro hx
      obtain ⟨x, hx, he⟩ := List.mem_map.mp hx
      obtain ⟨hv, hyx⟩ := hm x hx
      rw [← ym_injective x m hv h hyx hy he]
      exact hx
    · exact fun hx => List.mem_map.mpr ⟨m, hx, rfl⟩
  by_cases hin : m ∈ months
  · rw [if_pos hin]
    have : ¬ (months.map Month.ym ≠ [] ∧ m.ym ∉ months.map Month.ym) := fun hh => hh.2 (hmem.mpr hin)
    simp only [Bool.false_eq_true, if_false, if_neg this]
  · rw [if_neg hin]
    have : months.map Month.ym ≠ [] ∧ m.ym ∉ months.map Month.ym := ⟨by simpa using hne, fun hh => hin (hmem.mp hh)⟩
    simp only [Bool.false_eq_true, if_false, if_pos this]

example : '-' ∉ "BTCUSDT".toList ∧ (⟨2024, 3⟩ : Month).Valid ∧ ∀ x ∈ [(⟨2024, 2⟩ : Month), ⟨2024, 3⟩], x.Valid ∧ x.year < 10000 := by
  unfold Month.Valid
  decide

/-- **C78 (limit).** With a hyphen in the symbol the date may be taken from the symbol. -/
theorem C78_hyphen_in_symbol :
    searchDate (zipName "AB1999-12".toList ⟨2023, 5⟩) = some "1999-12".toList := by decide +kernel

/-- **C78.** The two market tables accept the same spellings and agree, and neither depends on case or surrounding
white space. -/
theorem C78_markets (market : List Char) :
    (marketPath market = .ok "spot".toList ∧ marketLabel market = .ok "SPOT".toList) ∨
    (marketPath market = .ok "um".toList ∧ marketLabel market = .ok "PERPum".toList) ∨
    (marketPath market = .ok "cm".toList ∧ marketLabel market = .ok "PERPcm".toList) ∨
    ((∃ e, marketPath market = .error e) ∧ ∃ e, marketLabel market = .error e) := by
  unfold marketPath marketLabel
  dsimp only
  by_cases h1 : (strip market).map Char.toLower = "spot".toList
  · rw [if_pos h1, if_pos h1]; exact Or.inl ⟨rfl, rfl⟩
  · rw [if_neg h1, if_neg h1]
    by_cases h2 : (strip market).map Char.toLower ∈
        ["um".toList, "perpum".toList, "perp_um".toList, "usdm".toList, "usdsm".toList]
    · rw [if_pos h2, if_pos h2]; exact Or.inr (Or.inl ⟨rfl, rfl⟩)
    · rw [if_neg h2, if_neg h2]
      by_cases h3 : (strip market).map Char.toLower ∈ ["cm".toList, "perpcm".toList, "perp_cm".toList, "coinm".toList]
      · rw [if_pos h3, if_pos h3]; exact Or.inr (Or.inr (Or.inl ⟨rfl, rfl⟩))
      · rw [if_neg h3, if_neg h3]; exact Or.inr (Or.inr (Or.inr ⟨⟨_, rfl⟩, ⟨_, rfl⟩⟩))

example : marketLabel "SPOT".toList = .ok "SPOT".toList ∧ marketLabel "PERPum".toList = .ok "PERPum".toList ∧
    marketLabel " PERPcm ".toList = .ok "PERPcm".toList ∧ marketPath " Perp_UM".toList = .ok "um".toList := by
  decide +kernel

theorem mem_zpad_ne_slash (m : Month) (h : m.Valid) (hy : m.year < 10000) : '/' ∉ m.ym := by
  obtain ⟨a, b, c, d, e, f, hm, ha, hb, hc, hd, he, hf⟩ := ym_digits m h hy
  rw [hm]
  have hs : ∀ x : Char, x.isDigit = true → '/' ≠ x := by
    rintro x hx rfl
    exact absurd hx (by decide)
  simp only [List.mem_cons, List.not_mem_nil, or_false, not_or]
  exact ⟨hs a ha, hs b hb, hs c hc, hs d hd, by decide, hs e he, hs f hf⟩

/-- **C78.** The downloaded file is stored under the archive's own name: the last part of the URL, for any symbol
without a slash. -/
theorem C78_url_basename (market symbol : List Char) (hs : '/' ∉ symbol) (m : Month) (h : m.Valid)
    (hy : m.year < 10000) (urls : List Char × List Char) (hu : buildUrls market symbol m = .ok urls) :
    basename urls.1 = zipName symbol m ∧ urls.2 = urls.1 ++ ".CHECKSUM".toList := by
  unfold buildUrls at hu
  split at hu
  · cases hu
  · rename_i p _
    cases hu
    refine ⟨?_, rfl⟩
    have hz : ∀ x ∈ zipName symbol m, x ≠ '/' := by
      rintro x hx rfl
      unfold zipName at hx
      simp only [List.mem_append] at hx
      rcases hx with ((hx | hx) | hx) | hx
      · exact hs hx
      · revert hx; decide
      · exact mem_zpad_ne_slash m h hy hx
      · revert hx; decide
    have key : ∀ pre : List Char, basename (pre ++ "/".toList ++ zipName symbol m) = zipName symbol m := by
      intro pre
      unfold basename
      have : (pre ++ "/".toList ++ zipName symbol m).reverse = (zipName symbol m).reverse ++ '/' :: pre.reverse := by
        show (pre ++ ['/'] ++ zipName symbol m).reverse = _
        simp
      rw [this, List.takeWhile_append_of_pos (by
        intro x hx
        simpa using hz x (List.mem_reverse.mp hx))]
      simp
    exact key _

example : '/' ∉ "BTCUSDT".toList ∧ (⟨2024, 3⟩ : Month).Valid ∧ (buildUrls "um".toList "BTCUSDT".toList ⟨2024, 3⟩).isOk = true := by
  unfold Month.Valid
  decide +kernel

/-- **C78.** The range of months in a file name is read back. -/
theorem C78_parse_target (symbol label : List Char) (a b : Month) (ha : a.Valid) (hb : b.Valid) :
    parseRange (targetName symbol label a b) = (a.yymm, b.yymm) := by
  obtain ⟨a1, a2, a3, a4, hA, p1, p2, p3, p4⟩ := yymm_digits a ha
  obtain ⟨b1, b2, b3, b4, hB, q1, q2, q3, q4⟩ := yymm_digits b hb
  have hn : targetName symbol label a b = (symbol ++ "_".toList ++ label) ++
      ['_', a1, a2, a3, a4, '-', b1, b2, b3, b4, '.', 'h', '5'] := by
    unfold targetName
    rw [hA, hB]
    show symbol ++ "_".toList ++ label ++ ['_'] ++ [a1, a2, a3, a4] ++ ['-'] ++ [b1, b2, b3, b4] ++ ['.', 'h', '5'] = _
    simp
  have hd : (targetName symbol label a b).drop ((targetName symbol label a b).length - 13) =
      ['_', a1, a2, a3, a4, '-', b1, b2, b3, b4, '.', 'h', '5'] := by
    rw [hn, List.length_append]
    apply List.drop_left'
    simp
  unfold parseRange
  rw [hd, hA, hB]
  simp [p1, p2, p3, p4, q1, q2, q3, q4]

/-- **C78.** Within one century, comparing the two-digit renderings compares the months. -/
theorem C78_yymm_order (a b : Month) (ha : a.Valid) (hb : b.Valid) (hc : a.year / 100 = b.year / 100) :
    a.yymm < b.yymm ↔ a.num < b.num := by
  obtain ⟨ya, ma⟩ := a
  obtain ⟨yb, mb⟩ := b
  unfold Month.Valid at ha hb
  simp only at ha hb hc
  have hs : ∀ y mo, mo < 100 → Month.yymm ⟨y, mo⟩ = [Nat.digitChar (y % 100 / 10), Nat.digitChar (y % 100 % 10),
      Nat.digitChar (mo / 10), Nat.digitChar (mo % 10)] := by
    intro y mo h2
    unfold Month.yymm
    rw [zpad_two (y % 100) (by omega), zpad_two mo h2]; rfl
  rw [hs ya ma (by omega), hs yb mb (by omega)]
  have hlt : ∀ d e, d < 10 → e < 10 → (Nat.digitChar d < Nat.digitChar e ↔ d < e) := by
    intro d e hd he
    interval_cases d <;> interval_cases e <;> decide
  have heq : ∀ d e, d < 10 → e < 10 → (Nat.digitChar d = Nat.digitChar e ↔ d = e) := by
    intro d e hd he
    interval_cases d <;> interval_cases e <;> decide
  simp only [List.cons_lt_cons_iff, List.not_lt_nil, and_false, or_false]
  rw [hlt _ _ (by omega) (by omega), hlt _ _ (by omega) (by omega), hlt _ _ (by omega) (by omega),
    hlt _ _ (by omega) (by omega), heq _ _ (by omega) (by omega), heq _ _ (by omega) (by omega),
    heq _ _ (by omega) (by omega)]
  unfold Month.num
  simp only
  omega

example : (⟨2023, 12⟩ : Month).Valid ∧ (⟨2024, 3⟩ : Month).Valid ∧ 2023 / 100 = 2024 / 100 ∧ (⟨2023, 12⟩ : Month).num < (⟨2024, 3⟩ : Month).num := by
  unfold Month.Valid
  decide

/-- **C78 (limit).** Across a century the comparison fails: a file ending in 2099 is not extended to 2100. -/
theorem C78_century : (⟨2099, 12⟩ : Month).num < (⟨2100, 1⟩ : Month).num ∧
    ¬ (⟨2099, 12⟩ : Month).yymm < (⟨2100, 1⟩ : Month).yymm := by
  decide +kernel

/-- **C78.** A renamed file has the target's symbol, market and start in its name and a strictly earlier end. -/
theorem C78_extends_prefix (names : List (List Char)) (symbol label yStart yEnd path : List Char)
    (h : toExtend names symbol label yStart yEnd = some path) :
    path ∈ names ∧ (parseRange path).1 = yStart ∧ (parseRange path).2 < yEnd ∧
    ((symbol.map Char.toUpper ++ "_".toList ++ label ++ "_".toList).map Char.toUpper) <+: path.map Char.toUpper := by
  unfold toExtend at h
  have hp := List.find?_some h
  have hm := List.mem_of_find?_eq_some h
  rw [(List.perm_insertionSort _ _).mem_iff, List.mem_filter] at hm
  simp only [Bool.and_eq_true, beq_iff_eq, decide_eq_true_eq] at hp
  refine ⟨hm.1, hp.1.1, hp.2, ?_⟩
  have := hm.2
  unfold isExisting at this
  simp only [Bool.and_eq_true] at this
  exact List.isPrefixOf_iff_prefix.mp this.2

example : toExtend ["BTCUSDT_um_2301-2306.h5".toList, "BTCUSDT_um_2302-2305.h5".toList] "btcusdt".toList "um".toList "2301".toList "2307".toList =
    some "BTCUSDT_um_2301-2306.h5".toList := by decide +kernel

/-- **C78.** Effect of the renaming on a directory with distinct names: the target holds what the renamed file held,
every other file is unchanged; so what an existing target held before is lost. -/
theorem C78_rename {D : Type} (path target : List Char) (hpt : path ≠ target) (dir : List (List Char × D))
    (hnd : (dir.map Prod.fst).Nodup) (d : D) (hd : (path, d) ∈ dir) (n : List Char) (x : D) :
    (n, x) ∈ osReplace path target dir ↔ (n = target ∧ x = d) ∨ (n ≠ target ∧ n ≠ path ∧ (n, x) ∈ dir) := by
  have huniq : ∀ y, (path, y) ∈ dir → y = d := by
    intro y hy
    have := List.inj_on_of_nodup_map hnd hy hd rfl
    exact (Prod.mk.inj this).2
  unfold osReplace
  simp only [List.mem_map, List.mem_filter]
  constructor
  · rintro ⟨e, ⟨he, hk⟩, hx⟩
    by_cases hep : e.1 = path
    · rw [if_pos hep] at hx
      cases hx
      refine Or.inl ⟨rfl, huniq e.2 ?_⟩
      rw [← hep]; exact he
    · rw [if_neg hep] at hx
      subst hx
      simp only [ne_eq, hep, decide_false, Bool.or_false, decide_not, Bool.not_eq_true', decide_eq_false_iff_not] at hk
      exact Or.inr ⟨hk, hep, he⟩
  · rintro (⟨rfl, rfl⟩ | ⟨h1, h2, h3⟩)
    · exact ⟨(path, x), ⟨hd, by simp⟩, by simp⟩
    · exact ⟨(n, x), ⟨h3, by simp [h1]⟩, by simp [h2]⟩

example : ("a".toList ≠ "b".toList) ∧ (([("a".toList, 1), ("b".toList, 2)] : List (List Char × Nat)).map Prod.fst).Nodup ∧
    ("a".toList, 1) ∈ [("a".toList, 1), ("b".toList, 2)] := by decide

/-- **C78.** Renaming loses nothing when the target does not exist yet. -/
theorem C78_rename_keeps {D : Type} (symbol label yStart yEnd target : List Char) (dir : List (List Char × D))
    (hnd : (dir.map Prod.fst).Nodup) (ht : target ∉ dir.map Prod.fst) (n : List Char) (x : D) (hx : (n, x) ∈ dir) :
    (n, x) ∈ extendRename symbol label yStart yEnd target dir ∨
      (target, x) ∈ extendRename symbol label yStart yEnd target dir := by
  unfold extendRename
  cases he : toExtend (dir.map Prod.fst) symbol label yStart yEnd with
  | none => exact Or.inl hx
  | some path =>
    dsimp only
    by_cases hpt : path ≠ target
    · rw [if_pos hpt]
      obtain ⟨hm, _⟩ := C78_extends_prefix _ _ _ _ _ _ he
      obtain ⟨⟨q, d⟩, hq, rfl⟩ := List.mem_map.mp hm
      by_cases hn : n = q
      · subst hn
        exact Or.inr ((C78_rename n target hpt dir hnd x hx target x).mpr (Or.inl ⟨rfl, rfl⟩))
      · refine Or.inl ((C78_rename q target hpt dir hnd d hq n x).mpr (Or.inr ⟨?_, hn, hx⟩))
        rintro rfl
        exact ht (List.mem_map.mpr ⟨(n, x), hx, rfl⟩)
    · rw [if_neg hpt]; exact Or.inl hx

/-- **C78 (finding).** With both a shorter file and the full-range file present, the full-range file is replaced by
the shorter one. -/
theorem C78_rename_overwrites :
    extendRename "BTCUSDT".toList "SPOT".toList "2301".toList "2303".toList "BTCUSDT_SPOT_2301-2303.h5".toList
      [("BTCUSDT_SPOT_2301-2302.h5".toList, [1, 2]), ("BTCUSDT_SPOT_2301-2303.h5".toList, [1, 2, 3])] =
      [("BTCUSDT_SPOT_2301-2303.h5".toList, [1, 2])] := by
  decide +kernel

/-! ## C79: download -/

theorem downloadFile_source {D : Type} : ∀ (as : List (Attempt D)) (file : Option D) (z : D),
    (downloadFile as file).2 = some z → Attempt.done z ∈ as ∨ Attempt.broken (some z) ∈ as ∨ file = some z := by
  intro as
  induction as with
  | nil => intro file z h; exact Or.inr (Or.inr h)
  | cons a as ih =>
    intro file z h
    cases a with
    | notFound => exact Or.inr (Or.inr h)
    | done c => simp only [downloadFile, Option.some.injEq] at h; subst h; exact Or.inl (by simp)
    | broken w =>
      cases as with
      | nil =>
        simp only [downloadFile] at h
        cases w with
        | none => exact Or.inr (Or.inr h)
        | some v => simp at h; subst h; exact Or.inr (Or.inl (by simp))
      | cons b as =>
        simp only [downloadFile] at h
        rcases ih _ z h with h | h | h
        · exact Or.inl (by simp [h])
        · exact Or.inr (Or.inl (by simp [h]))
        · cases w with
          | none => exact Or.inr (Or.inr h)
          | some v => simp at h; subst h; exact Or.inr (Or.inl (by simp))

theorem downloadFile_no {D : Type} : ∀ (as : List (Attempt D)) (file : Option D) (z : D),
    (downloadFile as file).1 = .no → (downloadFile as file).2 = some z →
    Attempt.broken (some z) ∈ as ∨ file = some z := by
  intro as
  induction as with
  | nil => intro file z _ h2; exact Or.inr h2
  | cons a as ih =>
    intro file z h1 h2
    cases a with
    | notFound => exact Or.inr h2
    | done c => simp [downloadFile] at h1
    | broken w =>
      cases as with
      | nil => simp [downloadFile] at h1
      | cons b as =>
        simp only [downloadFile] at h1 h2
        rcases ih _ z h1 h2 with h | h
        · exact Or.inl (by simp [h])
        · cases w with
          | none => exact Or.inr h
          | some v => simp at h; subst h; exact Or.inl (by simp)

/-- **C79.** After the download phase, an archive that is present either passes verification against the checksum file
that is present, or is what the one re-download delivered, or is the remains of an interrupted transfer. -/
theorem C79_archive_origin {D : Type} (verify : D → Option D → Bool) (first chkTry second : List (Attempt D))
    (s s' : MonthFiles D) (h : downloadMonth verify first chkTry second s = some s') (z : D) (hz : s'.zip = some z) :
    verify z s'.chk = true ∨ Attempt.done z ∈ second ∨
      Attempt.broken (some z) ∈ second ∨ (s.zip = none ∧ Attempt.broken (some z) ∈ first) := by
  unfold downloadMonth at h
  have hmain : ∀ (z0 : D), (if verify z0 (match s.chk with | some c => some c | none => (downloadFile chkTry none).2) then
        some (⟨some z0, match s.chk with | some c => some c | none => (downloadFile chkTry none).2⟩ : MonthFiles D)
      else some ⟨(downloadFile second none).2, match s.chk with | some c => some c | none => (downloadFile chkTry none).2⟩)
        = some s' →
      verify z s'.chk = true ∨ Attempt.done z ∈ second ∨
      Attempt.broken (some z) ∈ second ∨ (s.zip = none ∧ Attempt.broken (some z) ∈ first) := by
    intro z0 hh
    split_ifs at hh with hv
    · cases hh
      cases hz
      exact Or.inl hv
    · cases hh
      rcases downloadFile_source second none z hz with h1 | h1 | h1
      · exact Or.inr (Or.inl h1)
      · exact Or.inr (Or.inr (Or.inl h1))
      · cases h1
  cases hs : s.zip with
  | some z0 =>
    rw [hs] at h
    exact hs ▸ hmain z0 h
  | none =>
    rw [hs] at h
    dsimp only at h
    cases hd : downloadFile first none with
    | mk r f =>
      rw [hd] at h
      cases r with
      | raised => cases h
      | no =>
        cases h
        rcases downloadFile_no first none z (by rw [hd]) (by rw [hd]; exact hz) with h1 | h1
        · exact Or.inr (Or.inr (Or.inr ⟨rfl, h1⟩))
        · cases h1
      | yes =>
        cases f with
        | none => cases h; cases hz
        | some z0 => exact hs ▸ hmain z0 h

example : downloadMonth (fun z c => some z == c) [.done 1] [.done 2] [.done 3] (⟨none, none⟩ : MonthFiles Nat) = some ⟨some 3, some 2⟩ := by decide +kernel

/-- **C79.** An archive that is already there and verifies is neither downloaded again nor changed; one that fails
verification is deleted, and if the re-download finds nothing the month has no archive. -/
theorem C79_existing {D : Type} (verify : D → Option D → Bool) (first chkTry second : List (Attempt D)) (z c : D) :
    (verify z (some c) = true → downloadMonth verify first chkTry second ⟨some z, some c⟩ = some ⟨some z, some c⟩) ∧
    (verify z (some c) = false → ∀ rest, second = .notFound :: rest →
      downloadMonth verify first chkTry second ⟨some z, some c⟩ = some ⟨none, some c⟩) := by
  constructor
  · intro h; simp [downloadMonth, h]
  · rintro h rest rfl; simp [downloadMonth, h, downloadFile]

/-- **C79 (findings).** The re-downloaded archive is not verified in this phase; and an interrupted transfer followed
by "not found" leaves a part of an archive behind that counts as an available month. -/
theorem C79_unverified_archives :
    (∃ (verify : Nat → Option Nat → Bool) (first chkTry second : List (Attempt Nat)) (s s' : MonthFiles Nat) (z : Nat),
      downloadMonth verify first chkTry second s = some s' ∧ s'.zip = some z ∧ verify z s'.chk = false) ∧
    (∃ (verify : Nat → Option Nat → Bool) (first : List (Attempt Nat)) (s' : MonthFiles Nat),
      downloadMonth verify first [] [] ⟨none, none⟩ = some s' ∧ (∀ z, Attempt.done z ∉ first) ∧ s'.zip ≠ none) := by
  refine ⟨⟨fun z c => c == some z, [], [], [.done 2], ⟨some 1, some 3⟩, ⟨some 2, some 3⟩, 2, ?_, ?_, ?_⟩,
    ⟨fun _ _ => true, [.broken (some 1), .notFound], ⟨some 1, none⟩, ?_, ?_, ?_⟩⟩
  · decide
  · decide
  · decide
  · decide
  · simp
  · simp

theorem hexChar_word (c : Char) (h : hexChar c = true) : wordChar c = true := by
  unfold hexChar at h
  unfold wordChar Char.isAlphanum Char.isAlpha Char.isUpper Char.isLower
  simp only [Bool.or_eq_true, Bool.and_eq_true, decide_eq_true_eq] at h ⊢
  rcases h with (h | h) | h
  · exact Or.inl (Or.inr h)
  · refine Or.inl (Or.inl (Or.inr ?_))
    have h1 : 'a'.toNat ≤ c.toNat := h.1
    have h2 : c.toNat ≤ 'f'.toNat := h.2
    constructor
    · show 97 ≤ c.val.toNat
      exact h1
    · show c.val.toNat ≤ 122
      have : 'f'.toNat = 102 := by decide
      have h3 : c.val.toNat ≤ 102 := h2
      omega
  · refine Or.inl (Or.inl (Or.inl ?_))
    have h1 : 'A'.toNat ≤ c.toNat := h.1
    have h2 : c.toNat ≤ 'F'.toNat := h.2
    constructor
    · show 65 ≤ c.val.toNat
      exact h1
    · show c.val.toNat ≤ 90
      have h3 : c.val.toNat ≤ 70 := h2
      omega

theorem wordsOf_word : ∀ (u : List Char) (c : Char) (rest : List Char), u ≠ [] → (∀ x ∈ u, wordChar x = true) →
    wordChar c = false → wordsOf (u ++ c :: rest) = u :: wordsOf rest := by
  intro u
  induction u with
  | nil => intro c rest h; exact absurd rfl h
  | cons x u ih =>
    intro c rest _ hu hc
    have hx := hu x (by simp)
    cases u with
    | nil => simp [wordsOf, hx, hc]
    | cons y u =>
      have hy := hu y (by simp)
      have hrec := ih c rest (by simp) (fun z hz => hu z (by simp [hz])) hc
      show wordsOf (x :: y :: (u ++ c :: rest)) = _
      rw [wordsOf]
      simp only [hx, hy, if_true]
      rw [show y :: (u ++ c :: rest) = y :: u ++ c :: rest from rfl, hrec]

/-- **C79.** A checksum file that starts with 64 hexadecimal digits and a blank, as `sha256sum` writes it, yields that
digest in lower case, whatever follows. -/
theorem C79_digest (d rest : List Char) (hl : d.length = 64) (hx : ∀ c ∈ d, hexChar c = true) :
    readDigest (some (d ++ ' ' :: rest)) = some (d.map Char.toLower) := by
  unfold readDigest hexWords
  dsimp only
  rw [wordsOf_word d ' ' rest (by rintro rfl; simp at hl) (fun c hc => hexChar_word c (hx c hc)) (by decide)]
  rw [List.filter_cons_of_pos (by simp only [hl, beq_self_eq_true, Bool.true_and, List.all_eq_true]; exact hx)]

example : (List.replicate 60 'a' ++ "09AF".toList).length = 64 ∧ ∀ c ∈ List.replicate 60 'a' ++ "09AF".toList, hexChar c = true := by decide

/-- **C79.** A digest is only ever a word of 64 or 32 hexadecimal digits of the file; without one there is none, and
verification is skipped (C52). -/
theorem C79_digest_word (content d : List Char) (h : readDigest (some content) = some d) :
    ∃ w ∈ wordsOf content, d = w.map Char.toLower ∧ (w.length = 64 ∨ w.length = 32) ∧ ∀ c ∈ w, hexChar c = true := by
  unfold readDigest at h
  dsimp only at h
  have key : ∀ n w ws, hexWords n content = w :: ws →
      w ∈ wordsOf content ∧ w.length = n ∧ ∀ c ∈ w, hexChar c = true := by
    intro n w ws hw
    have hm : w ∈ hexWords n content := by rw [hw]; simp
    unfold hexWords at hm
    rw [List.mem_filter] at hm
    simp only [Bool.and_eq_true, beq_iff_eq, List.all_eq_true] at hm
    exact ⟨hm.1, hm.2.1, hm.2.2⟩
  split at h
  · rename_i w ws hw
    cases h
    obtain ⟨h1, h2, h3⟩ := key 64 w ws hw
    exact ⟨w, h1, rfl, Or.inl h2, h3⟩
  · split at h
    · rename_i w ws hw
      cases h
      obtain ⟨h1, h2, h3⟩ := key 32 w ws hw
      exact ⟨w, h1, rfl, Or.inr h2, h3⟩
    · cases h

example : readDigest (some "0123456789abcdef0123456789ABCDEF  f.zip".toList) =
    some "0123456789abcdef0123456789abcdef".toList ∧ readDigest (some "no digest".toList) = none := by
  decide +kernel

end FinML
