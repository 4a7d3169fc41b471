/-
Model of the month handling of `scripts/binance2h5.py:52-92` (`Month`, `parse_ym`, `month_range`), of the
checksum verification `:131-141`.  Strings are lists of characters.
-/
import Verif.Prelude

namespace FinML

/-- `scripts/binance2h5.py:53-56` `Month`. -/
structure Month where
  year : Nat
  month : Nat
deriving DecidableEq, Repr

/-- Python's `f"{n:0wd}"` for a non-negative integer. -/
def zpad (w n : Nat) : List Char :=
  let s := Nat.toDigits 10 n
  List.replicate (w - s.length) '0' ++ s

/-- `scripts/binance2h5.py:58-59` `Month.ym`. -/
def Month.ym (m : Month) : List Char := zpad 4 m.year ++ '-' :: zpad 2 m.month

/-- `scripts/binance2h5.py:61-62` `Month.yymm`. -/
def Month.yymm (m : Month) : List Char := zpad 2 (m.year % 100) ++ zpad 2 m.month

/-- `str.strip` restricted to ASCII white space. -/
def strip (s : List Char) : List Char :=
  ((s.dropWhile Char.isWhitespace).reverse.dropWhile Char.isWhitespace).reverse

/-- `int` of a string of ASCII digits. -/
def readNat (s : List Char) : Nat := s.foldl (fun a c => 10 * a + (c.toNat - 48)) 0

/-- One or two digits and nothing else: the last part `(\d{1,2})` of the regular expression. -/
def oneOrTwoDigits (s : List Char) : Bool := (s.length == 1 || s.length == 2) && s.all Char.isDigit

/-- `scripts/binance2h5.py:70`: `^(\d{4})(?:[-./]?(\d{1,2}))?$` (ASCII digits only): the year digits and the optional
month digits. -/
def matchYm (s : List Char) : Option (List Char × Option (List Char)) :=
  let y := s.take 4
  let rest := s.drop 4
  if y.length = 4 ∧ y.all Char.isDigit = true then
    match rest with
    | [] => some (y, none)
    | c :: cs =>
      if c = '-' ∨ c = '.' ∨ c = '/' then (if oneOrTwoDigits cs then some (y, some cs) else none)
      else if oneOrTwoDigits (c :: cs) then some (y, some (c :: cs)) else none
  else none

/-- `scripts/binance2h5.py:74`: the month number, 1 when absent. -/
def monthOf : Option (List Char) → Nat
  | none => 1
  | some d => readNat d

/-- `scripts/binance2h5.py:65-77` `parse_ym`; `today` is the current month. -/
def parseYm (today : Month) (s : List Char) : Except String Month :=
  let s := (strip s).map Char.toLower
  if s = ['n', 'o', 'w'] then .ok today
  else match matchYm s with
    | none => .error "Invalid date format"
    | some (y, mo) =>
      let mon := monthOf mo
      if mon < 1 ∨ mon > 12 then .error "Invalid month" else .ok ⟨readNat y, mon⟩

/-- Python tuple comparison `(y, m) <= (y', m')`. -/
def Month.le (a b : Month) : Bool := decide (a.year < b.year) || (decide (a.year = b.year) && decide (a.month ≤ b.month))

/-- `scripts/binance2h5.py:87-91`: the next month. -/
def Month.next (m : Month) : Month := if m.month = 12 then ⟨m.year + 1, 1⟩ else ⟨m.year, m.month + 1⟩

/-- `scripts/binance2h5.py:83-92`: the while loop, with a bound on the number of iterations. -/
def monthLoop (stop : Month) : Nat → Month → List Month
  | 0, _ => []
  | fuel + 1, m => if m.le stop then m :: monthLoop stop fuel m.next else []

/-- `scripts/binance2h5.py:80-92` `month_range`.  The loop runs at most once per month between the end points; for
valid months the bound is never reached (`C22_fuel_irrelevant`). -/
def monthRange (start stop : Month) : Except String (List Month) :=
  if !start.le stop then .error "end must be >= start"
  else .ok (monthLoop stop (12 * (stop.year - start.year) + 13) start)

/-- `scripts/binance2h5.py:131-141` `verify_zip_checksum`: `digest` is the digest read from the checksum file (if any),
`hashes` the digests of the archive (sha256 then md5; `none` when hashing failed). -/
def verifyChecksum (digest : Option String) (hashes : List (Option String)) : Bool :=
  match digest with
  | none => true
  | some d => hashes.any (fun h => match h with | none => false | some c => c == d)

end FinML
