import Verif.Model.Calendar

/-!
# The text of exported tables

Models the text that `save_csv` writes (`shepherd_data/shepherd_data/reader.py` l.67-93): the separator, the header and the lines; and that of `save_log` (l.116-126).  Which numbers and descriptions are written is in `Model/Export`.

Simplifications: texts are lists of characters; `str` of a number is a parameter; white space is that of ASCII; the byte order mark (`utf-8-sig`) and the translation of line ends on other systems are left out.
-/

namespace Verif.Model
open Verif.Py

/-- White space of ASCII.  Used by `strip`, reader.py l.67. -/
def isBlank (c : Char) : Bool := c = ' ' || c = '\t' || c = '\n' || c = '\r' || c = '\x0b' || c = '\x0c'

/-- `str.strip`.  Used in reader.py l.67. -/
def stripBlank (s : List Char) : List Char := ((s.dropWhile isBlank).reverse.dropWhile isBlank).reverse

/-- `separator.strip().ljust(2)` (reader.py l.67). -/
def csvSeparator (s : List Char) : List Char := stripBlank s ++ List.replicate (2 - (stripBlank s).length) ' '

/-- `str.replace`, from left to right; `skip` characters belong to the last place that was found.  Used in reader.py l.69. -/
def replaceFrom (old new : List Char) : ℕ → List Char → List Char
  | _, [] => []
  | skip + 1, _ :: t => replaceFrom old new skip t
  | 0, c :: t => if old.isPrefixOf (c :: t) then new ++ replaceFrom old new (old.length - 1) t else c :: replaceFrom old new 0 t

/-- `separator.join`.  Used in reader.py l.71, l.90. -/
def joinWith (sep : List Char) : List (List Char) → List Char
  | [] => []
  | [a] => a
  | a :: b :: t => a ++ sep ++ joinWith sep (b :: t)

/-- The header (reader.py l.68-71). -/
def headerText (sep : List Char) (descriptions : List (List Char)) : List Char := joinWith sep (descriptions.map (replaceFrom [',', ' '] sep 0))

/-- A line (reader.py l.84-93): the time, and for each dataset the separator and its values, joined by the separator. -/
def csvLineText (sep : List Char) (num : ℚ → List Char) (z : Zone) (row : ℤ × List (List ℚ)) : List Char :=
  rowStamp z row.1 ++ row.2.flatMap (fun values => sep ++ joinWith sep (values.map num))

/-- The text of the file (reader.py l.75, l.83-93). -/
def csvText (separator : List Char) (num : ℚ → List Char) (z : Zone) (file : CsvFile) : List Char :=
  headerText (csvSeparator separator) (file.header.map String.toList) ++ '\n' :: file.rows.flatMap (fun row => csvLineText (csvSeparator separator) num z row ++ ['\n'])

/-- A line of a log (reader.py l.116-126): the time stamp and a colon if wanted, and each message after a tabulator. -/
def logLineText (z : Zone) (line : Option ℤ × List String) : List Char :=
  (match line.1 with
    | none => []
    | some t => rowStamp z t ++ [':']) ++ line.2.flatMap (fun m => '\t' :: m.toList)

/-- The text of a log (reader.py l.116-126). -/
def logText (z : Zone) (lines : List (Option ℤ × List String)) : List Char := lines.flatMap (fun l => logLineText z l ++ ['\n'])

/-- How `repr` shows a byte of a byte string between quotes (Python's `bytes.__repr__`, which `str` uses at reader.py l.122, as h5py 3 reads texts as bytes). -/
def byteText (quote : Char) (b : ℕ) : List Char :=
  if b = quote.toNat ∨ b = 92 then ['\\', Char.ofNat b]
  else if b = 9 then ['\\', 't']
  else if b = 10 then ['\\', 'n']
  else if b = 13 then ['\\', 'r']
  else if b < 32 ∨ 127 ≤ b then ['\\', 'x', Nat.digitChar (b / 16), Nat.digitChar (b % 16)]
  else [Char.ofNat b]

/-- `str(message)` of a text from the file (reader.py l.122): double quotes only if it has single ones and no double ones. -/
def bytesText (l : List ℕ) : String :=
  let quote := if 39 ∈ l ∧ 34 ∉ l then '"' else '\''
  String.ofList ('b' :: quote :: l.flatMap (byteText quote) ++ [quote])

end Verif.Model
