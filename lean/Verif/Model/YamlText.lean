import Verif.Model.StampText

/-!
# Texts in the files of models

Models how a text gets into the files of models and back: `yaml.safe_dump` in `ShpModel.to_file` chooses between a plain and a quoted text and folds long lines, `yaml.safe_load` in
`ShpModel.from_file` takes them apart (`shepherd_core/shepherd_core/data_models/base/shepherd.py` l.143-147, l.160).  Functions of PyYAML are named in the comments.

Simplifications: texts without surrogates; values in block style, as with `default_flow_style=False` (l.145); the blank between a key and its value counts to the column; tabs in quoted texts of a file
are not blanks (the writer always escapes them).
-/

namespace Verif.Model
open Verif.Py

/-- Characters that count as blank for the scanner.  Used in base/shepherd.py l.143-147, l.160. -/
def isWs (c : Char) : Bool := c = ' ' || c = '\t' || c = '\n' || c = '\r' || c = '\x00'

/-- A blank or the end follows.  Used in base/shepherd.py l.143-147, l.160. -/
def followed : List Char → Bool
  | [] => true
  | c :: _ => isWs c

/-- `---` or `...` at the start.  Used in base/shepherd.py l.143-147, l.160. -/
def markAt (t : List Char) : Bool := t.take 3 = ['-', '-', '-'] || t.take 3 = ['.', '.', '.']

/-- `analyze_scalar`: an indicator after the first character; the flag tells whether a blank is before.  Used in base/shepherd.py l.143-147. -/
def laterIndicator : Bool → List Char → Bool
  | _, [] => false
  | p, c :: r => (c = ':' && followed r) || (c = '#' && p) || laterIndicator (isWs c) r

/-- `analyze_scalar`: an indicator at the start.  Used in base/shepherd.py l.143-147. -/
def firstIndicator : List Char → Bool
  | [] => false
  | c :: r => c ∈ "#,[]{}&*!|>'\"%@`".toList || (c ∈ "?:".toList && followed r) || (c = '-' && followed r)

/-- `analyze_scalar`: `allow_block_plain` of a text that is not empty.  Used in base/shepherd.py l.143-147. -/
def plainOk : List Char → Bool
  | [] => false
  | c :: r => !(c = ' ') && !((c :: r).getLast (by simp) = ' ') && !markAt (c :: r) && !firstIndicator (c :: r) && !laterIndicator (isWs c) r

/-- What is written for `k` blanks before a word, and the column after it: a single blank after column 80 becomes a new line (`write_plain`, `write_single_quoted`).  Used in base/shepherd.py l.143-147. -/
def writeBlanks (indent col k : ℕ) (may : Bool) : List Char × ℕ :=
  if k = 1 ∧ 80 < col ∧ may = true then ('\n' :: List.replicate indent ' ', indent) else (List.replicate k ' ', col + k)

/-- `write_plain` with `k` blanks not written yet.  Used in base/shepherd.py l.143-147. -/
def writePlain (indent : ℕ) : ℕ → ℕ → List Char → List Char
  | col, k, [] => (writeBlanks indent col k true).1
  | col, k, c :: r =>
    if c = ' ' then writePlain indent col (k + 1) r
    else (writeBlanks indent col k true).1 ++ c :: writePlain indent ((writeBlanks indent col k true).2 + 1) 0 r

/-- What is not written yet: blanks or line breaks.  Used in base/shepherd.py l.143-147. -/
inductive Gap
  | blanks (k : ℕ)
  | breaks (n : ℕ)

/-- What `write_single_quoted` writes for a gap, and the column after it: a line break more than there are in the text.  Used in base/shepherd.py l.143-147. -/
def writeGap (indent col : ℕ) (may : Bool) : Gap → List Char × ℕ
  | .blanks k => writeBlanks indent col k may
  | .breaks n => (List.replicate (n + 1) '\n' ++ List.replicate indent ' ', indent)

/-- `write_single_quoted` after the first quote, with a gap not written yet; blanks at the start and at the end are not folded.  Used in base/shepherd.py l.143-147. -/
def writeQuoted (indent : ℕ) : Bool → ℕ → Gap → List Char → List Char
  | _, col, g, [] => (writeGap indent col false g).1 ++ ['\'']
  | started, col, g, c :: r =>
    if c = ' ' then
      match g with
      | .blanks k => writeQuoted indent started col (.blanks (k + 1)) r
      | .breaks n => (writeGap indent col started (.breaks n)).1 ++ writeQuoted indent true indent (.blanks 1) r
    else if c = '\n' then
      match g with
      | .blanks k => (writeBlanks indent col k started).1 ++ writeQuoted indent true (writeBlanks indent col k started).2 (.breaks 1) r
      | .breaks n => writeQuoted indent started col (.breaks (n + 1)) r
    else if c = '\'' then (writeGap indent col started g).1 ++ '\'' :: '\'' :: writeQuoted indent true ((writeGap indent col started g).2 + 2) (.blanks 0) r
    else (writeGap indent col started g).1 ++ c :: writeQuoted indent true ((writeGap indent col started g).2 + 1) (.blanks 0) r

/-- `ESCAPE_REPLACEMENTS` of the emitter.  Used in base/shepherd.py l.143-147. -/
def escTable : List (Char × Char) :=
  [('\x00', '0'), ('\x07', 'a'), ('\x08', 'b'), ('\x09', 't'), ('\x0A', 'n'), ('\x0B', 'v'), ('\x0C', 'f'), ('\x0D', 'r'), ('\x1B', 'e'), ('"', '"'), ('\\', '\\'),
    ('\u0085', 'N'), ('\u00A0', '_'), ('\u2028', 'L'), ('\u2029', 'P')]

/-- Hexadecimal digit, upper case.  Used in base/shepherd.py l.143-147. -/
def hexUpper (n : ℕ) : Char := Char.ofNat (if n % 16 < 10 then 48 + n % 16 else 55 + n % 16)

/-- `%02X`, `%04X` and `%08X`.  Used in base/shepherd.py l.143-147. -/
def hexDigits : ℕ → ℕ → List Char
  | 0, _ => []
  | k + 1, n => hexUpper (n / 16 ^ k) :: hexDigits k n

/-- What `write_double_quoted` writes after the backslash.  Used in base/shepherd.py l.143-147. -/
def escCode (c : Char) : List Char :=
  match escTable.find? (fun p => p.1 = c) with
  | some p => [p.2]
  | none => if c.toNat ≤ 0xFF then 'x' :: hexDigits 2 c.toNat else if c.toNat ≤ 0xFFFF then 'u' :: hexDigits 4 c.toNat else 'U' :: hexDigits 8 c.toNat

/-- Characters `write_double_quoted` writes as they are.  Used in base/shepherd.py l.143-147. -/
def asItIs (c : Char) : Bool := ' ' ≤ c && c ≤ '~' && !(c = '"') && !(c = '\\')

/-- The end of a line in the middle of a double quoted text; a backslash more if a blank comes next.  Used in base/shepherd.py l.143-147. -/
def escBreak (indent : ℕ) (blank : Bool) : List Char × ℕ :=
  if blank then ('\\' :: '\n' :: (List.replicate indent ' ' ++ ['\\']), indent + 1) else ('\\' :: '\n' :: List.replicate indent ' ', indent)

/-- `write_double_quoted` after the first quote; `fresh`: nothing is waiting to be written.  Used in base/shepherd.py l.143-147. -/
def writeDouble (indent : ℕ) : Bool → Bool → ℕ → List Char → List Char
  | _, _, _, [] => ['"']
  | started, fresh, col, c :: r =>
    if asItIs c then
      if started = true ∧ r ≠ [] ∧ (c = ' ' ∨ fresh = true) ∧ 80 < col then
        (escBreak indent (c = ' ')).1 ++ c :: writeDouble indent true false ((escBreak indent (c = ' ')).2 + 1) r
      else c :: writeDouble indent true false (col + 1) r
    else if started = true ∧ r ≠ [] ∧ 80 < col + (escCode c).length then
      '\\' :: escCode c ++ ((escBreak indent (r.head? = some ' ')).1 ++ writeDouble indent true true (escBreak indent (r.head? = some ' ')).2 r)
    else '\\' :: escCode c ++ writeDouble indent true true (col + (escCode c).length + 1) r

/-- `analyze_scalar`: characters that need a double quoted text.  Used in base/shepherd.py l.143-147. -/
def specialText (t : List Char) : Bool := t.any (fun c => !(c = '\n') && !(' ' ≤ c && c ≤ '~'))

/-- `analyze_scalar`: blanks next to line breaks.  Used in base/shepherd.py l.143-147. -/
def mixedGaps : List Char → Bool
  | [] => false
  | c :: r => (c = ' ' && r.head? = some '\n') || (c = '\n' && r.head? = some ' ') || mixedGaps r

/-- `choose_scalar_style` and the writers; `isStr` tells whether a plain text would be taken for a text when read (`Resolver.resolve`).  Used in base/shepherd.py l.143-147. -/
def writeText (isStr : List Char → Bool) (indent col : ℕ) (t : List Char) : List Char :=
  if specialText t || mixedGaps t then '"' :: writeDouble indent false true (col + 1) t
  else if plainOk t && !('\n' ∈ t) && isStr t then writePlain indent col 0 t
  else '\'' :: writeQuoted indent false (col + 1) (.blanks 0) t

/-- The blanks and line breaks before a word: `k` blanks, or one blank for a line break, or the further line breaks (`scan_plain_spaces`, `scan_flow_scalar_spaces`).  Used in base/shepherd.py l.160. -/
def pendText (f : Option ℕ) (k : ℕ) : List Char :=
  match f with
  | none => List.replicate k ' '
  | some 0 => [' ']
  | some n => List.replicate n '\n'

/-- The line is a document separator.  Used in base/shepherd.py l.160. -/
def docSep (t : List Char) : Bool := markAt t && followed (t.drop 3)

/-- The state after a further line break.  Used in base/shepherd.py l.160. -/
def foldMore : Option ℕ → Option ℕ
  | none => some 0
  | some n => some (n + 1)

/-- `scan_flow_scalar` after the first single quote: the text and what follows; none is an error.  Used in base/shepherd.py l.160. -/
def readQuoted : Option ℕ → ℕ → List Char → Option (List Char × List Char)
  | _, _, [] => none
  | f, k, c :: r =>
    if c = ' ' then readQuoted f (k + 1) r
    else if c = '\n' then (if docSep r then none else readQuoted (foldMore f) 0 r)
    else if c = '\'' then
      match r with
      | [] => some (pendText f k, [])
      | c2 :: r2 => if c2 = '\'' then (readQuoted none 0 r2).map (fun x => (pendText f k ++ '\'' :: x.1, x.2)) else some (pendText f k, c2 :: r2)
    else (readQuoted none 0 r).map (fun x => (pendText f k ++ c :: x.1, x.2))

/-- `ESCAPE_REPLACEMENTS` of the scanner.  Used in base/shepherd.py l.160. -/
def unescTable : List (Char × Char) :=
  [('0', '\x00'), ('a', '\x07'), ('b', '\x08'), ('t', '\x09'), ('\x09', '\x09'), ('n', '\x0A'), ('v', '\x0B'), ('f', '\x0C'), ('r', '\x0D'), ('e', '\x1B'), (' ', ' '), ('"', '"'),
    ('\\', '\\'), ('/', '/'), ('N', '\u0085'), ('_', '\u00A0'), ('L', '\u2028'), ('P', '\u2029')]

/-- The value of a hexadecimal digit.  Used in base/shepherd.py l.160. -/
def hexVal (c : Char) : Option ℕ :=
  if '0' ≤ c ∧ c ≤ '9' then some (c.toNat - 48) else if 'A' ≤ c ∧ c ≤ 'F' then some (c.toNat - 55) else if 'a' ≤ c ∧ c ≤ 'f' then some (c.toNat - 87) else none

/-- Where the scanner is in a double quoted text: after a gap, after a backslash, in a number, after a line that ended with a backslash.  Used in base/shepherd.py l.160. -/
inductive DMode
  | text (f : Option ℕ) (k : ℕ)
  | esc
  | hex (k acc : ℕ)
  | skip

/-- `scan_flow_scalar` after the first double quote: the text and what follows; none is an error.  Used in base/shepherd.py l.160. -/
def readDouble : DMode → List Char → Option (List Char × List Char)
  | _, [] => none
  | .text f k, c :: r =>
    if c = ' ' then readDouble (.text f (k + 1)) r
    else if c = '\n' then (if docSep r then none else readDouble (.text (foldMore f) 0) r)
    else if c = '"' then some (pendText f k, r)
    else if c = '\\' then (readDouble .esc r).map (fun x => (pendText f k ++ x.1, x.2))
    else (readDouble (.text none 0) r).map (fun x => (pendText f k ++ c :: x.1, x.2))
  | .esc, c :: r =>
    if c = 'x' then readDouble (.hex 2 0) r
    else if c = 'u' then readDouble (.hex 4 0) r
    else if c = 'U' then readDouble (.hex 8 0) r
    else if c = '\n' then (if docSep r then none else readDouble .skip r)
    else match unescTable.find? (fun p => p.1 = c) with
      | some p => (readDouble (.text none 0) r).map (fun x => (p.2 :: x.1, x.2))
      | none => none
  | .hex k acc, c :: r =>
    match hexVal c with
    | none => none
    | some v =>
      if k ≤ 1 then (readDouble (.text none 0) r).map (fun x => (Char.ofNat (16 * acc + v) :: x.1, x.2))
      else readDouble (.hex (k - 1) (16 * acc + v)) r
  | .skip, c :: r =>
    if c = ' ' then readDouble .skip r
    else if c = '\n' then (if docSep r then none else (readDouble .skip r).map (fun x => ('\n' :: x.1, x.2)))
    else if c = '"' then some ([], r)
    else if c = '\\' then readDouble .esc r
    else (readDouble (.text none 0) r).map (fun x => (c :: x.1, x.2))

/-- `scan_plain` at the column `col` in a block whose contents are indented by at least `indent`.  Used in base/shepherd.py l.160. -/
def readPlain (indent : ℕ) : Option ℕ → ℕ → ℕ → List Char → List Char × List Char
  | _, _, _, [] => ([], [])
  | f, k, col, c :: r =>
    if c = ' ' then readPlain indent f (k + 1) (col + 1) r
    else if c = '\n' then (if docSep r then ([], r) else readPlain indent (foldMore f) 0 0 r)
    else if pendText f k ≠ [] ∧ (c = '#' ∨ col < indent) then ([], c :: r)
    else if c = ':' ∧ followed r = true then ([], c :: r)
    else (pendText f k ++ c :: (readPlain indent none 0 (col + 1) r).1, (readPlain indent none 0 (col + 1) r).2)

/-- `check_plain`: a plain text can start here.  Used in base/shepherd.py l.160. -/
def checkPlain : List Char → Bool
  | [] => false
  | c :: r => !(isWs c || c ∈ "-?:,[]{}#&*!|>'\"%@`".toList) || (!followed r && c ∈ "-?:".toList)

/-- A value as read by `yaml.safe_load` (base/shepherd.py l.160): the text, whether it is taken for a text, and what follows.  None: it is something else or an error. -/
def readText (isStr : List Char → Bool) (indent col : ℕ) (t : List Char) : Option (List Char × Bool × List Char) :=
  match t with
  | '\'' :: r => (readQuoted none 0 r).map (fun x => (x.1, true, x.2))
  | '"' :: r => (readDouble (.text none 0) r).map (fun x => (x.1, true, x.2))
  | _ => if checkPlain t then some ((readPlain indent none 0 col t).1, isStr (readPlain indent none 0 col t).1, (readPlain indent none 0 col t).2) else none

end Verif.Model
