import Mathlib.Data.Rat.Floor
import Mathlib.Data.List.Basic

/-!
# The link visualizer: link matrices, links and the picture they are drawn into

Models `extra/link-visualizer/create_link_svg.py`.

Simplifications: white space and digits are the ASCII ones; the values (dBm, read with `float`) are
optionally signed decimals, other spellings are taken as the error they would mostly be; the
arithmetic on them is exact (sums of two numbers of a few digits, floor division by 2 and 5); log
messages are left out.  Files are texts with `\n` as line ends.
-/

namespace Verif.Model

/-- The exceptions of the script: an empty matrix (`data[0]`, create_link_svg.py l.168), `assert` (l.169), a row that
does not match (`m[1]`, l.173), `float` (l.178), an unknown node (`NODES[..]`, l.57, l.84). -/
inductive LinkErr
  | indexError | assertionError | typeError | valueError | keyError
deriving DecidableEq, Repr

/-- White space of `isspace`, `strip` and `\s`.  Used in `extract_rssi_data`, create_link_svg.py l.155-179. -/
def lkSpace (c : Char) : Bool :=
  c == ' ' || c == '\t' || c == '\n' || c == '\r' || c == '\x0b' || c == '\x0c'

/-- `file.readlines()` (create_link_svg.py l.99, l.159): lines with their line ends. -/
def readLines : List Char → List (List Char)
  | [] => []
  | c :: cs =>
    if c = '\n' then [c] :: readLines cs
    else match readLines cs with
      | [] => [[c]]
      | l :: ls => (c :: l) :: ls

/-! ## Reading the link matrix (l.155-179) -/

/-- `needle in text`.  Used in `extract_rssi_data`, create_link_svg.py l.155-179. -/
def hasInfix (needle : List Char) : List Char → Bool
  | [] => needle.isEmpty
  | c :: cs => needle.isPrefixOf (c :: cs) || hasInfix needle cs

/-- The line that announces a matrix (create_link_svg.py l.164). -/
def matrixTitle : List Char := "link matrix:".toList

/-- `"link matrix:" in line.lower()` (create_link_svg.py l.164). -/
def isTitle (l : List Char) : Bool := hasInfix matrixTitle (l.map Char.toLower)

/-- The lines after the title up to the first blank one (create_link_svg.py l.158-165). -/
def matrixLines (ls : List (List Char)) : List (List Char) :=
  ((ls.dropWhile fun l => !isTitle l).drop 1).takeWhile fun l => !(!l.isEmpty && l.all lkSpace)

/-- Where a scan for `\s+(\d+)` is: nowhere, in white space that began at `a`, in a number that
belongs to white space that began at `a`.  Used in `extract_rssi_data`, create_link_svg.py l.155-179. -/
inductive ScanState
  | idle
  | space (a : ℕ)
  | number (a : ℕ) (v : ℕ)

/-- Value of one more digit.  Used in `extract_rssi_data`, create_link_svg.py l.155-179. -/
def addDigit (v : ℕ) (c : Char) : ℕ := 10 * v + (c.toNat - '0'.toNat)

/-- `[(int(m[1]), m.span()) for m in re.finditer(r"\s+(\d+)", ..)]` (create_link_svg.py l.168), from position `p` on. -/
def headSpans (p : ℕ) : ScanState → List Char → List (ℕ × ℕ × ℕ)
  | .number a v, [] => [(v, a, p)]
  | _, [] => []
  | .idle, c :: cs => headSpans (p + 1) (if lkSpace c then .space p else .idle) cs
  | .space a, c :: cs =>
    headSpans (p + 1)
      (if lkSpace c then .space a else if c.isDigit then .number a (addDigit 0 c) else .idle) cs
  | .number a v, c :: cs =>
    if c.isDigit then headSpans (p + 1) (.number a (addDigit v c)) cs
    else (v, a, p) :: headSpans (p + 1) (if lkSpace c then .space p else .idle) cs

/-- `re.match(r"^\s*(\d+)\s*\|", line)` (create_link_svg.py l.172): the number and the end of the match. -/
def rowLabel (l : List Char) : Option (ℕ × ℕ) :=
  let l1 := l.dropWhile lkSpace
  let ds := l1.takeWhile Char.isDigit
  let l2 := (l1.dropWhile Char.isDigit).dropWhile lkSpace
  match ds, l2 with
  | [], _ => none
  | _, '|' :: rest => some (ds.foldl addDigit 0, l.length - rest.length)
  | _, _ => none

/-- `strip()` (create_link_svg.py l.177). -/
def lkStrip (l : List Char) : List Char :=
  ((l.dropWhile lkSpace).reverse.dropWhile lkSpace).reverse

/-- `line[max(a, offset):b].strip()` (create_link_svg.py l.177). -/
def matrixCell (l : List Char) (offset a b : ℕ) : List Char :=
  lkStrip ((l.take b).drop (max a offset))

/-- Digits, at least one.  Used in `extract_rssi_data`, create_link_svg.py l.155-179. -/
def parseDigits (l : List Char) : Option ℕ :=
  if l ≠ [] ∧ l.all Char.isDigit then some (l.foldl addDigit 0) else none

/-- An unsigned decimal.  Used in `extract_rssi_data`, create_link_svg.py l.155-179. -/
def parseUnsigned (l : List Char) : Option ℚ :=
  let int := l.takeWhile (· ≠ '.')
  match l.dropWhile (· ≠ '.') with
  | [] => (parseDigits int).map fun n => (n : ℚ)
  | _ :: frac => do
    let n ← parseDigits int
    let f ← parseDigits frac
    pure ((n : ℚ) + f / 10 ^ frac.length)

/-- `float(v)` (create_link_svg.py l.179). -/
def parseRssi : List Char → Option ℚ
  | '-' :: l => (parseUnsigned l).map fun x => -x
  | '+' :: l => parseUnsigned l
  | l => parseUnsigned l

/-- `d[key] = v`: the value replaces that of the same key, or comes last.  Used in create_link_svg.py l.141-179. -/
def linkPut (d : List ((ℕ × ℕ) × ℚ)) (k : ℕ × ℕ) (v : ℚ) : List ((ℕ × ℕ) × ℚ) :=
  if (d.any fun e => e.1 == k) then d.map fun e => if e.1 = k then (k, v) else e
  else d ++ [(k, v)]

/-- The cells of one row (create_link_svg.py l.175-179). -/
def readRow (l : List Char) (n1 offset : ℕ) :
    List (ℕ × ℕ × ℕ) → List ((ℕ × ℕ) × ℚ) → Except LinkErr (List ((ℕ × ℕ) × ℚ))
  | [], d => .ok d
  | (n2, a, b) :: hs, d =>
    let t := matrixCell l offset a b
    if t.isEmpty then readRow l n1 offset hs d
    else match parseRssi t with
      | none => .error .valueError
      | some v => readRow l n1 offset hs (linkPut d (n1, n2) v)

/-- The rows (create_link_svg.py l.171-179). -/
def readRows (head : List (ℕ × ℕ × ℕ)) :
    List (List Char) → List ((ℕ × ℕ) × ℚ) → Except LinkErr (List ((ℕ × ℕ) × ℚ))
  | [], d => .ok d
  | l :: ls, d =>
    match rowLabel l with
    | none => .error .typeError
    | some (n1, offset) =>
      match readRow l n1 offset head d with
      | .error e => .error e
      | .ok d' => readRows head ls d'

/-- `extract_rssi_data` (create_link_svg.py l.155-180). -/
def extractRssi (text : List Char) : Except LinkErr (List ((ℕ × ℕ) × ℚ)) :=
  match matrixLines (readLines text) with
  | [] => .error .indexError
  | h :: rest =>
    let head := headSpans 0 .idle h
    if (head.length : ℤ) = (rest.length : ℤ) + 1 - 2 then readRows head (rest.drop 1) []
    else .error .assertionError

/-! ## Links (l.117-149) -/

/-- `line_width` (create_link_svg.py l.117-125). -/
def lineWidth (x : ℚ) : ℤ :=
  let y := ⌊(100 + x + 4) / 5⌋
  if x ≠ 0 ∧ y = 0 then 1
  else if y > 10 then 10
  else y

/-- `tpl_line_width` (create_link_svg.py l.128-131). -/
def tplLineWidth (t : ℚ × ℚ) : ℤ := lineWidth ⌊(t.1 + t.2) / 2⌋

/-- One turn of the loop (create_link_svg.py l.143-145): `setdefault`, then the entry of the direction. -/
def tplPut (d : List ((ℕ × ℕ) × ℚ × ℚ)) (e : (ℕ × ℕ) × ℚ) : List ((ℕ × ℕ) × ℚ × ℚ) :=
  let k := (min e.1.1 e.1.2, max e.1.1 e.1.2)
  let v := e.2
  let set := fun (t : ℚ × ℚ) => if e.1.2 > e.1.1 then (t.1, v) else (v, t.2)
  if (d.any fun x => x.1 == k) then d.map fun x => if x.1 = k then (k, set x.2) else x
  else d ++ [(k, set (v - 10, v - 10))]

/-- `rssi_tpls` (create_link_svg.py l.142-145). -/
def linkTpls (rssi : List ((ℕ × ℕ) × ℚ)) : List ((ℕ × ℕ) × ℚ × ℚ) := rssi.foldl tplPut []

/-- `NODES` (create_link_svg.py l.22-37); 9 is commented out. -/
def linkNodes : List (ℕ × ℤ × ℤ) :=
  [(1, 104, 110), (2, 207, 70), (3, 326, 31), (4, 326, 99), (5, 548, 69), (6, 669, 85),
   (7, 745, 177), (8, 620, 363), (10, 372, 395), (11, 197, 337), (12, 486, 375), (13, 640, 180),
   (14, 662, 225)]

/-- `NODES[node]` (create_link_svg.py l.57, l.84-85). -/
def nodeAt (n : ℕ) : Except LinkErr (ℤ × ℤ) :=
  match linkNodes.lookup n with
  | none => .error .keyError
  | some p => .ok p

/-- What a `<line/>` says (create_link_svg.py l.83-86). -/
structure SvgLine where
  p1 : ℤ × ℤ
  p2 : ℤ × ℤ
  width : ℤ
deriving DecidableEq, Repr

/-- `add_line` (create_link_svg.py l.83-89). -/
def genLine (n1 n2 : ℕ) (w : ℤ) : Except LinkErr SvgLine := do
  let p1 ← nodeAt n1
  let p2 ← nodeAt n2
  pure ⟨p1, p2, w⟩

/-- The lines of `add_links` (create_link_svg.py l.146-147). -/
def linkLines : List ((ℕ × ℕ) × ℚ × ℚ) → Except LinkErr (List SvgLine)
  | [] => .ok []
  | (k, t) :: ts => do
    let l ← genLine k.1 k.2 (tplLineWidth t)
    let ls ← linkLines ts
    pure (l :: ls)

/-- The text of a `<line/>` (create_link_svg.py l.86). -/
def lineText (l : SvgLine) : List Char :=
  (s!"<line x1=\"{l.p1.1}\" y1=\"{l.p1.2}\" x2=\"{l.p2.1}\" y2=\"{l.p2.2}\"" ++
    s!" style=\"stroke-width:{l.width}\"/>").toList

/-- The text of a node (create_link_svg.py l.56-61), both lines indented (l.73). -/
def nodeText (n : ℕ × ℤ × ℤ) : List Char :=
  (s!"<circle cx=\"{n.2.1}\" cy=\"{n.2.2}\" r=\"15\" style=\"fill:#FFFF00\"/>\n\t" ++
    s!"<text transform=\"translate({n.2.1},{n.2.2})\" dy=\".36em\" style=\"stroke:none\">{n.1}</text>").toList

/-- `"\n".join(..)`, each line indented by a tab (create_link_svg.py l.44-49, l.72-73, l.93-94). -/
def joinIndented : List (List Char) → List Char
  | [] => ['\t']
  | [l] => '\t' :: l
  | l :: ls => '\t' :: l ++ '\n' :: joinIndented ls

/-- The frames (create_link_svg.py l.67-71, l.92). -/
def nodesHead : List Char :=
  ("<g style=\"fill:#000000;stroke:#000000;stroke-width:1;" ++
    "font:bold 17px sans-serif;text-anchor:middle\">\n").toList
/-- Start of the group of lines (create_link_svg.py l.92). -/
def linesHead : List Char := "<g style=\"stroke:#0000FF\">\n".toList
/-- End of a group (create_link_svg.py l.66-73, l.91-94). -/
def groupTail : List Char := "\n</g>\n".toList

/-- What `add_nodes` inserts (create_link_svg.py l.134-138). -/
def nodesGroup : List Char :=
  '\n' :: (nodesHead ++ joinIndented (linkNodes.map nodeText) ++ groupTail)

/-- What `add_links` inserts (create_link_svg.py l.149). -/
def linesGroup (ls : List SvgLine) : List Char :=
  '\n' :: (linesHead ++ joinIndented (ls.map lineText) ++ groupTail)

/-! ## The picture (l.97-111) -/

/-- `line.strip().startswith(tag)` (create_link_svg.py l.104); no tag has white space in it. -/
def startsTag (tag l : List Char) : Bool := tag.isPrefixOf (l.dropWhile lkSpace)

/-- The tag looked for (create_link_svg.py l.97-111). -/
def svgTag : List Char := "<svg".toList
/-- The tag of the background (create_link_svg.py l.97-111). -/
def imageTag : List Char := "<image".toList

/-- Where the group goes (create_link_svg.py l.100-107): the second search begins at the line of the first. -/
def insertPos (ls : List (List Char)) : ℕ :=
  let i := ls.findIdx (startsTag svgTag)
  if i < ls.length then
    let j := i + (ls.drop i).findIdx (startsTag imageTag)
    if j < ls.length then j + 1 else i + 1
  else 0

/-- `update_svg` (create_link_svg.py l.97-111): text of the file written. -/
def updateSvg (group text : List Char) : List Char :=
  let ls := readLines text
  ((ls.take (insertPos ls)) ++ group :: ls.drop (insertPos ls)).flatten

/-- `add_nodes` (create_link_svg.py l.134-138). -/
def addNodes (text : List Char) : List Char := updateSvg nodesGroup text

/-- `add_links` (create_link_svg.py l.141-149): an unknown node stops it before anything is written. -/
def addLinks (rssi : List ((ℕ × ℕ) × ℚ)) (text : List Char) : Except LinkErr (List Char) :=
  match linkLines (linkTpls rssi) with
  | .error e => .error e
  | .ok ls => .ok (updateSvg (linesGroup ls) text)

/-- The script (create_link_svg.py l.186-206) with `draw_nodes`: the file it leaves, and the error it ends with. -/
def linkScript (svg : List Char) (log : Option (List Char)) : List Char × Option LinkErr :=
  let svg1 := addNodes svg
  match log with
  | none => (svg1, none)
  | some t =>
    match extractRssi t with
    | .error e => (svg1, some e)
    | .ok d =>
      match addLinks d svg1 with
      | .error e => (svg1, some e)
      | .ok svg2 => (svg2, none)

end Verif.Model
