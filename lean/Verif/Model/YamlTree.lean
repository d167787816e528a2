import Verif.Model.YamlTypes
import Verif.Model.FwTools

/-!
# Whole files of models

Models the layout of nested values in `yaml.safe_dump(.., default_flow_style=False, sort_keys=False)` of `ShpModel.to_file` (`shepherd_core/shepherd_core/data_models/base/shepherd.py` l.143-147) and how `yaml.safe_load` in
`ShpModel.from_file` (l.160) finds the structure from columns and indicators.

Simplifications: keys are written without quotes and on one line (names of fields); the same object is not put in twice (no anchors); the reader knows the block style, `[]` and `{}`, but no comments, other tags than that of bytes, `?`, `>` and filled flow
collections: those give none.  Each nested call takes one from a budget, as recursion is bounded in Python.
-/

namespace Verif.Model
open Verif.Py

/-- Blanks and line breaks are skipped before a token (`scan_to_next_token`).  Used in base/shepherd.py l.160. -/
def skipBlank (t : List Char) : List Char := t.dropWhile (fun c => c = ' ' || c = '\n')

/-- `base64.encodebytes` in `represent_binary`: lines of 57 bytes; characters are given by their codes.  Used in base/shepherd.py l.143-147. -/
def byteCodes (b : List ℕ) : List ℕ := if h : b = [] then [] else b64Encode (b.take 57) ++ 10 :: byteCodes (b.drop 57)
termination_by b.length
decreasing_by
  have := List.length_pos_of_ne_nil h
  rw [List.length_drop]
  omega

/-- The text for bytes.  Used in base/shepherd.py l.143-147. -/
def binaryText (b : List ℕ) : Name := (byteCodes b).map Char.ofNat

/-- `construct_yaml_binary`: `base64.decodebytes`.  Used in base/shepherd.py l.160. -/
def readBinary (t : List Char) : Except PyErr (List ℕ) := b64Decode (t.map Char.toNat)

/-- `write_literal` of a text whose lines are not empty and all end with a line break; the last break is that before the next line.  The flag: at the start of a line.  Used in base/shepherd.py l.143-147. -/
def writeLit (w : ℕ) : Bool → List Char → List Char
  | _, [] => []
  | true, c :: r => '\n' :: (List.replicate w ' ' ++ c :: writeLit w false r)
  | false, c :: r => if c = '\n' then writeLit w true r else c :: writeLit w false r

mutual
/-- `expect_node` of the emitter after `key:` (the flag is false) or after `-`, in a block at the column `c`: empty collections in flow style, sequences in mappings are not indented further, the first entry in a sequence is on the same
line; bytes have a tag and literal style.  Used in base/shepherd.py l.143-147. -/
def writeNode (dash : Bool) (c col : ℕ) : YNode → List Char
  | .scalar tag t => if tag = .binary then ' ' :: ("!!binary |".toList ++ writeLit (c + 2) true t) else ' ' :: writeText (fun t => resolveTag t = some tag) (c + 2) (col + 1) t
  | .seq .nil => [' ', '[', ']']
  | .map .nil => [' ', '{', '}']
  | .seq (.cons x l) => if dash then ' ' :: writeSeq false (c + 2) (.cons x l) else writeSeq true c (.cons x l)
  | .map (.cons k x l) => if dash then ' ' :: writeMap false (c + 2) (.cons k x l) else writeMap true (c + 2) (.cons k x l)
/-- `expect_block_sequence_item`.  Used in base/shepherd.py l.143-147. -/
def writeSeq (brk : Bool) (c : ℕ) : YNodes → List Char
  | .nil => []
  | .cons x l => (if brk then '\n' :: List.replicate c ' ' else []) ++ '-' :: (writeNode true c (c + 1) x ++ writeSeq true c l)
/-- `expect_block_mapping_key`, `expect_block_mapping_simple_value`.  Used in base/shepherd.py l.143-147. -/
def writeMap (brk : Bool) (c : ℕ) : YPairs → List Char
  | .nil => []
  | .cons k x l => (if brk then '\n' :: List.replicate c ' ' else []) ++ (k ++ ':' :: (writeNode false c (c + k.length + 1) x ++ writeMap true c l))
end

/-- The text of the file (base/shepherd.py l.143-147). -/
def writeFile : YPairs → List Char
  | .nil => ['{', '}', '\n']
  | l => writeMap false 0 l ++ ['\n']

/-- Column and whether a line break was passed, between `s` at the column `col` and its end `rest`.  Used in base/shepherd.py l.160. -/
def place (col : ℕ) (s rest : List Char) : ℕ × Bool :=
  (s.take (s.length - rest.length)).foldl (fun p c => if c = '\n' then (0, true) else (p.1 + 1, p.2)) (col, false)

/-- `check_block_entry`.  Used in base/shepherd.py l.160. -/
def isEntry : List Char → Bool
  | '-' :: r => followed r
  | _ => false

/-- Empty collections.  Used in base/shepherd.py l.160. -/
def emptyAt : List Char → Option (YNode × List Char)
  | '[' :: ']' :: r => some (.seq .nil, r)
  | '{' :: '}' :: r => some (.map .nil, r)
  | _ => none

/-- `scan_block_scalar` in lines indented by `w`, of which `k` blanks were seen: a line that is indented less ends it.  Used in base/shepherd.py l.160. -/
def readLit (w : ℕ) : ℕ → List Char → List Char × List Char
  | _, [] => ([], [])
  | k, c :: r =>
    if k < w then (if c = ' ' then readLit w (k + 1) r else ([], c :: r))
    else if c = '\n' then ('\n' :: (readLit w 0 r).1, (readLit w 0 r).2)
    else (c :: (readLit w k r).1, (readLit w k r).2)

/-- Bytes: the first line gives the indentation.  Used in base/shepherd.py l.160. -/
def binaryAt (i : ℕ) (s : List Char) : Option (YNode × List Char) :=
  if s.take 11 = "!!binary |\n".toList ∧ i ≤ ((s.drop 11).takeWhile (· = ' ')).length then
    some (.scalar .binary (readLit ((s.drop 11).takeWhile (· = ' ')).length 0 (s.drop 11)).1, (readLit ((s.drop 11).takeWhile (· = ' ')).length 0 (s.drop 11)).2)
  else none

/-- A simple key (a text on one line before a colon) and what follows the colon.  Used in base/shepherd.py l.160. -/
def keyAt (i col : ℕ) (s : List Char) : Option (Name × List Char) :=
  match readText (fun t => resolveTag t = some .str) i col s with
  | some (k, true, ':' :: r) => if followed r && !(place col s (':' :: r)).2 then some (k, r) else none
  | _ => none

/-- A scalar with the type it is taken for: text if it is in quotes.  Used in base/shepherd.py l.160. -/
def scalarAt (i col : ℕ) (s : List Char) : Option (YNode × List Char) :=
  match readText (fun _ => false) i col s with
  | some (t, quoted, rest) => if quoted then some (.scalar .str t, rest) else (resolveTag t).map (fun tag => (.scalar tag t, rest))
  | none => none

mutual
/-- `parse_node` at the token at the column `col`; `blk` tells whether a block may start here, contents belong to the parent from column `i` on.  Used in base/shepherd.py l.160. -/
def readNode : ℕ → Bool → ℕ → ℕ → List Char → Option (YNode × List Char)
  | 0, _, _, _, _ => none
  | n + 1, blk, i, col, s =>
    if isEntry s then (if blk then (readSeq n col s).map (fun x => (.seq x.1, x.2)) else none)
    else match (emptyAt s).or (binaryAt i s) with
      | some x => some x
      | none => match keyAt i col s with
        | some _ => if blk then (readMap n col s).map (fun x => (.map x.1, x.2)) else none
        | none => scalarAt i col s
/-- The value after `key:` or after `-` in a block at the column `c`: on the same line or further to the right on a later one; a sequence in a mapping can be at the same column.  Used in base/shepherd.py l.160. -/
def readValue : ℕ → Bool → ℕ → ℕ → List Char → Option (YNode × List Char)
  | 0, _, _, _, _ => none
  | n + 1, dash, c, col, r =>
    let s := skipBlank r
    let p := place col r s
    if p.2 = false then readNode n dash (c + 1) p.1 s
    else if c < p.1 then readNode n true (c + 1) p.1 s
    else if dash = false ∧ p.1 = c ∧ isEntry s = true then (readSeq n c s).map (fun x => (.seq x.1, x.2))
    else some (.scalar .null [], r)
/-- `parse_block_sequence_entry`, `parse_indentless_sequence_entry`: entries at the column `c`.  Used in base/shepherd.py l.160. -/
def readSeq : ℕ → ℕ → List Char → Option (YNodes × List Char)
  | 0, _, _ => none
  | n + 1, c, s =>
    match readValue n true c (c + 1) (s.drop 1) with
    | none => none
    | some (x, rest) =>
      let r := skipBlank rest
      if place c s r = (c, true) ∧ isEntry r = true then (readSeq n c r).map (fun y => (.cons x y.1, y.2)) else some (.cons x .nil, rest)
/-- `parse_block_mapping_key`, `parse_block_mapping_value`: keys at the column `c`.  Used in base/shepherd.py l.160. -/
def readMap : ℕ → ℕ → List Char → Option (YPairs × List Char)
  | 0, _, _ => none
  | n + 1, c, s =>
    match keyAt (c + 1) c s with
    | none => none
    | some (k, r) =>
      match readValue n false c (c + (s.length - r.length)) r with
      | none => none
      | some (x, rest) =>
        let r' := skipBlank rest
        if place c s r' = (c, true) ∧ r' ≠ [] then (readMap n c r').map (fun y => (.cons k x y.1, y.2)) else some (.cons k x .nil, rest)
end

/-- `yaml.safe_load` of a file up to the nodes: nothing may follow (base/shepherd.py l.160). -/
def readFile (n : ℕ) (s : List Char) : Option YNode :=
  match readNode n true 0 0 (skipBlank s) with
  | some (x, rest) => if skipBlank rest = [] then some x else none
  | none => none

/-- `dict` of the pairs: the last one with the key.  Used in base/shepherd.py l.160-165. -/
def pairGet (k : Name) : YPairs → Option YNode
  | .nil => none
  | .cons k' x l => (pairGet k l).or (if k = k' then some x else none)

/-- What `from_file` raises.  Used in base/shepherd.py l.156-165. -/
inductive LoadErr
  | noFile | noWrapper | otherClass
deriving DecidableEq

/-- `from_file` (base/shepherd.py l.156-165) up to the validation of the fields: the fields of a model in the text of a file.  Simplification: the other fields of the wrapper are not checked. -/
def yamlFromFile (n : ℕ) (cls : Name) (s : List Char) : Except LoadErr YNode :=
  match readFile n s with
  | some (.map l) =>
    match pairGet "datatype".toList l, pairGet "parameters".toList l with
    | some (.scalar .str d), some (.map p) => if d = cls then .ok (.map p) else .error .otherClass
    | _, _ => .error .noWrapper
  | _ => .error .noFile

end Verif.Model
