import Verif.Model.YamlText
import Verif.Model.FloatText

/-!
# Types of values in the files of models

Models what `yaml.safe_load` in `ShpModel.from_file` takes a plain text for (`Resolver.resolve` with the expressions of PyYAML for YAML 1.1) and the values it makes of flags and integers
(`shepherd_core/shepherd_core/data_models/base/shepherd.py` l.160).  `yaml.safe_dump` in `to_file` asks the same resolver whether a text can be written without quotes and without a tag (l.143-147).

Simplification: an integer without any digit (as `0b_`), which cannot be read, is 0.
-/

namespace Verif.Model
open Verif.Py

/-- `[-+]?` at the start.  Used in base/shepherd.py l.143-147, l.160. -/
def unsign : List Char → List Char
  | c :: r => if c = '+' ∨ c = '-' then r else c :: r
  | [] => []

/-- `[0-9_]*` at the start.  Used in base/shepherd.py l.143-147, l.160. -/
def skipDigits (t : List Char) : List Char := t.dropWhile (fun c => c.isDigit || c = '_')

/-- `(?::[0-5]?[0-9])+` at the start; the flag tells whether it matched already.  Used in base/shepherd.py l.143-147, l.160. -/
def skipSixties : Bool → List Char → Option (List Char)
  | _, [':', a] => if a.isDigit then some [] else none
  | _, ':' :: a :: b :: r => if a.isDigit then (if b.isDigit then (if a ≤ '5' then skipSixties true r else none) else skipSixties true (b :: r)) else none
  | ok, r => if ok then some r else none

/-- `(?:[eE][-+][0-9]+)?` up to the end.  Used in base/shepherd.py l.143-147, l.160. -/
def exponentOk : List Char → Bool
  | [] => true
  | c :: s :: x => (c = 'e' || c = 'E') && (s = '+' || s = '-') && !x.isEmpty && x.all Char.isDigit
  | _ => false

/-- The second alternative for floats: no digit before the point.  Used in base/shepherd.py l.143-147, l.160. -/
def pointFloat : List Char → Bool
  | '.' :: c :: r => c.isDigit && exponentOk (skipDigits r)
  | _ => false

/-- The expression for floats.  Used in base/shepherd.py l.143-147, l.160. -/
def floatMatch (t : List Char) : Bool :=
  (match unsign t with
    | c :: r => c.isDigit && ((match skipDigits r with | '.' :: r2 => exponentOk (skipDigits r2) | _ => false) ||
        (match skipSixties false (skipDigits r) with | some ('.' :: r2) => (skipDigits r2).isEmpty | _ => false))
    | [] => false) ||
  pointFloat t ||
  unsign t ∈ [".inf".toList, ".Inf".toList, ".INF".toList] || t ∈ [".nan".toList, ".NaN".toList, ".NAN".toList]

/-- The expression for integers: binary, hexadecimal, octal, decimal and to the base 60.  Used in base/shepherd.py l.143-147, l.160. -/
def intMatch (t : List Char) : Bool :=
  match unsign t with
  | '0' :: 'b' :: r => !r.isEmpty && r.all (fun c => c = '0' || c = '1' || c = '_')
  | '0' :: 'x' :: r => !r.isEmpty && r.all (fun c => (hexVal c).isSome || c = '_')
  | '0' :: r => r.all (fun c => ('0' ≤ c && c ≤ '7') || c = '_')
  | c :: r => c.isDigit && ((skipDigits r).isEmpty || skipSixties false (skipDigits r) = some [])
  | [] => false

/-- The expression for flags.  Used in base/shepherd.py l.143-147, l.160. -/
def boolMatch (t : List Char) : Bool :=
  t ∈ ["yes", "Yes", "YES", "no", "No", "NO", "true", "True", "TRUE", "false", "False", "FALSE", "on", "On", "ON", "off", "Off", "OFF"].map String.toList

/-- The expression for nothing.  Used in base/shepherd.py l.143-147, l.160. -/
def nullMatch (t : List Char) : Bool := t ∈ ["~", "null", "Null", "NULL", ""].map String.toList

/-- The expression for dates: a day alone has ten characters.  Used in base/shepherd.py l.143-147, l.160. -/
def stampMatch (t : List Char) : Bool :=
  match readHead t with
  | none => false
  | some (_, []) => t.length = 10
  | some (_, _) => match readStamp t with
    | .error .noMatch => false
    | _ => true

/-- `Resolver.resolve` for a plain text; none stands for `<<` and `=`.  Used in base/shepherd.py l.143-147, l.160. -/
def resolveTag (t : List Char) : Option YTag :=
  if boolMatch t then some .bool
  else if floatMatch t then some .float
  else if intMatch t then some .int
  else if t = ['<', '<'] then none
  else if nullMatch t then some .null
  else if stampMatch t then some .timestamp
  else if t = ['='] then none
  else some .str

/-- `construct_yaml_bool`.  Used in base/shepherd.py l.160. -/
def yamlBool (t : List Char) : Option Bool :=
  if t.map Char.toLower ∈ ["yes", "true", "on"].map String.toList then some true
  else if t.map Char.toLower ∈ ["no", "false", "off"].map String.toList then some false
  else none

/-- `int(text, base)`.  Used in base/shepherd.py l.160. -/
def numBase (b : ℕ) (t : List Char) : ℕ := t.foldl (fun n c => b * n + (hexVal c).getD 0) 0

/-- `construct_yaml_int`.  Used in base/shepherd.py l.160. -/
def yamlInt (t : List Char) : ℤ :=
  let v := t.filter (· ≠ '_')
  let sign : ℤ := if v.head? = some '-' then -1 else 1
  match unsign v with
  | '0' :: 'b' :: r => sign * numBase 2 r
  | '0' :: 'x' :: r => sign * numBase 16 r
  | '0' :: r => sign * numBase 8 r
  | u => if ':' ∈ u then sign * ((u.splitOn ':').foldl (fun n d => 60 * n + numBase 10 d) 0 : ℕ) else sign * numBase 10 u

end Verif.Model
