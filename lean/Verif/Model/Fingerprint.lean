import Mathlib.Data.Nat.Digits.Defs
import Verif.Py.Err

/-!
# Models as mappings and their fingerprint

Models `ShpModel.__getitem__`, `__contains__`, `keys`, `items` and `get_hash` (data_models/base/shepherd.py l.96-115, l.165-166).

The text that is hashed is `str` of the dump, a dictionary; Python prints its contents with `repr`.  Simplified: texts are lists of characters; a float is given by the text `repr` prints for it;
objects of other classes (dates, durations, paths, UUIDs, addresses) are printed as calls of their class with arguments, as their `repr` does.
-/

namespace Verif.Model
open Verif.Py

mutual
/-- A value in a dump (base/shepherd.py l.166). -/
inductive PVal
  | none
  | bool (b : Bool)
  | int (z : ℤ)
  /-- by what `repr` prints -/
  | float (text : List Char)
  | str (s : List Char)
  /-- a bare name or offset, as in the `repr` of time zones -/
  | name (w : List Char)
  /-- `SecretStr` (testbed_client/user_model.py l.60) -/
  | secret (s : List Char)
  | list (l : PVals)
  | dict (l : PPairs)
  /-- any other object: its class and the arguments `repr` prints -/
  | obj (cls : List Char) (l : PArgs)
/-- Elements of a list.  Used in `str(self.model_dump())` in `get_hash`, base/shepherd.py l.166-167. -/
inductive PVals
  | nil
  | cons (v : PVal) (l : PVals)
/-- Entries of a dictionary.  Used in `str(self.model_dump())` in `get_hash`, base/shepherd.py l.166-167. -/
inductive PPairs
  | nil
  | cons (k : List Char) (v : PVal) (l : PPairs)
/-- Arguments of a call.  Used in `str(self.model_dump())` in `get_hash`, base/shepherd.py l.166-167. -/
inductive PArgs
  | nil
  | pos (v : PVal) (l : PArgs)
  | kw (k : List Char) (v : PVal) (l : PArgs)
end

/-- One digit of base sixteen.  Used in `str(self.model_dump())` in `get_hash`, base/shepherd.py l.166-167. -/
def hexChar (n : ℕ) : Char := "0123456789abcdef".toList.getD n '0'

/-- The last `k` digits of base sixteen (Python's `repr` of characters that are not printable).  Used in `str(self.model_dump())` in `get_hash`, base/shepherd.py l.166-167. -/
def hexFixed : ℕ → ℕ → List Char
  | 0, _ => []
  | k + 1, n => hexFixed k (n / 16) ++ [hexChar (n % 16)]

/-- `repr` of one character in a text with the quote `q` (`unicode_repr` of Python; `printable` is `str.isprintable`).  Used in `str(self.model_dump())` in `get_hash`, base/shepherd.py l.166-167. -/
def escChar (printable : Char → Bool) (q c : Char) : List Char :=
  if c = q ∨ c = '\\' then ['\\', c]
  else if c = '\n' then ['\\', 'n']
  else if c = '\r' then ['\\', 'r']
  else if c = '\t' then ['\\', 't']
  else if printable c then [c]
  else if c.toNat < 0x100 then '\\' :: 'x' :: hexFixed 2 c.toNat
  else if c.toNat < 0x10000 then '\\' :: 'u' :: hexFixed 4 c.toNat
  else '\\' :: 'U' :: hexFixed 8 c.toNat

/-- The quote `repr` chooses: the single one, unless the text has single and no double ones.  Used in `str(self.model_dump())` in `get_hash`, base/shepherd.py l.166-167. -/
def quoteOf (s : List Char) : Char := if '\'' ∈ s ∧ '"' ∉ s then '"' else '\''

/-- `repr` of a text.  Used in `str(self.model_dump())` in `get_hash`, base/shepherd.py l.166-167. -/
def reprText (printable : Char → Bool) (s : List Char) : List Char :=
  quoteOf s :: (s.flatMap (escChar printable (quoteOf s)) ++ [quoteOf s])

/-- One decimal digit.  Used in `str(self.model_dump())` in `get_hash`, base/shepherd.py l.166-167. -/
def decChar (n : ℕ) : Char := "0123456789".toList.getD n '0'

/-- `repr` of a natural number.  Used in `str(self.model_dump())` in `get_hash`, base/shepherd.py l.166-167. -/
def reprNat (n : ℕ) : List Char := if n = 0 then ['0'] else ((Nat.digits 10 n).map decChar).reverse

/-- `repr` of an integer.  Used in `str(self.model_dump())` in `get_hash`, base/shepherd.py l.166-167. -/
def reprInt : ℤ → List Char
  | .ofNat n => reprNat n
  | .negSucc n => '-' :: reprNat (n + 1)

/-- `repr` of `None`.  Used in `str(self.model_dump())` in `get_hash`, base/shepherd.py l.166-167. -/
def reprNone : List Char := "None".toList

/-- `repr` of a truth value.  Used in `str(self.model_dump())` in `get_hash`, base/shepherd.py l.166-167. -/
def reprBool (b : Bool) : List Char := if b then "True".toList else "False".toList

/-- `repr` of a `SecretStr` of pydantic: asterisks, whatever the secret is.  Used in `str(self.model_dump())` in `get_hash`, base/shepherd.py l.166-167. -/
def reprSecret (pr : Char → Bool) (s : List Char) : List Char :=
  "SecretStr(".toList ++ reprText pr (if s = [] then [] else "**********".toList) ++ ")".toList

/-- The separator before an element, which the first one does without.  Used in `str(self.model_dump())` in `get_hash`, base/shepherd.py l.166-167. -/
def comma (first : Bool) : List Char := if first then [] else [',', ' ']

mutual
/-- `repr` of a value (base/shepherd.py l.166). -/
def pyRepr (pr : Char → Bool) : PVal → List Char
  | .none => reprNone
  | .bool b => reprBool b
  | .int z => reprInt z
  | .float t => t
  | .str s => reprText pr s
  | .name w => w
  | .secret s => reprSecret pr s
  | .list l => '[' :: (reprVals pr true l ++ [']'])
  | .dict l => '{' :: (reprPairs pr true l ++ ['}'])
  | .obj c l => c ++ '(' :: (reprArgs pr true l ++ [')'])
/-- Elements with commas.  Used in `str(self.model_dump())` in `get_hash`, base/shepherd.py l.166-167. -/
def reprVals (pr : Char → Bool) (first : Bool) : PVals → List Char
  | .nil => []
  | .cons v l => comma first ++ (pyRepr pr v ++ reprVals pr false l)
/-- Entries with commas.  Used in `str(self.model_dump())` in `get_hash`, base/shepherd.py l.166-167. -/
def reprPairs (pr : Char → Bool) (first : Bool) : PPairs → List Char
  | .nil => []
  | .cons k v l => comma first ++ (reprText pr k ++ ':' :: ' ' :: (pyRepr pr v ++ reprPairs pr false l))
/-- Arguments with commas.  Used in `str(self.model_dump())` in `get_hash`, base/shepherd.py l.166-167. -/
def reprArgs (pr : Char → Bool) (first : Bool) : PArgs → List Char
  | .nil => []
  | .pos v l => comma first ++ (pyRepr pr v ++ reprArgs pr false l)
  | .kw k v l => comma first ++ (k ++ '=' :: (pyRepr pr v ++ reprArgs pr false l))
end

/-- A model: its class, the values of its fields in the order of declaration, and the other attributes of the class (methods, class variables).  Used in base/shepherd.py l.51-114. -/
structure ShpObj where
  cls : List Char
  fields : List (List Char × PVal)
  attrs : List (List Char)

/-- The dump as a dictionary: all fields (`model_dump`, base/shepherd.py l.104, l.109, l.166). -/
def ShpObj.dump (m : ShpObj) : PVal :=
  .dict (m.fields.foldr (fun f l => .cons f.1 f.2 l) .nil)

/-- `keys` (base/shepherd.py l.107-109). -/
def ShpObj.keys (m : ShpObj) : List (List Char) := m.fields.map Prod.fst

/-- What looking up an attribute gives: the value of a field or something of the class.  Used in base/shepherd.py l.51-114. -/
inductive Found
  | value (v : PVal)
  | ofClass (k : List Char)

/-- `__getitem__`, by `__getattribute__` (base/shepherd.py l.96-101). -/
def ShpObj.getItem (m : ShpObj) (k : List Char) : Except PyErr Found :=
  match m.fields.lookup k with
  | some v => .ok (.value v)
  | none => if k ∈ m.attrs then .ok (.ofClass k) else .error .attributeError

/-- `__contains__` (base/shepherd.py l.103-105). -/
def ShpObj.contains (m : ShpObj) (k : List Char) : Bool := decide (k ∈ m.keys)

/-- `items` (base/shepherd.py l.111-114). -/
def ShpObj.items (m : ShpObj) : List (List Char × Except PyErr Found) := m.keys.map (fun k => (k, m.getItem k))

/-- `get_hash` (base/shepherd.py l.165-166); `sha` is `sha3_224` of the text. -/
def ShpObj.getHash (pr : Char → Bool) (sha : List Char → List Char) (m : ShpObj) : List Char := sha (pyRepr pr m.dump)

end Verif.Model
