import Verif.Py.Err
import Mathlib.Data.Int.Notation
import Mathlib.Data.Nat.Notation

/-!
# The file based data base

Models `Fixture` of `shepherd_core/shepherd_core/testbed_client/fixtures.py` (l.32-163) and the queries of the client in
`shepherd_core/shepherd_core/testbed_client/client_abc_fix.py` (l.61-73, 96-112).

Not modelled here: the iterator (see `Model/FixIter`), loading and caching of files, the class per data type (`Fixtures`).
-/

namespace Verif.Model
open Verif.Py

/-- Values in a dictionary: strings, integers and others, that are only passed on.  Used in the entries of `Fixture`, fixtures.py l.35-57. -/
inductive Val
  | str (s : String)
  | int (n : ℤ)
  | other (n : ℕ)
deriving DecidableEq, Repr

/-- A dictionary of parameters.  The order of keys does not matter here.  Used in the entries of `Fixture`, fixtures.py l.35-57. -/
abbrev Rec := String → Option Val

/-- `d[k] = v`.  Used in fixtures.py l.112. -/
def Rec.set (r : Rec) (k : String) (v : Val) : Rec := fun x => if x = k then some v else r x
/-- `d.pop(k)`.  Used in fixtures.py l.95. -/
def Rec.del (r : Rec) (k : String) : Rec := fun x => if x = k then none else r x
/-- `for key, value in own.items(): base[key] = value`.  Used in fixtures.py l.115-117, l.133-135. -/
def Rec.over (own base : Rec) : Rec := fun x => match own x with | some v => some v | none => base x

/-- String operations of Python: `str(x)`, `s.lower()`, and `int(s) if s.isdigit() else None`.  Used in fixtures.py l.50, l.59-68, l.121. -/
structure StrOps where
  ofVal : Val → String
  lower : String → String
  digit : String → Option ℤ

/-- `Fixture` (fixtures.py l.35-41); keys in the order of insertion. -/
structure FixtureDb where
  byName : List (String × Rec)
  byId : List (Val × Rec)

/-- `d.get(k)`.  Used in fixtures.py l.52-68. -/
def dictGet {κ α : Type} [DecidableEq κ] (d : List (κ × α)) (k : κ) : Option α :=
  match d with
  | [] => none
  | (k', v) :: t => if k' = k then some v else dictGet t k
/-- `d[k] = v`: replaces in place or appends.  Used in fixtures.py l.52-68. -/
def dictSet {κ α : Type} [DecidableEq κ] (d : List (κ × α)) (k : κ) (v : α) : List (κ × α) :=
  match d with
  | [] => [(k, v)]
  | (k', v') :: t => if k' = k then (k', v) :: t else (k', v') :: dictSet t k v

/-- `Fixture.__init__` (fixtures.py l.35-41). -/
def FixtureDb.empty : FixtureDb := ⟨[], []⟩

section
variable (ops : StrOps)

/-- `insert` (fixtures.py l.43-57). -/
def FixtureDb.insert (model : String) (db : FixtureDb) (datatype : String) (r : Rec) : Except PyErr FixtureDb :=
  if ops.lower datatype ≠ ops.lower model then .ok db
  else
    match r "name" with
    | none => .ok db
    | some n =>
      match r "id" with
      | none => .error .keyError
      | some i => .ok { byName := dictSet db.byName (ops.lower (ops.ofVal n)) r, byId := dictSet db.byId i r }

/-- `__getitem__` (fixtures.py l.59-68). -/
def FixtureDb.getItem (db : FixtureDb) (key : Val) : Except PyErr Rec :=
  match key with
  | .str s =>
    match dictGet db.byName (ops.lower s) with
    | some r => .ok r
    | none =>
      match ops.digit (ops.lower s) with
      | none => .error .valueError
      | some n =>
        match dictGet db.byId (.int n) with
        | some r => .ok r
        | none => .error .valueError
  | k =>
    match dictGet db.byId k with
    | some r => .ok r
    | none => .error .valueError

/-- `query_id` (fixtures.py l.153-157). -/
def FixtureDb.queryId (db : FixtureDb) (n : ℤ) : Except PyErr Rec :=
  match dictGet db.byId (.int n) with
  | some r => .ok r
  | none => .error .valueError

/-- `query_name` (fixtures.py l.159-163). -/
def FixtureDb.queryName (db : FixtureDb) (s : String) : Except PyErr Rec :=
  match dictGet db.byName (ops.lower s) with
  | some r => .ok r
  | none => .error .valueError

/-- The check for circles (fixtures.py l.97-109): only done at the start of a chain; returns the longer chain. -/
def chainStart (values : Rec) (base : Val) (chain : List Val) : Except PyErr (List Val) :=
  match values "name" with
  | none => .ok chain
  | some n =>
    if chain.length < 1 then
      if n ∈ chain then .error .valueError
      else if n = base then .error .valueError
      else .ok (chain ++ [n])
    else .ok chain

/-- What the data base knows of values without "inherit_from" (fixtures.py l.121-129); a name that is no string has no `lower()`. -/
def FixtureDb.known (db : FixtureDb) (values : Rec) : Except PyErr (Option Rec) :=
  match values "name" with
  | some (.str s) =>
    match dictGet db.byName (ops.lower s) with
    | some r => .ok (some r)
    | none => .ok ((values "id").bind (dictGet db.byId))
  | some _ => .error .attributeError
  | none => .ok ((values "id").bind (dictGet db.byId))

/-- `inheritance` (fixtures.py l.88-143).  `fuel` is the number of nested calls the interpreter still allows. -/
def FixtureDb.inheritance (db : FixtureDb) : ℕ → Rec → List Val → Except PyErr (Rec × List Val)
  | 0, _, _ => .error .recursionError
  | fuel + 1, values, chain =>
    match values "inherit_from" with
    | some base =>
      let own := values.del "inherit_from"
      match chainStart own base chain with
      | .error e => .error e
      | .ok chain' =>
        match db.getItem ops base with
        | .error e => .error e
        | .ok r =>
          match FixtureDb.inheritance db fuel (r.set "name" base) (chain' ++ [base]) with
          | .error e => .error e
          | .ok (b, c) => .ok (own.over b, c)
    | none =>
      match db.known ops values with
      | .error e => .error e
      | .ok none => .ok (values, chain)
      | .ok (some r) =>
        let merged := values.over r
        match merged "inherit_from" with
        | none => .ok (merged, chain)
        | some _ =>
          match merged "name" with
          | none => .error .keyError
          | some n => FixtureDb.inheritance db fuel merged (chain ++ [n])

/-- `query_item` (client_abc_fix.py l.102-109). -/
def FixtureDb.queryItem (db : FixtureDb) (uid : Option ℤ) (name : Option String) : Except PyErr Rec :=
  match uid with
  | some n => db.queryId n
  | none =>
    match name with
    | some s => db.queryName ops s
    | none => .error .valueError

/-- `try_completing_model` (client_abc_fix.py l.61-73) for values that consist of a name only. -/
def FixtureDb.completeName (db : FixtureDb) (fuel : ℕ) (name : String) : Except PyErr (Rec × List Val) :=
  match db.queryItem ops none (some name) with
  | .error _ => .error .valueError
  | .ok r => db.inheritance ops fuel r []

/-- `try_completing_model` (client_abc_fix.py l.61-73) for values that consist of an id only. -/
def FixtureDb.completeId (db : FixtureDb) (fuel : ℕ) (uid : ℤ) : Except PyErr (Rec × List Val) :=
  match db.queryItem ops (some uid) none with
  | .error _ => .error .valueError
  | .ok r => db.inheritance ops fuel r []

end

end Verif.Model
