import Verif.Model.Fixtures

/-!
# Loops over fixtures

Models the iterator of `Fixture` (`shepherd_core/shepherd_core/testbed_client/fixtures.py` l.40-41, l.58-59, l.70-80) together with insertion: the collection is its own iterator, with one position and one list.

Simplifications: `for` loops are unfolded at most `fuel` times, and their bodies raise no exception.
-/

namespace Verif.Model
open Verif.Py

/-- A `Fixture` with its iterator (fixtures.py l.35-41). -/
structure FixLoop where
  db : FixtureDb
  index : ℕ
  list : List Rec

/-- `list(self.elements_by_name.values())` (fixtures.py l.41, l.59, l.72). -/
def FixtureDb.values (db : FixtureDb) : List Rec := db.byName.map (·.2)

/-- `Fixture.__init__` (fixtures.py l.35-41). -/
def FixLoop.init : FixLoop := ⟨.empty, 0, []⟩

/-- `insert` (fixtures.py l.43-59): the list of the iterator is renewed, the position stays. -/
def FixLoop.insert (ops : StrOps) (model : String) (s : FixLoop) (datatype : String) (r : Rec) : Except PyErr FixLoop :=
  if ops.lower datatype ≠ ops.lower model ∨ r "name" = none then .ok s
  else
    match s.db.insert ops model datatype r with
    | .error e => .error e
    | .ok db => .ok { db := db, index := s.index, list := db.values }

/-- `__iter__` (fixtures.py l.70-73). -/
def FixLoop.iter (s : FixLoop) : FixLoop := { s with index := 0, list := s.db.values }

/-- `__next__` (fixtures.py l.75-80); `none`: StopIteration. -/
def FixLoop.next (s : FixLoop) : Option (Rec × FixLoop) :=
  match s.list[s.index]? with
  | some r => some (r, { s with index := s.index + 1 })
  | none => none

/-- The rounds of a `for` loop over the collection (fixtures.py l.75-80): the state, what the rounds yield, and if the loop came to its end.  The second part of what the body returns: does it `break`. -/
def FixLoop.rounds {β : Type} (body : Rec → FixLoop → FixLoop × List β × Bool) : ℕ → FixLoop → FixLoop × List β × Bool
  | 0, s => (s, [], false)
  | fuel + 1, s =>
    match s.next with
    | none => (s, [], true)
    | some (r, s) =>
      let b := body r s
      if b.2.2 then (b.1, b.2.1, true)
      else
        let rest := rounds body fuel b.1
        (rest.1, b.2.1 ++ rest.2.1, rest.2.2)

/-- `for r in fixture: body` (fixtures.py l.70-80). -/
def FixLoop.loop {β : Type} (body : Rec → FixLoop → FixLoop × List β × Bool) (fuel : ℕ) (s : FixLoop) : FixLoop × List β × Bool := rounds body fuel s.iter

/-- `[(a, b) for a in fixture for b in fixture]` (fixtures.py l.70-80). -/
def FixLoop.pairs (fuel : ℕ) (s : FixLoop) : FixLoop × List (Rec × Rec) × Bool :=
  s.loop (fun a s => let t := s.loop (fun b s => (s, [(a, b)], false)) fuel; (t.1, t.2.1, false)) fuel

/-- A loop in each round of which another loop takes the first entry and breaks: `for a in fixture: for b in fixture: break` (fixtures.py l.70-80). -/
def FixLoop.firsts (fuel : ℕ) (s : FixLoop) : FixLoop × List (Rec × Rec) × Bool :=
  s.loop (fun a s => let t := s.loop (fun b s => (s, [(a, b)], true)) fuel; (t.1, t.2.1, false)) fuel

/-- `x in fixture` for something that equals a record if `eq` says so: without `__contains__` Python goes through the iterator (fixtures.py l.70-80). -/
def FixLoop.contains (eq : Rec → Bool) (fuel : ℕ) (s : FixLoop) : FixLoop × Bool :=
  let t := s.loop (fun r s => (s, if eq r then [()] else [], eq r)) fuel
  (t.1, decide (t.2.1 ≠ []))

/-- `"name" in fixture`: entries are dictionaries, which never equal a text (fixtures.py l.70-80). -/
def FixLoop.containsText (_name : String) (fuel : ℕ) (s : FixLoop) : FixLoop × Bool := s.contains (fun _ => false) fuel

end Verif.Model
