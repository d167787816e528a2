import Verif.Model.Fixtures

/-!
# Dictionaries as objects: who writes into what

Models once more `Fixture.inheritance` (`shepherd_core/shepherd_core/testbed_client/fixtures.py` l.88-143), `__getitem__`, `query_id`, `query_name` (l.59-68, l.153-163), `try_completing_model`,
`query_item` and `fill_in_user_data` (`testbed_client/client_abc_fix.py` l.61-73, l.102-124), now with dictionaries as objects in memory that several places refer to.  Where `Model/Fixtures` has
values, this model has references, `copy.copy` is an allocation and `d[k] = v` a write.  Further the validators that write into the dictionary they get: `HarvestTask`, `EmulationTask`
(`data_models/task/harvest.py` l.58-68, `emulation.py` l.99-109) and `User` (`testbed_client/user_model.py` l.63-73).

Simplifications: the values in a dictionary are not objects; nested dictionaries are values.  `Model(**d)` hands a new dictionary to the validators, `Model.model_validate(d)` hands over `d` (behaviour of
the library pydantic).
-/

namespace Verif.Model
open Verif.Py

/-- The dictionaries in memory: content by address, next free address.  Used in `copy.copy`, fixtures.py l.91, l.110, l.123, l.128. -/
structure DictHeap where
  cell : ℕ → Rec
  next : ℕ

/-- A new dictionary.  Used in `copy.copy`, fixtures.py l.91, l.110, l.123, l.128. -/
def DictHeap.alloc (h : DictHeap) (r : Rec) : DictHeap × ℕ := (⟨fun x => if x = h.next then r else h.cell x, h.next + 1⟩, h.next)
/-- A write into a dictionary.  Used in fixtures.py l.95, l.112, l.117, l.135. -/
def DictHeap.write (h : DictHeap) (a : ℕ) (r : Rec) : DictHeap := ⟨fun x => if x = a then r else h.cell x, h.next⟩

/-- `Fixture` (fixtures.py l.35-41, l.52-55): both tables refer to the same dictionaries. -/
structure HeapDb where
  byName : List (String × ℕ)
  byId : List (Val × ℕ)

section
variable (ops : StrOps)

/-- `__getitem__` (fixtures.py l.59-68): the dictionary itself. -/
def HeapDb.getItem (db : HeapDb) (key : Val) : Except PyErr ℕ :=
  match key with
  | .str s =>
    match dictGet db.byName (ops.lower s) with
    | some r => .ok r
    | none =>
      match ops.digit (ops.lower s) with
      | none => .error .valueError
      | some n =>
        match dictGet db.byId (.int n) with
        | some r => .ok r
        | none => .error .valueError
  | k =>
    match dictGet db.byId k with
    | some r => .ok r
    | none => .error .valueError

/-- The entry for values without "inherit_from" (fixtures.py l.121-129). -/
def HeapDb.known (db : HeapDb) (values : Rec) : Except PyErr (Option ℕ) :=
  match values "name" with
  | some (.str s) =>
    match dictGet db.byName (ops.lower s) with
    | some r => .ok (some r)
    | none => .ok ((values "id").bind (dictGet db.byId))
  | some _ => .error .attributeError
  | none => .ok ((values "id").bind (dictGet db.byId))

/-- `inheritance` (fixtures.py l.88-143) on the dictionary at `a`: memory afterwards and, if it does not raise, the dictionary returned. -/
def HeapDb.inheritance (db : HeapDb) : ℕ → DictHeap → ℕ → List Val → DictHeap × Except PyErr (ℕ × List Val)
  | 0, h, _, _ => (h, .error .recursionError)
  | fuel + 1, h, a, chain =>
    -- l.91
    let (h, v) := h.alloc (h.cell a)
    match h.cell v "inherit_from" with
    | some base =>
      -- l.95
      let h := h.write v ((h.cell v).del "inherit_from")
      match chainStart (h.cell v) base chain with
      | .error e => (h, .error e)
      | .ok chain' =>
        match db.getItem ops base with
        | .error e => (h, .error e)
        | .ok r =>
          -- l.110-112
          let (h, fb) := h.alloc (h.cell r)
          let h := h.write fb ((h.cell fb).set "name" base)
          match HeapDb.inheritance db fuel h fb (chain' ++ [base]) with
          | (h, .error e) => (h, .error e)
          -- l.115-118
          | (h, .ok (b, c)) => (h.write b ((h.cell v).over (h.cell b)), .ok (b, c))
    | none =>
      match db.known ops (h.cell v) with
      | .error e => (h, .error e)
      | .ok none => (h, .ok (v, chain))
      | .ok (some r) =>
        -- l.123, l.128, l.133-135
        let (h, fb) := h.alloc (h.cell r)
        let h := h.write fb ((h.cell v).over (h.cell fb))
        match h.cell fb "inherit_from" with
        | none => (h, .ok (fb, chain))
        | some _ =>
          match h.cell fb "name" with
          | none => (h, .error .keyError)
          | some n => HeapDb.inheritance db fuel h fb (chain ++ [n])

/-- What an instance is made from: a dictionary with several entries, a name only, an id only.  Used in client_abc_fix.py l.61-73. -/
inductive DictRequest
  | values (a : ℕ)
  | name (s : String)
  | id (n : ℤ)

/-- `query_item` (client_abc_fix.py l.102-109) and the queries (fixtures.py l.153-163): the dictionary of the data base itself. -/
def HeapDb.query (db : HeapDb) : DictRequest → Except PyErr ℕ
  | .values a => .ok a
  | .name s => match dictGet db.byName (ops.lower s) with
    | some r => .ok r
    | none => .error .valueError
  | .id n => match dictGet db.byId (.int n) with
    | some r => .ok r
    | none => .error .valueError

/-- An instance of a model of the data base is made: `try_completing_model` (client_abc_fix.py l.61-73), then the validator writes into the dictionary it got back: `fill_in_user_data`
(l.114-124) and its own corrections (e.g. virtual_harvester.py l.84-98, target.py l.51-60), together `fix`. -/
def HeapDb.create (db : HeapDb) (fuel : ℕ) (h : DictHeap) (q : DictRequest) (fix : Rec → Rec) : DictHeap × Except PyErr ℕ :=
  match db.query ops q with
  | .error e => (h, .error e)
  | .ok a =>
    match db.inheritance ops fuel h a [] with
    | (h, .error e) => (h, .error e)
    | (h, .ok (b, _)) => (h.write b (fix (h.cell b)), .ok b)

/-- A history of instances: memory afterwards.  Used in repeated calls of client_abc_fix.py l.61-73. -/
def HeapDb.createAll (db : HeapDb) (fuel : ℕ) : DictHeap → List (DictRequest × (Rec → Rec)) → DictHeap
  | h, [] => h
  | h, (q, fix) :: t => HeapDb.createAll db fuel (db.create ops fuel h q fix).1 t

end

/-- `pre_correction` of a task (harvest.py l.58-68, emulation.py l.99-109): the time of start is converted where it stands; `conv` turns numbers and texts into a time with time zone. -/
def taskCorrection (conv : Val → Val) (h : DictHeap) (a : ℕ) : DictHeap × ℕ :=
  match h.cell a "time_start" with
  | none => (h, a)
  | some v => (h.write a ((h.cell a).set "time_start" (conv v)), a)

/-- `User.query_database` (user_model.py l.63-73): a missing token is added where it is missing; `token` is the random one. -/
def userCorrection (token : String) (h : DictHeap) (a : ℕ) : DictHeap × ℕ :=
  match h.cell a "token" with
  | none => (h.write a ((h.cell a).set "token" (.str ("shepherd_token_" ++ token))), a)
  | some _ => (h, a)

/-- `Model(**d)`: the validators get a new dictionary.  Used in calls of harvest.py l.59, emulation.py l.100, user_model.py l.66. -/
def byKeywords (correct : DictHeap → ℕ → DictHeap × ℕ) (h : DictHeap) (a : ℕ) : DictHeap × ℕ :=
  correct (h.alloc (h.cell a)).1 (h.alloc (h.cell a)).2

end Verif.Model
