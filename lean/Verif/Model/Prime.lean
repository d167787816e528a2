import Verif.Model.Firmware

/-!
# Priming the data base of the library

Models the script `extra/prime_database.py`: the models of firmwares and energy environments found below a directory are moved to the paths of the server and written to one file of fixtures.

Simplified: texts are lists of characters; a path is its text with slashes (`as_posix`), without doubled slashes; the fields that the script only copies are one value `rest` (with the id, names and so
on, as filled in by loading); a file is what loading it as one of the two models comes to; inheritance from existing fixtures is left out.
-/

namespace Verif.Model
open Verif.Py

/-- `text.find(sub)` (prime_database.py l.57, l.66): position of the first occurrence, -1 if there is none. -/
def pyFind (sub : List Char) : List Char → ℤ
  | [] => if sub.isPrefixOf [] then 0 else -1
  | c :: t => if sub.isPrefixOf (c :: t) then 0 else
    let i := pyFind sub t
    if i < 0 then -1 else i + 1

/-- `text[i:]` (prime_database.py l.58, l.67): negative positions count from the end. -/
def pyFrom (i : ℤ) (s : List Char) : List Char := if i < 0 then s.drop (s.length - (-i).toNat) else s.drop i.toNat

/-- The path on the server (prime_database.py l.57-58, l.66-67; `path_server` l.29). -/
def serverPath (p : List Char) : List Char := "/var/shepherd".toList ++ pyFrom (pyFind "/content/".toList p) p

/-- What the script works with of a `Firmware` (content/firmware.py l.56-64) or an `EnergyEnvironment` (content/energy_environment.py l.25-30). -/
inductive PrimeModel (β : Type)
  | firmware (rest : β) (data : List Char) (type : FwType) (hash : Option String) (local_ : Bool)
  | energy (rest : β) (path : List Char) (local_ : Bool)

/-- A YAML file below the directory, by what `from_file` does with it (prime_database.py l.18-23, base/shepherd.py l.154-163). -/
inductive PrimeFile (β : Type)
  | model (m : PrimeModel β)
  /-- another model, or not valid: `ValueError` for both classes -/
  | other
  /-- any other exception, as for a list of models or a file that is no YAML -/
  | broken (e : PyErr)

/-- `load_model` for both classes (prime_database.py l.18-23, l.49-50). -/
def primeLoad {β : Type} : PrimeFile β → Except PyErr (Option (PrimeModel β))
  | .model m => .ok (some m)
  | .other => .ok none
  | .broken e => if e = .valueError then .ok none else .error e

/-- The model for the data base (prime_database.py l.53-70). -/
def primeModel {β : Type} : PrimeModel β → PrimeModel β
  | .firmware rest data _ _ _ => .firmware rest (serverPath data) .pathElf none false
  | .energy rest path _ => .energy rest (serverPath path) false

/-- The loop (prime_database.py l.46-79). -/
def primeFiles {β : Type} : List (PrimeFile β) → Except PyErr (List (PrimeModel β))
  | [] => .ok []
  | f :: l =>
    match primeLoad f with
    | .error e => .error e
    | .ok m =>
      match primeFiles l with
      | .error e => .error e
      | .ok ms => .ok (match m with | some m => primeModel m :: ms | none => ms)

/-- The script (prime_database.py l.26-83): the fixtures in the data base before and after; they are written at the end. -/
def prime {β : Type} (old : List (PrimeModel β)) (files : List (PrimeFile β)) : List (PrimeModel β) × Except PyErr Unit :=
  match primeFiles files with
  | .error e => (old, .error e)
  | .ok ms => (ms, .ok ())

end Verif.Model
