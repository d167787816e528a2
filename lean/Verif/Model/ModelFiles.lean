import Verif.Model.Store
import Verif.Model.Reports

/-!
# Files of models in a directory

Models where `to_file` puts a model and what `from_file` finds (data_models/base/shepherd.py l.124-163), over any history of calls.

Simplified: one directory, with names as in `Model/Reports`; the file system is what its names hold.  An interrupted write leaves what was written so far: the first entries of the file, as the text is
written from the beginning.
-/

namespace Verif.Model
open Verif.Py

/-- What a name holds: a file of a model with the first entries of its parameters, or an empty file.  Used in `to_file`, base/shepherd.py l.124-154. -/
inductive MFile
  | wrapped (f : YFile)
  | empty

/-- The directory.  Used in `to_file`, base/shepherd.py l.124-154. -/
abbrev MDir := Name → Option MFile

/-- The first entries of a mapping.  Used in `to_file`, base/shepherd.py l.124-154. -/
def YMap.take : ℕ → YMap → YMap
  | k + 1, .cons n v r => .cons n v (r.take k)
  | _, _ => .nil

/-- The name a model is written to (base/shepherd.py l.149). -/
def yamlName (n : Name) : Name := withSuffix n ".yaml".toList

/-- How a call of `to_file` ends: it is done, or it is interrupted: after opening the file (`none`) or with the first entries written.  Used in `to_file`, base/shepherd.py l.124-154. -/
inductive SaveEnd
  | done
  | cut (entries : Option ℕ)

/-- One call of `to_file` (base/shepherd.py l.124-154): opening truncates the file (l.152), the text is written then. -/
def saveModel (fl : ℚ → ℚ) (minimal : Bool) (c : MClass) (vs : MVals) (n : Name) (e : SaveEnd) (d : MDir) : MDir :=
  let f := toFile fl minimal c vs
  let x := match e with
    | .done => MFile.wrapped f
    | .cut none => .empty
    | .cut (some k) => .wrapped ⟨f.datatype, f.parameters.take k⟩
  fun m => if m = yamlName n then some x else d m

/-- `from_file` (base/shepherd.py l.156-163): the name is taken as it is. -/
def loadModel (gen : ℕ → MVal) (c : MClass) (n : Name) (d : MDir) : Except PyErr MVals :=
  match d n with
  | none => .error .fileNotFoundError
  | some .empty => .error .typeError
  | some (.wrapped f) => fromFile gen c f

/-- A call of `to_file`.  Used in `to_file`, base/shepherd.py l.124-154. -/
structure SaveCall where
  minimal : Bool
  cls : MClass
  vals : MVals
  name : Name
  ending : SaveEnd

/-- A history of calls.  Used in `to_file`, base/shepherd.py l.124-154. -/
def saveAll (fl : ℚ → ℚ) (l : List SaveCall) (d : MDir) : MDir :=
  l.foldl (fun d s => saveModel fl s.minimal s.cls s.vals s.name s.ending d) d

end Verif.Model
