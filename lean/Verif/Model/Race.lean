import Verif.Model.Reports

/-!
# Writers that run at the same time

Models how several programs open writers with default options (`shepherd_core/shepherd_core/writer.py` l.54-66, l.126-149) in one directory, write samples and close them: each look at the directory,
opening, writing and closing is one step, and steps of different programs come in any order.

Simplifications: all paths are in one directory and are files; nobody deletes files; a sample that is written is in the file at once.  The HDF5 library may lock files that are open, so that
opening fails: `locks` says if it does.
-/

namespace Verif.Model

/-- What a writer does (writer.py l.126-149): it looks for the path that was asked for, looks for numbered ones, will open a path, writes, was closed, or failed to open. -/
inductive WPhase
  | start
  | numbering (k : ℕ)
  | chosen (n : Name)
  | writing (n : Name)
  | closed (n : Name)
  | failed
deriving DecidableEq

/-- A file: samples, each with the program that wrote it, and how many writers have it open (`h5py.File`, writer.py l.144-149). -/
structure WFile where
  content : List (ℕ × ℤ)
  users : ℕ
deriving DecidableEq

/-- The directory and what each program does (writer.py l.126-149). -/
structure WWorld where
  files : Name → Option WFile
  phase : ℕ → WPhase

/-- The next step of program `i`, that was asked for the path `name`: a look at the directory (writer.py l.126, l.63-66), `h5py.File(path, "w")` (l.148), and then writing
a sample or closing (`none`). -/
def WWorld.step (locks : Bool) (name : ℕ → Name) (w : WWorld) (i : ℕ) (x : Option ℤ) : WWorld :=
  let go (p : WPhase) : ℕ → WPhase := fun j => if j = i then p else w.phase j
  let put (n : Name) (f : WFile) : Name → Option WFile := fun m => if m = n then some f else w.files m
  match w.phase i with
  | .start => { w with phase := go (if (w.files (name i)).isSome then .numbering 0 else .chosen (name i)) }
  | .numbering k =>
    let n := candidate (splitName (name i)).1 (splitName (name i)).2 k
    { w with phase := go (if (w.files n).isSome then .numbering (k + 1) else .chosen n) }
  | .chosen n =>
    match w.files n with
    | some f => if locks && decide (0 < f.users) then { w with phase := go .failed } else ⟨put n ⟨[], f.users + 1⟩, go (.writing n)⟩
    | none => ⟨put n ⟨[], 1⟩, go (.writing n)⟩
  | .writing n =>
    match w.files n, x with
    | some f, some v => { w with files := put n { f with content := f.content ++ [(i, v)] } }
    | some f, none => ⟨put n { f with users := f.users - 1 }, go (.closed n)⟩
    | none, _ => w
  | .closed _ => w
  | .failed => w

/-- Programs that take steps in this order (each a `Writer`, writer.py l.126-149). -/
def WWorld.run (locks : Bool) (name : ℕ → Name) (w : WWorld) (schedule : List (ℕ × Option ℤ)) : WWorld := schedule.foldl (fun w e => w.step locks name e.1 e.2) w

end Verif.Model
