import Verif.Model.CutFile
import Verif.Model.Reports

/-!
# The command line

Models `shepherd_data/shepherd_data/cli.py` l.24-41 (`path_to_flist`), l.68-93 (`validate`) and l.318-345 (`downsample`).

A file that can not be opened as HDF5 makes the reader raise a TypeError (`shepherd_core/shepherd_core/reader.py` l.98-103).  Not modelled: logging, the options of the
other commands, `plot` and `multi_plot`.
-/

namespace Verif.Model
open Verif.Py

/-! ## Selection of files -/

/-- Something below the given directory: its path, the components in reverse order (name first), and whether it is a regular file.  Used in `path_to_flist`, cli.py l.24-41. -/
structure DirEntry where
  name : Name
  parents : List Name
  isFile : Bool
deriving DecidableEq, Repr

/-- What the path on the command line refers to; the entries of a directory include those of its subdirectories.  Used in `path_to_flist`, cli.py l.24-41. -/
inductive CliTarget
  | file (name : Name)
  | dir (entries : List DirEntry)
  | missing
deriving DecidableEq, Repr

/-- Does the name match the pattern `*.h5` of `Path.glob` (case sensitive)?.  Used in `path_to_flist`, cli.py l.24-41. -/
def globH5 (n : Name) : Bool := List.isSuffixOf ['.', 'h', '5'] n

/-- `path_to_flist` (cli.py l.24-41): names and parents of the selected files. -/
def pathToFlist (t : CliTarget) (recurse : Bool) : List (Name × List Name) :=
  match t with
  | .file n => if (splitName n).2.map Char.toLower = ['.', 'h', '5'] then [(n, [])] else []
  | .dir entries => ((entries.filter (fun e => globH5 e.name && (recurse || e.parents.isEmpty))).filter (fun e => e.isFile)).map (fun e => (e.name, e.parents))
  | .missing => []

/-! ## Files on disk -/

/-- A file with the right name is not always an HDF5-file.  Used in what `Reader(file)` meets in cli.py l.83, l.147, l.190. -/
inductive DiskFile
  | notHdf5
  | hdf5 (f : H5File)

section
variable (fl : ℚ → ℚ)

/-- `Reader(file)` (`shepherd_core/shepherd_core/reader.py` l.61-151). -/
def openReader : DiskFile → Except PyErr Session
  | .notHdf5 => .error .typeError
  | .hdf5 f => openSession fl f

/-! ## validate -/

/-- The checks for one file (cli.py l.84-86), four million samples at a time. -/
def validateFile (d : DiskFile) : Except PyErr Bool :=
  match openReader fl d with
  | .error e => .error e
  | .ok s => (s.checkTimediffs fl 4000000).map (fun t => s.file.isValid && t)

/-- The loop (cli.py l.80-91): a TypeError is logged and the file skipped. -/
def validateLoop : Bool → List DiskFile → Except PyErr Bool
  | v, [] => .ok v
  | v, d :: t =>
    match validateFile fl d with
    | .ok r => validateLoop (v && r) t
    | .error .typeError => validateLoop v t
    | .error e => .error e

/-- The exit code of `validate` (cli.py l.76-93), 1 after an exception that is not caught. -/
def validateExit (files : List DiskFile) : ℕ :=
  match validateLoop fl true files with
  | .ok v => if v then 0 else 1
  | .error _ => 1

/-! ## downsample -/

variable {σ : Type} (f : SampleFilter ℤ σ)

/-- The factor for a file (cli.py l.333-334). -/
def cliFactor (s : Session) (factor : Option ℚ) (rate : Option ℤ) : Option ℚ :=
  match factor, rate with
  | none, some r => if 1 ≤ r then some (fl ((s.stats.samplerate : ℚ) / r)) else none
  | factor, _ => factor

/-- The factors that are used (cli.py l.336-339). -/
def cliList (factor : Option ℚ) : List ℚ :=
  match factor with
  | some q => if 1 ≤ q then [q] else [5, 25, 100, 500, 2500, 10000, 50000, 250000, 1000000]
  | none => [5, 25, 100, 500, 2500, 10000, 50000, 250000, 1000000]

/-- One file, all factors (cli.py l.341-343). -/
def cliFile (s : Session) (stem : String) (start stop : Option ℚ) : List ℚ → Files → Files × Except PyErr Unit
  | [], fs => (fs, .ok ())
  | q :: t, fs =>
    match s.cutToFile fl f fs stem start stop q with
    | (fs', .error e) => (fs', .error e)
    | (fs', .ok _) => cliFile s stem start stop t fs'

/-- `except (TypeError, ValueError)` (cli.py l.344) -/
def cliCaught : PyErr → Bool
  | .typeError => true
  | .valueError => true
  | _ => false

/-- `downsample` (cli.py l.318-345): the files are given by their paths without suffix and their contents.  Simplified: the contents are those at the start of the command, which
is no restriction, because existing files are never written to. -/
def cliDownsample (start stop : Option ℚ) (rate : Option ℤ) : List (String × DiskFile) → Option ℚ → Files → Files × Except PyErr Unit
  | [], _, fs => (fs, .ok ())
  | (stem, d) :: t, factor, fs =>
    match openReader fl d with
    | .error e => if cliCaught e then cliDownsample start stop rate t factor fs else (fs, .error e)
    | .ok s =>
      match cliFile fl f s stem start stop (cliList (cliFactor fl s factor rate)) fs with
      | (fs', .error e) => if cliCaught e then cliDownsample start stop rate t (cliFactor fl s factor rate) fs' else (fs', .error e)
      | (fs', .ok _) => cliDownsample start stop rate t (cliFactor fl s factor rate) fs'

end
end Verif.Model
