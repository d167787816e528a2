import Mathlib.Data.List.Basic

/-!
# Exports that run at the same time

Models how several programs export to the same path (`Reader.save_csv` `shepherd_data/shepherd_data/reader.py` l.58-93, `save_log` l.108-127, `save_metadata`
`shepherd_core/shepherd_core/reader.py` l.645-651): each looks if the file exists and skips it if so, opens it (which empties it), and writes its text piece by piece, as buffers are flushed, at the
position it has reached itself.  Looking, opening and each piece are steps; steps of different programs come in any order, and a program may be killed at any time.

Simplifications: nobody deletes or renames the file; the text a program will write is fixed beforehand; files are those of POSIX (a gap reads as zero bytes), characters are those of the encoded text.
-/

namespace Verif.Model

/-- What a program does: it will look for the file, will open it, writes and has reached a position, is done, has skipped the file, or was killed (reader.py l.58-93). -/
inductive XPhase
  | look
  | opening
  | writing (pos : ℕ)
  | done
  | skipped
  | killed
deriving DecidableEq

/-- The file and what each program does (reader.py l.58-93). -/
structure XWorld where
  file : Option (List Char)
  phase : ℕ → XPhase

/-- What reads in a gap of a file.  Used for `csv_file.write`, reader.py l.73-93. -/
def gapChar : Char := Char.ofNat 0

/-- The file after a piece was written at a position (`csv_file.write`, reader.py l.73-93). -/
def overlay (old : List Char) (pos : ℕ) (piece : List Char) : List Char :=
  (old ++ List.replicate (pos - old.length) gapChar).take pos ++ piece ++ old.drop (pos + piece.length)

/-- The next step of program `i`: it is killed (`none`), or goes on, with a piece of at most `k + 1` characters when it writes (reader.py l.58-93). -/
def XWorld.step (text : ℕ → List Char) (w : XWorld) (i : ℕ) (e : Option ℕ) : XWorld :=
  let go (p : XPhase) : ℕ → XPhase := fun j => if j = i then p else w.phase j
  match w.phase i, e with
  | .done, _ => w
  | .skipped, _ => w
  | .killed, _ => w
  | _, none => { w with phase := go .killed }
  | .look, some _ => { w with phase := go (if w.file.isSome then .skipped else .opening) }
  | .opening, some _ => ⟨some [], go (.writing 0)⟩
  | .writing pos, some k =>
    if (text i).length ≤ pos then { w with phase := go .done }
    else
      let piece := ((text i).drop pos).take (k + 1)
      ⟨some (overlay (w.file.getD []) pos piece), go (.writing (pos + piece.length))⟩

/-- Programs that take steps in this order (each a `save_csv`, reader.py l.58-93). -/
def XWorld.run (text : ℕ → List Char) (w : XWorld) (schedule : List (ℕ × Option ℕ)) : XWorld := schedule.foldl (fun w e => w.step text e.1 e.2) w

/-- No program has begun and the file does not exist.  The state before reader.py l.58. -/
def XWorld.fresh : XWorld := ⟨none, fun _ => .look⟩

end Verif.Model
