import Verif.Model.Recorder
import Verif.Model.DataTools

/-!
# Cutting and down-sampling to a file

Models `shepherd_data/shepherd_data/reader.py` l.248-352 (`cut_and_downsample_to_file`).

The files of a directory are a function from names to contents.  A low-pass is a machine on raw values; the conversion of its results to the number format of
the dataset is part of the machine.
-/

namespace Verif.Model
open Verif.Py

/-- The HDF5 files on disk.  Used in `cut_and_downsample_to_file`, shepherd_data/reader.py l.248-352. -/
abbrev Files := String → Option H5File

/-- A file is written.  Used in `cut_and_downsample_to_file`, shepherd_data/reader.py l.248-352. -/
def Files.put (fs : Files) (path : String) (f : H5File) : Files := fun p => if p = path then some f else fs p

/-- `f"{x:.3f}".replace(".", "s")` for `x ≥ 0` (reader.py l.294-295): milliseconds, ties to even on the exact value. -/
def secStr (x : ℚ) : String :=
  let ms := (pyRound (1000 * x)).toNat
  let frac := toString (ms % 1000)
  toString (ms / 1000) ++ "s" ++ (if ms % 1000 < 10 then "00" else if ms % 1000 < 100 then "0" else "") ++ frac

section
variable (fl : ℚ → ℚ)

/-- `runtime_s` of an opened file (`shepherd_core/shepherd_core/reader.py` l.185): `round(samples / samplerate, 1)`. -/
def Session.runtimeS (s : Session) : ℚ := fl ((pyRound (10 * fl (((s.get .voltage).length : ℚ) / s.stats.samplerate)) : ℚ) / 10)

/-- The start of a cut in seconds (reader.py l.262-266). -/
def cutStart (start : Option ℚ) : ℚ := max 0 (start.getD 0)
/-- The end of a cut in seconds (reader.py l.264-267). -/
def Session.cutEnd (s : Session) (stop : Option ℚ) : ℚ := min (s.runtimeS fl) (stop.getD (s.runtimeS fl))
/-- A time as sample number (reader.py l.269-270). -/
def Session.sampleAt (s : Session) (t : ℚ) : ℤ := pyRound (fl (t * s.stats.samplerate))

/-- The name of the output (reader.py l.293-302); `stem` is the path of the source without its last suffix. -/
def Session.cutName (s : Session) (stem : String) (start stop : Option ℚ) (factor : ℚ) : String :=
  let cut := if cutStart start ≠ 0 ∨ s.cutEnd fl stop ≠ s.runtimeS fl then ".cut_" ++ secStr (cutStart start) ++ "_to_" ++ secStr (s.cutEnd fl stop) else ""
  let ds := if 1 < factor then ".downsample_x" ++ toString (pyRound factor) else ""
  stem ++ cut ++ ds ++ ".h5"

/-- The tests of the parameters (reader.py l.273-290). -/
def Session.cutCheck (s : Session) (start stop : Option ℚ) (factor : ℚ) : Except PyErr Unit :=
  let a := s.sampleAt fl (cutStart start)
  let b := s.sampleAt fl (s.cutEnd fl stop)
  if b < a then .error .valueError
  else if factor < 1 then .error .valueError
  else if fl (((b - a : ℤ) : ℚ) / factor) < 1000 then .error .valueError
  else .ok ()

/-- The arguments for the writer (reader.py l.318-325). -/
def Session.cutArgs (s : Session) : WriterArgs where
  mode := some (getMode s.attrs)
  datatype := (getDatatype s.dattrs).map EnergyDType.name
  window := some (getWindow s.dattrs)
  cal := some s.cal

variable {σ : Type} (f : SampleFilter ℤ σ)

/-- One dataset (reader.py l.329-336 for the time), blocks of four million samples (`shepherd_core/shepherd_core/reader.py` l.82). -/
def Session.cutOne (s : Session) (n : DsName) (a b : ℤ) (factor : ℚ) : Except PyErr (List ℤ) :=
  downsample fl 0 f true (n = .time) 4000000 (s.get n) [] a.toNat (some b.toNat) ⌊factor⌋.toNat

/-- All three datasets (reader.py l.329-350): the new session, or the exception. -/
def Session.cutData (s w : Session) (a b : ℤ) (factor : ℚ) : Except PyErr Session :=
  match s.cutOne fl f .time a b factor with
  | .error e => .error e
  | .ok t =>
    match s.cutOne fl f .voltage a b factor with
    | .error e => .error e
    | .ok v =>
      match s.cutOne fl f .current a b factor with
      | .error e => .error e
      | .ok c => .ok { w with ds := fun n => { w.ds n with data := match n with | .time => t | .voltage => v | .current => c } }

/-- What is stored before the data (reader.py l.326-328). -/
def Session.cutMeta (s w : Session) (factor : ℚ) : Session :=
  ((w.setRoot "ds_factor" (.num factor)).storeHostname (getHostname s.attrs)).storeConfig ((getConfig s.dattrs).getD { hrvVoltageStep := none, rest := "{}" })

/-- `cut_and_downsample_to_file` (reader.py l.248-352): the files afterwards and the name of the output.  Simplified: when the data can not be processed a file is left behind, here
without data, in the code with the data processed so far. -/
def Session.cutToFile (s : Session) (fs : Files) (stem : String) (start stop : Option ℚ) (factor : ℚ) : Files × Except PyErr String :=
  match s.cutCheck fl start stop factor with
  | .error e => (fs, .error e)
  | .ok _ =>
    let dst := s.cutName fl stem start stop factor
    if (fs dst).isSome then (fs, .ok dst)
    else
      match writerOpen fl none s.cutArgs with
      | (h, .error e) => (fs.put dst h, .error e)
      | (_, .ok w) =>
        let w := s.cutMeta w factor
        match s.cutData fl f w (s.sampleAt fl (cutStart start)) (s.sampleAt fl (s.cutEnd fl stop)) factor with
        | .error e => (fs.put dst w.file, .error e)
        | .ok w =>
          match w.close fl with
          | .error e => (fs.put dst w.file, .error e)
          | .ok h => (fs.put dst h, .ok dst)

end
end Verif.Model
