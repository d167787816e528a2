import Verif.Model.Commands

/-!
# Repair of recordings

Models the script `shepherd_data/examples/repair_recordings.py` on the files of `Model/Recorder`.

Simplified: the metadata that are read at the start (l.24) have no effect, the checks l.27-31 neither (a reader only opens files with a group "data" and its three datasets, and the
`continue` of l.31 belongs to the inner loop); an attribute `mode` that is no text counts as missing; after an exception when a file is closed its samples are those before.
-/

namespace Verif.Model
open Verif.Py

/-- The number of samples, `h5file["data"][n].shape[0]`.  Used in examples/repair_recordings.py l.20-103. -/
def H5File.size (f : H5File) (n : DsName) : ℕ := ((f.data.bind (fun g => g.dset n)).map (fun d => d.data.length)).getD 0

section
variable (fl : ℚ → ℚ)

/-- Close the reader, open the file for writing, use it, close it and open the reader again (repair_recordings.py l.41-46 and the same five times more): the file afterwards. -/
def modifyFile (f : H5File) (args : WriterArgs) (use : Session → Session) : H5File × Except PyErr Unit :=
  match writerOpen fl (some f) args with
  | (f', .error e) => (f', .error e)
  | (_, .ok s) =>
    match (use s).close fl with
    | .error e => ((use s).file, .error e)
    | .ok f' =>
      match openSession fl f' with
      | .error e => (f', .error e)
      | .ok _ => (f', .ok ())

/-- Datasets of unequal size (repair_recordings.py l.36-46), for one dataset; `volt` is the number of voltages at the start, before the loop. -/
def sizeStep (volt : ℕ) (n : DsName) (f : H5File) : H5File × Except PyErr Unit :=
  if volt ≠ f.size n then
    modifyFile fl f {} (fun s => (s.prim (.resize .voltage (min volt (f.size n)))).prim (.resize n (min volt (f.size n))))
  else (f, .ok ())

/-- Datasets that do not end with a buffer (repair_recordings.py l.48-55). -/
def alignStep (f : H5File) : H5File × Except PyErr Unit :=
  if f.size .voltage % 10000 ≠ 0 then modifyFile fl f {} id else (f, .ok ())

/-- The mode for an unknown one (repair_recordings.py l.60-64). -/
def repairMode (mode : String) : String := if inText "har" mode then "harvester" else if inText "emu" mode then "emulator" else "harvester"

/-- Unknown modes (repair_recordings.py l.57-69). -/
def modeStep (f : H5File) : H5File × Except PyErr Unit :=
  if (modeDtypes (getMode f.attrs)).isNone then modifyFile fl f { mode := some (repairMode (getMode f.attrs)) } id else (f, .ok ())

/-- The attributes of group "data".  Used in examples/repair_recordings.py l.20-103. -/
def H5File.dattrs (f : H5File) : Attrs := match f.data with | some g => g.attrs | none => fun _ => none

/-- The data type for one that does not fit (repair_recordings.py l.74-76): `str(None)` does not contain "curv". -/
def repairType (t : Option EnergyDType) : EnergyDType := if t = some .ivcurve then .ivcurve else .ivsample

/-- Data types that do not fit the mode (repair_recordings.py l.71-81); the variable `mode` is the mode in the file. -/
def typeStep (f : H5File) : H5File × Except PyErr Unit :=
  match modeDtypes (getMode f.attrs) with
  | none => (f, .error .keyError)
  | some l =>
    if !dtypeStoredOk l (getDatatype f.dattrs) then modifyFile fl f { datatype := some (repairType (getDatatype f.dattrs)).name } id else (f, .ok ())

/-- A missing name of the host (repair_recordings.py l.94-100). -/
def hostStep (f : H5File) : H5File × Except PyErr Unit :=
  if (f.attrs "hostname").isNone then modifyFile fl f {} (fun s => s.storeHostname "SheepX") else (f, .ok ())

/-- A missing size of windows (repair_recordings.py l.83-92): for curves the rest is left out. -/
def windowStep (f : H5File) : H5File × Except PyErr Unit :=
  if (f.dattrs "window_samples").isNone then
    if getDatatype f.dattrs = some .ivcurve then (f, .ok ())
    else seqSteps [fun f => modifyFile fl f { window := some 0 } id, hostStep fl] f
  else hostStep fl f

/-- The repair of one file (repair_recordings.py l.23-103). -/
def repairFile (f : H5File) : H5File × Except PyErr Unit :=
  match openSession fl f with
  | .error e => (f, .error e)
  | .ok _ =>
    seqSteps [sizeStep fl (f.size .voltage) .current, sizeStep fl (f.size .voltage) .time, alignStep fl, modeStep fl, typeStep fl, windowStep fl] f

/-- The script (repair_recordings.py l.19-103): all files of a directory in some order, up to the first exception. -/
def repairAll : List H5File → List H5File × Except PyErr Unit
  | [] => ([], .ok ())
  | f :: l =>
    match repairFile fl f with
    | (f', .error e) => (f' :: l, .error e)
    | (f', .ok _) => (f' :: (repairAll l).1, (repairAll l).2)

end
end Verif.Model
