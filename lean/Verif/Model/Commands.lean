import Verif.Model.Meta
import Verif.Model.Export
import Verif.Model.Plot
import Verif.Model.Cli

/-!
# More commands

Models `shepherd_data/shepherd_data/cli.py` l.131-159 (`extract`), l.178-206 (`extract-meta`) and l.386-431 (`plot`), with `shepherd_data/shepherd_data/reader.py` l.596-626
(`multiplot_to_file`).

Not modelled: the separator of CSV files, sizes of pictures, logging.
-/

namespace Verif.Model
open Verif.Py

/-- The loop of a command over files: each is handled, some exceptions are logged and the next file is taken, others end the command.  Used in the loops of cli.py l.76-431. -/
def cmdLoop {α S : Type} (caught : PyErr → Bool) (step : α → S → S × Except PyErr Unit) : List α → S → S × Except PyErr Unit
  | [], s => (s, .ok ())
  | a :: t, s =>
    match step a s with
    | (s', .ok _) => cmdLoop caught step t s'
    | (s', .error e) => if caught e then cmdLoop caught step t s' else (s', .error e)

/-- `except TypeError` (cli.py l.205, l.422) -/
def typeCaught : PyErr → Bool
  | .typeError => true
  | _ => false

/-! ## extract -/

/-- A numeric attribute.  Used in attributes of writer.py l.231-280. -/
def Attrs.number (a : Attrs) (k : String) : Option ℚ :=
  match a k with
  | some (.num q) => some q
  | _ => none

/-- A text as attribute.  Used in attributes of writer.py l.231-280. -/
def Attrs.text (a : Attrs) (k : String) : Option String :=
  match a k with
  | some (.str s) => some s
  | _ => none

/-- `h5file["data"]` as `save_csv` sees it: the members of a group are sorted by name.  Used in `save_csv`, shepherd_data/reader.py l.45-94. -/
def Session.csvGroup (s : Session) : CsvGroup where
  timeDescription := (s.ds .time).attrs.text "description"
  timeGain := (s.ds .time).attrs.number "gain"
  time := s.get .time
  others := [DsName.current, DsName.voltage].map (fun n => {
    description := (s.ds n).attrs.text "description"
    gain := (s.ds n).attrs.number "gain"
    offset := (s.ds n).attrs.number "offset"
    rows := (s.get n).map (fun x : ℤ => [(x : ℚ)]) })

section
variable (fl : ℚ → ℚ) {σ : Type}

/-- The factor of `extract` (cli.py l.145-147). -/
def extractFactor (factor : ℚ) : ℚ := if factor < 1 then 1000 else factor

/-- Recordings and CSV files; a CSV file is found by the path of its recording, whose suffix `.h5` it replaces by `.data.csv`.  Used in `save_csv`, shepherd_data/reader.py l.45-94. -/
abbrev CsvDir := Files × (String → Option CsvFile)

/-- One file of `extract` (cli.py l.151-157). -/
def extractFile (f : SampleFilter ℤ σ) (start stop : Option ℚ) (factor : ℚ) (raw : Bool) (x : String × DiskFile) (d : CsvDir) : CsvDir × Except PyErr Unit :=
  match openReader fl x.2 with
  | .error e => (d, .error e)
  | .ok s =>
    match s.cutToFile fl f d.1 x.1 start stop (extractFactor factor) with
    | (fs, .error e) => ((fs, d.2), .error e)
    | (fs, .ok dst) =>
      match fs dst with
      | none => ((fs, d.2), .error .keyError)
      | some h =>
        match openSession fl h with
        | .error e => ((fs, d.2), .error e)
        | .ok o =>
          match saveCsv fl raw (d.2 dst) (some o.csvGroup) with
          | (csv, r) => ((fs, fun p => if p = dst then csv else d.2 p), r.map (fun _ => ()))

/-- `extract` (cli.py l.131-159). -/
def cliExtract (f : SampleFilter ℤ σ) (start stop : Option ℚ) (factor : ℚ) (raw : Bool) (files : List (String × DiskFile)) (d : CsvDir) : CsvDir × Except PyErr Unit :=
  cmdLoop cliCaught (extractFile fl f start stop factor raw) files d

/-! ## extract-meta -/

/-- A group of logs: time stamps (if there are any), members, and what the output of its warnings leads to.  Used in shepherd_data/reader.py l.96-166. -/
structure LogGroup where
  time : Option (List ℤ)
  members : List LogMember
  warn : Except PyErr Unit

/-- What `extract-meta` finds at a path: no recording (TypeError), or one with its metadata, tables and logs.  Used in `extract_meta`, cli.py l.181-206. -/
inductive MetaSource
  | unreadable
  | recording (metadata : Except PyErr MetaMap) (tables : String → Option (Option CsvGroup)) (logs : String → Option LogGroup)

/-- A file that is written.  Used in `extract_meta`, cli.py l.181-206. -/
inductive OutFile
  | yaml (m : MetaFile)
  | csv (c : CsvFile)
  | log (l : List (Option ℤ × List String))

/-- The files next to the recordings.  Used in `extract_meta`, cli.py l.181-206. -/
abbrev OutDir := String → Option OutFile

/-- A file is written or stays as it is.  Used in `extract_meta`, cli.py l.181-206. -/
def OutDir.put (d : OutDir) (path : String) (o : Option OutFile) : OutDir := fun p => if p = path then o else d p

/-- The tables that are exported (cli.py l.193-194). -/
def tableNames : List String := ["ptp", "sys_util", "pru_util", "sysutil", "timesync"]

/-- The logs that are exported (cli.py l.198-199). -/
def logNames : List String := ["sheep", "kernel", "phc2sys", "uart", "shepherd-log", "dmesg", "exceptions"]

/-- `save_metadata` with its file (cli.py l.192). -/
def metaStep (stem : String) (m : Except PyErr MetaMap) (d : OutDir) : OutDir × Except PyErr Unit :=
  if (d (stem ++ ".yaml")).isSome then (d, .ok ())
  else
    match m with
    | .error e => (d, .error e)
    | .ok m => (d.put (stem ++ ".yaml") (some (.yaml (.done m))), .ok ())

/-- One table (cli.py l.195-197). -/
def tableStep (stem : String) (tables : String → Option (Option CsvGroup)) (name : String) (d : OutDir) : OutDir × Except PyErr Unit :=
  match tables name with
  | none => (d, .ok ())
  | some g =>
    let path := stem ++ "." ++ name ++ ".csv"
    if (d path).isSome then (d, .ok ())
    else
      match saveCsv fl false none g with
      | (o, r) => (d.put path (o.map .csv), r.map (fun _ => ()))

/-- One log (cli.py l.200-204). -/
def logStep (stem : String) (logs : String → Option LogGroup) (name : String) (d : OutDir) : OutDir × Except PyErr Unit :=
  match logs name with
  | none => (d, .ok ())
  | some g =>
    let path := stem ++ "." ++ name ++ ".log"
    if (d path).isSome then (d, g.warn)
    else
      match saveLog fl true none g.time g.members with
      | (o, .error e) => (d.put path (o.map .log), .error e)
      | (o, .ok _) => (d.put path (o.map .log), g.warn)

/-- Steps one after the other, up to the first exception.  Used in `extract_meta`, cli.py l.181-206. -/
def seqSteps {S : Type} : List (S → S × Except PyErr Unit) → S → S × Except PyErr Unit
  | [], s => (s, .ok ())
  | f :: t, s =>
    match f s with
    | (s', .ok _) => seqSteps t s'
    | (s', .error e) => (s', .error e)

/-- One file of `extract-meta` (cli.py l.190-204). -/
def metaFile (x : String × MetaSource) (d : OutDir) : OutDir × Except PyErr Unit :=
  match x.2 with
  | .unreadable => (d, .error .typeError)
  | .recording m tables logs =>
    seqSteps (metaStep x.1 m :: (tableNames.map (tableStep fl x.1 tables) ++ logNames.map (logStep fl x.1 logs))) d

/-- `extract-meta` (cli.py l.178-206). -/
def cliMeta (files : List (String × MetaSource)) (d : OutDir) : OutDir × Except PyErr Unit := cmdLoop typeCaught (metaFile fl) files d

/-! ## plot -/

/-- A picture: the data of its traces, and whether it shows the power only.  Used in shepherd_data/reader.py l.457-626, cli.py l.396-431. -/
structure Picture where
  traces : List PlotData
  onlyPower : Bool
deriving DecidableEq

/-- The pictures next to the recordings.  Used in shepherd_data/reader.py l.457-626, cli.py l.396-431. -/
abbrev PicDir := String → Option Picture

/-- The name of a picture for a range of time.  Used in shepherd_data/reader.py l.457-626, cli.py l.396-431. -/
def picName (stem kind : String) (d : PlotData) : String := stem ++ kind ++ secStr d.start ++ "_to_" ++ secStr d.stop ++ ".png"

/-- One file of `plot` (cli.py l.411-421, reader.py l.579-594). -/
def plotFile (f : SampleFilter ℚ σ) (start stop : Option ℚ) (onlyPower : Bool) (x : String × DiskFile) (d : PicDir) : PicDir × Except PyErr Unit :=
  match openReader fl x.2 with
  | .error e => (d, .error e)
  | .ok s =>
    match s.plotData fl f start stop true with
    | .error e => (d, .error e)
    | .ok none => (d, .ok ())
    | .ok (some t) =>
      let path := picName x.1 ".plot_" t
      if (d path).isSome then (d, .ok ()) else (fun p => if p = path then some ⟨[t], onlyPower⟩ else d p, .ok ())

/-- One file of `plot --multiplot` (cli.py l.413-419): its data is collected. -/
def multiFile (f : SampleFilter ℚ σ) (start stop : Option ℚ) (x : String × DiskFile) (data : List PlotData) : List PlotData × Except PyErr Unit :=
  match openReader fl x.2 with
  | .error e => (data, .error e)
  | .ok s =>
    match s.plotData fl f start stop true with
    | .error e => (data, .error e)
    | .ok none => (data, .ok ())
    | .ok (some t) => (data ++ [t], .ok ())

/-- `multiplot_to_file` (reader.py l.596-626): the range of the first trace names the picture. -/
def multiplotToFile (stem : String) (data : List PlotData) (onlyPower : Bool) (d : PicDir) : PicDir × Except PyErr Unit :=
  match data with
  | [] => (d, .error .indexError)
  | t :: _ =>
    let path := picName stem ".multiplot_" t
    if (d path).isSome then (d, .ok ()) else (fun p => if p = path then some ⟨data, onlyPower⟩ else d p, .ok ())

/-- `plot` (cli.py l.386-431); `stem` is the path given by the user, without suffix. -/
def cliPlot (f : SampleFilter ℚ σ) (start stop : Option ℚ) (multi onlyPower : Bool) (stem : String) (files : List (String × DiskFile)) (d : PicDir) : PicDir × Except PyErr Unit :=
  if multi && decide (1 < files.length) then
    match cmdLoop typeCaught (multiFile fl f start stop) files [] with
    | (_, .error e) => (d, .error e)
    | (data, .ok _) => multiplotToFile stem data onlyPower d
  else cmdLoop typeCaught (plotFile fl f start stop onlyPower) files d

end
end Verif.Model
