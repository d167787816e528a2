import Verif.Model.Calibration
import Verif.Model.SourceConfig

/-!
# Recording files: writer and reader

Models `shepherd_core/shepherd_core/writer.py` l.54-383 and `shepherd_core/shepherd_core/reader.py` l.51-310, 312-438,
440-450 on an abstract HDF5 file: attributes are key-value maps, datasets are lists of integers.

Simplifications: compression, chunk shape, flushing, file sizes and data rates are left out; log messages are dropped (so the soft
criteria of `is_valid`); an attribute is a string, a number or a configuration (standing for its YAML text); the HDF5 library
converts integers beyond the width of a dataset by saturation.
-/

namespace Verif.Model
open Verif.Py

/-! ## The file -/

/-- The part of a stored configuration the reader looks at (reader.py l.286-288), and the rest. -/
structure Config where
  hrvVoltageStep : Option ℚ
  rest : String
deriving DecidableEq, Repr

/-- Value of an HDF5 attribute.  Used in writer.py l.174-280, l.364-383. -/
inductive Attr
  | str (s : String)
  | num (q : ℚ)
  | cfg (c : Config)
deriving DecidableEq, Repr

/-- Attributes of a node.  Used in writer.py l.174-280, l.364-383. -/
abbrev Attrs := String → Option Attr

/-- `node.attrs[k] = v`.  Used in writer.py l.174-280, l.364-383. -/
def Attrs.set (a : Attrs) (k : String) (v : Attr) : Attrs := fun k' => if k' = k then some v else a k'

/-- `if k not in node.attrs: node.attrs[k] = v`.  Used in writer.py l.174-280, l.364-383. -/
def Attrs.setDefault (a : Attrs) (k : String) (v : Attr) : Attrs := if (a k).isNone then a.set k v else a

/-- `if v is not None: node.attrs[k] = v`.  Used in writer.py l.174-280, l.364-383. -/
def Attrs.setSome (a : Attrs) (k : String) : Option Attr → Attrs
  | some v => a.set k v
  | none => a

/-- The three datasets of group "data".  Used in `_create_skeleton`, writer.py l.231-280. -/
inductive DsName
  | time
  | voltage
  | current
deriving DecidableEq, Repr

/-- A one-dimensional integer dataset.  Used in `_create_skeleton`, writer.py l.231-280. -/
structure Dset where
  data : List ℤ
  attrs : Attrs

/-- Largest value a dataset can hold: time is "u8", the others "u4" (writer.py l.231-280). -/
def DsName.max : DsName → ℤ
  | .time => 2^64 - 1
  | .voltage => 2^32 - 1
  | .current => 2^32 - 1

/-- Conversion by HDF5 when values are stored: saturation.  Used in `_create_skeleton`, writer.py l.231-280. -/
def DsName.clamp (n : DsName) (x : ℤ) : ℤ := Max.max 0 (min x n.max)

/-- Group "data".  Used in `_create_skeleton`, writer.py l.231-280. -/
structure DataGroup where
  attrs : Attrs
  dset : DsName → Option Dset

/-- A file: root attributes, group "data", levels of the log (group "sheep", dataset "level").  Used in `_create_skeleton`, writer.py l.231-280. -/
structure H5File where
  attrs : Attrs
  data : Option DataGroup
  logLevels : Option (List ℤ)

/-- `mode_dtype_dict` (reader.py l.51-58). -/
def modeDtypes (mode : String) : Option (List EnergyDType) :=
  if mode = "harvester" then some [.ivsample, .ivcurve, .iscVoc]
  else if mode = "emulator" then some [.ivsample]
  else none

/-- `EnergyDType.name` (energy_environment.py l.17-19). -/
def EnergyDType.name : EnergyDType → String
  | .ivsample => "ivsample"
  | .ivcurve => "ivcurve"
  | .iscVoc => "isc_voc"

/-- `EnergyDType[name]` with aliases (energy_environment.py l.17-19). -/
def dtypeOfName (s : String) : Option EnergyDType :=
  if s = "ivsample" ∨ s = "ivsamples" then some .ivsample
  else if s = "ivcurve" ∨ s = "ivcurves" ∨ s = "ivsurface" then some .ivcurve
  else if s = "isc_voc" then some .iscVoc
  else none

/-- `get_mode` (reader.py l.252-255); a mode that is no string is unknown to everybody. -/
def getMode (a : Attrs) : String :=
  match a "mode" with
  | some (.str s) => s
  | _ => ""

/-- `get_datatype` (reader.py l.267-276). -/
def getDatatype (d : Attrs) : Option EnergyDType :=
  match d "datatype" with
  | some (.str s) => dtypeOfName s
  | _ => none

/-- `get_window_samples` (reader.py l.247-250); attributes that are no numbers count as absent. -/
def getWindow (d : Attrs) : ℤ :=
  match d "window_samples" with
  | some (.num q) => pyInt q
  | _ => 0

/-- `get_hostname` (reader.py l.262-265). -/
def getHostname (a : Attrs) : String :=
  match a "hostname" with
  | some (.str s) => s
  | _ => "unknown"

/-- `get_config` (reader.py l.257-260): looks at the attributes of group "data"; `none` is the empty dict. -/
def getConfig (d : Attrs) : Option Config :=
  match d "config" with
  | some (.cfg c) => some c
  | _ => none

/-- `is_valid` (reader.py l.312-438), hard criteria. -/
def H5File.isValid (f : H5File) : Bool :=
  match f.data with
  | none => false
  | some g =>
    (match f.attrs "mode" with
      | none => false
      | some (.str s) => (modeDtypes s).isSome
      | some _ => false)
    && (g.attrs "window_samples").isSome && (g.attrs "datatype").isSome
    && [DsName.time, .current, .voltage].all (fun n =>
        match g.dset n with
        | none => false
        | some d => (d.attrs "gain").isSome && (d.attrs "offset").isSome)
    && (match modeDtypes (getMode f.attrs), getDatatype g.attrs with
        | some l, some t => l.contains t
        | _, _ => false)
    && !(decide (getDatatype g.attrs = some .ivcurve) && decide (getWindow g.attrs < 1))

/-! ## An opened file -/

/-- `samplerate_sps`, `sample_interval_ns`, `sample_interval_s` of a reader (reader.py l.77-80). -/
structure Stats where
  samplerate : ℤ
  intervalNs : ℤ
  intervalS : ℚ
deriving DecidableEq, Repr

/-- What a `Reader` or `Writer` holds after construction.  Used in reader.py l.61-151, writer.py l.103-207. -/
structure Session where
  attrs : Attrs
  dattrs : Attrs
  ds : DsName → Dset
  logLevels : Option (List ℤ)
  cal : CalSeries
  stats : Stats

/-- The file behind a session.  Used in reader.py l.61-151, writer.py l.103-207. -/
def Session.file (s : Session) : H5File where
  attrs := s.attrs
  data := some { attrs := s.dattrs, dset := fun n => some (s.ds n) }
  logLevels := s.logLevels

/-- Contents of a dataset.  Used in reader.py l.61-151, writer.py l.103-207. -/
def Session.get (s : Session) (n : DsName) : List ℤ := (s.ds n).data

section
variable (fl : ℚ → ℚ)

/-- `_refresh_file_stats` (reader.py l.171-191).  The runtime, only used for reports, is left out. -/
def refreshStats (cal : CalSeries) (time : List ℤ) (st : Stats) : Except PyErr Stats :=
  let count := time.length
  let duration : ℤ := if count > 0 then time.getD (count - 1) 0 - time.getD 0 0 else 0
  if count > 0 ∧ duration > 0 then
    let durationS := cal.time.rawToSi fl duration
    let intervalS := fl (durationS / (count : ℚ))
    if durationS = 0 then .error .zeroDivisionError
    else .ok {
      intervalS
      intervalNs := pyRound (fl (10^9 * intervalS))
      samplerate := max (pyRound (fl (((count - 1 : ℕ) : ℚ) / durationS))) 1 }
  else .ok st

/-- The statistics a reader starts with (reader.py l.77-80). -/
def Stats.init : Stats where
  samplerate := 100000
  intervalNs := 10^9 / 100000
  intervalS := fl (1 / 100000)

/-- One pair of the calibration retrieved from attributes, default if missing (reader.py l.126-131). -/
def pairOf (a : Attrs) (dflt : CalPair) : CalPair where
  gain := match a "gain" with | some (.num q) => q | _ => dflt.gain
  offset := match a "offset" with | some (.num q) => q | _ => dflt.offset

/-- The part of `Reader.__init__` after opening (reader.py l.120-134), for reader and writer. -/
def openSession (f : H5File) : Except PyErr Session :=
  match f.data with
  | none => .error .keyError
  | some g =>
    match g.dset .time, g.dset .voltage, g.dset .current with
    | some t, some v, some c =>
      let d := CalSeries.default fl
      let cal : CalSeries := { voltage := pairOf v.attrs d.voltage, current := pairOf c.attrs d.current, time := pairOf t.attrs d.time }
      if cal.voltage.Valid ∧ cal.current.Valid ∧ cal.time.Valid then
        match refreshStats fl cal t.data (Stats.init fl) with
        | .error e => .error e
        | .ok st => .ok {
            attrs := f.attrs, dattrs := g.attrs
            ds := fun n => match n with | .time => t | .voltage => v | .current => c
            logLevels := f.logLevels, cal, stats := st }
      else .error .valueError
    | _, _, _ => .error .keyError

/-! ## Writer -/

/-- `_create_skeleton` (writer.py l.231-280). -/
def skeleton : H5File where
  attrs := fun _ => none
  data := some {
    attrs := Attrs.set (fun _ => none) "window_samples" (.num 0)
    dset := fun n => some {
      data := []
      attrs := Attrs.set (Attrs.set (fun _ => none) "unit" (.str (match n with | .time => "s" | .voltage => "V" | .current => "A")))
        "description" (.str (match n with
          | .time => "system time [s] = value * gain + (offset)"
          | .voltage => "voltage [V] = value * gain + offset"
          | .current => "current [A] = value * gain + offset")) } }
  logLevels := none

/-- Arguments of `Writer.__init__` that go into the file (writer.py l.104-115); an `EnergyDType` is also a
string (its name); the calibration is already a series (l.190-191). -/
structure WriterArgs where
  mode : Option String := none
  datatype : Option String := none
  window : Option ℤ := none
  cal : Option CalSeries := none

/-- The argument `cal_data` (writer.py l.109): a series, or the calibration of a device. -/
inductive CalArg
  | series (c : CalSeries)
  | hrv (c : CalHarvester)
  | emu (c : CalEmulator)

/-- The series used (writer.py l.190-191, base/calibration.py l.271-281). -/
def CalArg.toSeries : CalArg → CalSeries
  | .series c => c
  | .hrv c => CalSeries.fromHrv fl c
  | .emu c => CalSeries.fromEmu fl c

/-- "Handle Mode" (writer.py l.156-159). -/
def putMode (a : Attrs) (mode : Option String) : Attrs :=
  (a.setSome "mode" (mode.map .str)).setDefault "mode" (.str "harvester")

/-- "Handle Datatype" (writer.py l.170-173). -/
def putDatatype (d : Attrs) (t : Option EnergyDType) : Attrs :=
  (d.setSome "datatype" (t.map (fun t => .str t.name))).setDefault "datatype" (.str EnergyDType.ivsample.name)

/-- "Handle Window_samples" (writer.py l.181-184). -/
def putWindow (d : Attrs) (w : Option ℤ) : Attrs :=
  (d.setSome "window_samples" (w.map (fun w => .num w))).setDefault "window_samples" (.num 0)

/-- One pair of "Handle Cal" (writer.py l.193-201): a given calibration is written, otherwise missing values
are set to the default. -/
def putPair (a : Attrs) (given : Option CalPair) (dflt : CalPair) : Attrs :=
  match given with
  | some c => (a.set "gain" (.num c.gain)).set "offset" (.num c.offset)
  | none => (a.setDefault "gain" (.num dflt.gain)).setDefault "offset" (.num dflt.offset)

/-- A pair of a series.  Used in reader.py l.61-151, writer.py l.103-207. -/
def CalSeries.get (c : CalSeries) : DsName → CalPair
  | .time => c.time
  | .voltage => c.voltage
  | .current => c.current

/-- "Handle Cal" (writer.py l.189-201) -/
def putCal (g : DataGroup) (cal : Option CalSeries) : DataGroup :=
  { g with dset := fun n => (g.dset n).map (fun d =>
      { d with attrs := putPair d.attrs (cal.map (·.get n)) ((CalSeries.default fl).get n) }) }

/-- The check of the argument `mode` (writer.py l.152-154). -/
def modeArgOk : Option String → Bool
  | some m => (modeDtypes m).isSome
  | none => true

/-- The conversion of the argument `datatype` (writer.py l.164-165). -/
def parseDatatype : Option String → Except PyErr (Option EnergyDType)
  | none => .ok none
  | some s => match dtypeOfName s with
    | none => .error .keyError
    | some t => .ok (some t)

/-- The check of the argument `datatype` (writer.py l.166-168). -/
def dtypeArgOk (dtypes : List EnergyDType) : Option EnergyDType → Bool
  | some t => dtypes.contains t
  | none => true

/-- The check of the stored datatype (writer.py l.174-178). -/
def dtypeStoredOk (dtypes : List EnergyDType) : Option EnergyDType → Bool
  | some t => dtypes.contains t
  | none => false

/-- `Writer.__init__` from "Handle Window_samples" on (writer.py l.180-207); `f` without its group, `g` the group so far. -/
def openWindow (f : H5File) (g : DataGroup) (dt : Option EnergyDType) (args : WriterArgs) : H5File × Except PyErr Session :=
  let g := { g with attrs := putWindow g.attrs args.window }
  if dt = some .ivcurve ∧ getWindow g.attrs < 1 then ({ f with data := some g }, .error .valueError)
  else if (g.dset .time).isNone ∨ (g.dset .current).isNone ∨ (g.dset .voltage).isNone then ({ f with data := some g }, .error .keyError)
  else
    let f := { f with data := some (putCal fl g args.cal) }
    (f, openSession fl f)

/-- `Writer.__init__` from "Handle Datatype" on (writer.py l.163-207). -/
def openDatatype (f : H5File) (dtypes : List EnergyDType) (args : WriterArgs) : H5File × Except PyErr Session :=
  match parseDatatype args.datatype with
  | .error e => (f, .error e)
  | .ok dt =>
    if !dtypeArgOk dtypes dt then (f, .error .valueError)
    else
      match f.data with
      | none => (f, .error .keyError)
      | some g =>
        let g := { g with attrs := putDatatype g.attrs dt }
        if !dtypeStoredOk dtypes (getDatatype g.attrs) then ({ f with data := some g }, .error .valueError)
        else openWindow fl f g dt args

/-- `Writer.__init__` from "open file" on (writer.py l.141-207): `old` is the existing file in modify mode, `none` if a file is created (or
truncated).  Result: the file as it is then, and the opened writer or the exception. -/
def writerOpen (old : Option H5File) (args : WriterArgs) : H5File × Except PyErr Session :=
  let f := old.getD skeleton
  if !modeArgOk args.mode then (f, .error .valueError)
  else
    let f := { f with attrs := putMode f.attrs args.mode }
    match modeDtypes (getMode f.attrs) with
    | none => (f, .error .keyError)
    | some dtypes => openDatatype fl f dtypes args

/-- The primitive operations on datasets, in program order a crash can come between any two of them.  Used in `append_iv_data_raw`, `_align`, writer.py l.282-319, l.347-362. -/
inductive PrimOp
  | resize (n : DsName) (len : ℕ)
  | write (n : DsName) (at_ : ℕ) (vals : List ℤ)
deriving DecidableEq, Repr

/-- `dset.resize`: cut at the end, or fill with zeros.  Used in `append_iv_data_raw`, `_align`, writer.py l.282-319, l.347-362. -/
def resizeList (l : List ℤ) (len : ℕ) : List ℤ := l.take len ++ List.replicate (len - l.length) 0

/-- `dset[at : at + len(vals)] = vals` (only within the dataset).  Used in `append_iv_data_raw`, `_align`, writer.py l.282-319, l.347-362. -/
def writeList (l : List ℤ) (at_ : ℕ) (vals : List ℤ) : List ℤ :=
  (l.take at_ ++ vals ++ l.drop (at_ + vals.length)).take l.length

/-- Effect of one primitive operation.  Used in `append_iv_data_raw`, `_align`, writer.py l.282-319, l.347-362. -/
def Session.prim (s : Session) : PrimOp → Session
  | .resize n len => { s with ds := fun m => if m = n then { s.ds m with data := resizeList (s.ds m).data len } else s.ds m }
  | .write n a vals =>
    { s with ds := fun m => if m = n then { s.ds m with data := writeList (s.ds m).data a (vals.map n.clamp) } else s.ds m }

/-- The argument `timestamp` of an append.  Used in `append_iv_data_raw`, `_align`, writer.py l.282-319, l.347-362. -/
inductive Stamp
  | int (t : ℤ)
  | float (t : ℚ)
  | array (ts : List ℤ)
  | other
deriving DecidableEq, Repr

/-- The timestamps of an append (writer.py l.299-307): a scalar start is continued in unsigned 64 bit arithmetic. -/
def stampList (st : Stats) (ts : Stamp) (len : ℕ) : Except PyErr (List ℤ) :=
  let series (t : ℤ) : Except PyErr (List ℤ) :=
    if 0 ≤ t ∧ t < 2^64 ∧ 0 ≤ st.intervalNs then
      .ok ((List.range len).map (fun i : ℕ => (t + st.intervalNs * (i : ℤ)) % 2^64))
    else .error .overflowError
  match ts with
  | .int t => series t
  | .float t => series (pyInt t)
  | .array l => .ok l
  | .other => .error .typeError

/-- The operations of `append_iv_data_raw` (writer.py l.309-319). -/
def appendOps (lenOld len : ℕ) (ts vs cs : List ℤ) : List PrimOp :=
  [.resize .time (lenOld + len), .resize .voltage (lenOld + len), .resize .current (lenOld + len),
   .write .time lenOld (ts.take len), .write .voltage lenOld (vs.take len), .write .current lenOld (cs.take len)]

/-- What `append_iv_data_raw` is going to do (writer.py l.297-319). -/
def Session.appendPlan (s : Session) (ts : Stamp) (vs cs : List ℤ) : Except PyErr (List PrimOp) :=
  let len := min vs.length cs.length
  match stampList s.stats ts len with
  | .error e => .error e
  | .ok tl => .ok (appendOps (s.get .voltage).length (min len tl.length) tl vs cs)

/-- `append_iv_data_raw` (writer.py l.282-319). -/
def Session.appendRaw (s : Session) (ts : Stamp) (vs cs : List ℤ) : Except PyErr Session :=
  match s.appendPlan ts vs cs with
  | .error e => .error e
  | .ok ops => .ok (ops.foldl Session.prim s)

/-- The argument `timestamp` of an append in SI units.  Used in `append_iv_data_si`, writer.py l.321-345. -/
inductive StampSi
  | float (t : ℚ)
  | array (ts : List ℚ)
deriving DecidableEq, Repr

/-- `append_iv_data_si` (writer.py l.321-345). -/
def Session.appendSi (s : Session) (ts : StampSi) (vs cs : List ℚ) : Except PyErr Session :=
  let stamp : Stamp := match ts with
    | .float t => .int (s.cal.time.siToRaw fl t)
    | .array l => .array ((s.cal.time.siToRawArr fl l).map (fun x => pyInt x))
  s.appendRaw stamp ((s.cal.voltage.siToRawArr fl vs).map (fun x => pyInt x)) ((s.cal.current.siToRawArr fl cs).map (fun x => pyInt x))

/-- `_refresh_file_stats` on an open file.  Used in reader.py l.171-191. -/
def Session.refresh (s : Session) : Except PyErr Session :=
  match refreshStats fl s.cal (s.get .time) s.stats with
  | .error e => .error e
  | .ok st => .ok { s with stats := st }

/-- `_align` (writer.py l.347-362). -/
def Session.align (s : Session) : Except PyErr Session :=
  match s.refresh fl with
  | .error e => .error e
  | .ok s =>
    let size := (s.get .voltage).length
    let sizeNew := pyInt (⌊fl ((size : ℚ) / 10000)⌋ * 10000 : ℤ)
    if sizeNew < size then
      if s.stats.samplerate ≠ 100000 then .ok s
      else .ok ([.resize .time sizeNew.toNat, .resize .voltage sizeNew.toNat, .resize .current sizeNew.toNat].foldl Session.prim s)
    else .ok s

/-- `__exit__` of the writer (writer.py l.213-229): the file that is left. -/
def Session.close (s : Session) : Except PyErr H5File :=
  match s.align fl with
  | .error e => .error e
  | .ok s =>
    match s.refresh fl with
    | .error e => .error e
    | .ok s => .ok s.file

/-- `__setitem__` (writer.py l.364-366), `store_config` (l.368-376), `store_hostname` (l.378-383): all set root attributes. -/
def Session.setRoot (s : Session) (k : String) (v : Attr) : Session := { s with attrs := s.attrs.set k v }
/-- `store_config` (writer.py l.368-376). -/
def Session.storeConfig (s : Session) (c : Config) : Session := s.setRoot "config" (.cfg c)
/-- `store_hostname` (writer.py l.378-383). -/
def Session.storeHostname (s : Session) (name : String) : Session := s.setRoot "hostname" (.str name)

/-! ## Reading -/

/-- `dset[a:b]`.  Used in reader.py l.193-238. -/
def slice (l : List ℤ) (a b : ℕ) : List ℤ := (l.take b).drop a

/-- `read_buffers` (reader.py l.193-238) with `is_raw`: one triple per buffer. -/
def Session.readRaw (s : Session) (startN : ℕ) (endN : Option ℕ) (n : ℕ) : List (List ℤ × List ℤ × List ℤ) :=
  let endMax := (s.get .voltage).length / n
  let e := match endN with | none => endMax | some e => min e endMax
  (List.range' startN (e - startN)).map (fun i =>
    (slice (s.get .time) (i * n) (i * n + n), slice (s.get .voltage) (i * n) (i * n + n), slice (s.get .current) (i * n) (i * n + n)))

/-- `read_buffers` in SI units (reader.py l.233-238). -/
def Session.readSi (s : Session) (startN : ℕ) (endN : Option ℕ) (n : ℕ) : List (List ℚ × List ℚ × List ℚ) :=
  (s.readRaw startN endN n).map (fun b =>
    (s.cal.time.rawToSiArr fl (b.1.map (fun x : ℤ => (x : ℚ))), s.cal.voltage.rawToSiArr fl (b.2.1.map (fun x : ℤ => (x : ℚ))),
     s.cal.current.rawToSiArr fl (b.2.2.map (fun x : ℤ => (x : ℚ)))))

end
end Verif.Model
