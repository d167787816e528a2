import Verif.Model.Reports

/-!
# Export of recordings to text

Models `shepherd_data/shepherd_data/reader.py` l.45-94 (`save_csv`), l.96-128 (`save_log`) and l.130-166 (`warn_logs`).

Values stay numbers and time stamps stay microseconds: the formatting of numbers and dates as text, the separator and the encoding are not modelled.
-/

namespace Verif.Model
open Verif.Py

section
variable (fl : ℚ → ℚ)

/-- The microseconds of `datetime.fromtimestamp(x)` for `x ≥ 0`: whole seconds, and the fraction rounded to even (CPython, `_PyTime_DoubleToDenominator`).  Used in `save_csv`, shepherd_data/reader.py l.45-94. -/
def microStamp (x : ℚ) : ℤ := ⌊x⌋ * 10^6 + pyRound (fl ((x - ⌊x⌋) * 10^6))

/-! ## CSV -/

/-- A dataset of a group: description and calibration are attributes that can be missing, each row is a number or an array.  Used in `save_csv`, shepherd_data/reader.py l.45-94. -/
structure CsvDset where
  description : Option String
  gain : Option ℚ
  offset : Option ℚ
  rows : List (List ℚ)

/-- A group with a dataset "time" and other ones.  Used in `save_csv`, shepherd_data/reader.py l.45-94. -/
structure CsvGroup where
  timeDescription : Option String
  timeGain : Option ℚ
  time : List ℤ
  others : List CsvDset

/-- A CSV file: descriptions of the columns, and rows of a time stamp and the values for each dataset.  Used in `save_csv`, shepherd_data/reader.py l.45-94. -/
structure CsvFile where
  header : List String
  rows : List (ℤ × List (List ℚ))
deriving DecidableEq

/-- One value (reader.py l.88-89); missing attributes are replaced by 1.0, both of them (l.77-82). -/
def csvValue (raw : Bool) (gain offset : Option ℚ) (v : ℚ) : ℚ :=
  if raw then v else fl (fl (fl v * gain.getD 1) + offset.getD 1)

/-- The values of a row (reader.py l.86-92), `IndexError` if a dataset is too short. -/
def csvRow (raw : Bool) (idx : ℕ) : List CsvDset → Except PyErr (List (List ℚ))
  | [] => .ok []
  | d :: t =>
    match d.rows[idx]? with
    | none => .error .indexError
    | some vs =>
      match csvRow raw idx t with
      | .error e => .error e
      | .ok r => .ok (vs.map (csvValue fl raw d.gain d.offset) :: r)

/-- The rows of the file (reader.py l.83-93): those that were written, and the exception. -/
def csvRows (raw : Bool) (gain : ℚ) (others : List CsvDset) : ℕ → List ℤ → List (ℤ × List (List ℚ)) × Option PyErr
  | _, [] => ([], none)
  | idx, t :: ts =>
    match csvRow fl raw idx others with
    | .error e => ([], some e)
    | .ok r =>
      let (rows, e) := csvRows raw gain others (idx + 1) ts
      ((microStamp fl (fl (fl t * gain)), r) :: rows, e)

/-- The header, `KeyError` if a description is missing (reader.py l.69-72). -/
def csvHeader (descriptions : List (Option String)) : Except PyErr (List String) :=
  if descriptions.all Option.isSome then .ok (descriptions.filterMap id) else .error .keyError

/-- `save_csv` (reader.py l.45-94) with the file of that name before (`none` if there is none): the file afterwards and the number of rows.  A row that is not finished is left out. -/
def saveCsv (raw : Bool) (old : Option CsvFile) (group : Option CsvGroup) : Option CsvFile × Except PyErr ℕ :=
  match group with
  | none => (old, .ok 0)
  | some g =>
    if g.time.length < 1 then (old, .ok 0)
    else if old.isSome then (old, .ok 0)
    else
      match csvHeader (g.timeDescription :: g.others.map CsvDset.description) with
      | .error e => (old, .error e)
      | .ok header =>
        match csvRows fl raw (g.timeGain.getD (fl (1 / 10^9))) g.others 0 g.time with
        | (rows, some e) => (some { header, rows }, .error e)
        | (rows, none) => (some { header, rows }, .ok g.time.length)

/-! ## Logs -/

/-- A member of a group of logs besides "time": a dataset, whose elements can be unreadable (`OSError`), or a group.  Used in `save_log`, `warn_logs`, shepherd_data/reader.py l.96-166. -/
inductive LogMember
  | dset (elements : List (Option String))
  | group

/-- The messages of a line (reader.py l.120-125); indexing with the `[]` of a group (l.112) is a TypeError. -/
def logMessages (idx : ℕ) : List LogMember → Except PyErr (List String)
  | [] => .ok []
  | .group :: _ => .error .typeError
  | .dset els :: t =>
    match els[idx]? with
    | none => .error .indexError
    | some m =>
      match logMessages idx t with
      | .error e => .error e
      | .ok r => .ok (m.getD "[[[ extractor - faulty element ]]]" :: r)

/-- The lines of the log (reader.py l.116-126): a time stamp if wanted, and the messages. -/
def logLines (stamped : Bool) (members : List LogMember) : ℕ → List ℤ → List (Option ℤ × List String) × Option PyErr
  | _, [] => ([], none)
  | idx, t :: ts =>
    match logMessages idx members with
    | .error e => ([], some e)
    | .ok r =>
      let (rows, e) := logLines stamped members (idx + 1) ts
      ((if stamped then some (microStamp fl (fl (fl t / 10^9))) else none, r) :: rows, e)

/-- `save_log` (reader.py l.96-127): the file afterwards and the number of entries.  A line that is not finished is left out. -/
def saveLog (stamped : Bool) (old : Option (List (Option ℤ × List String))) (time : Option (List ℤ)) (members : List LogMember) :
    Option (List (Option ℤ × List String)) × Except PyErr ℕ :=
  match time with
  | none => (old, .ok 0)
  | some ts =>
    if ts.length < 1 then (old, .ok 0)
    else if old.isSome then (old, .ok 0)
    else
      match logLines fl stamped members 0 ts with
      | (rows, some e) => (some rows, .error e)
      | (rows, none) => (some rows, .ok ts.length)

/-- An entry of the log of the testbed.  Used in `save_log`, `warn_logs`, shepherd_data/reader.py l.96-166. -/
structure LogEntry where
  time : ℤ
  level : ℤ
  message : String
deriving DecidableEq

/-- The loop of `warn_logs` (reader.py l.151-165): the entries that are shown. -/
def warnLoop (minLevel : ℤ) : ℤ → List LogEntry → List LogEntry
  | _, [] => []
  | limit, e :: t =>
    if e.level < minLevel then warnLoop minLevel limit t
    else if limit - 1 < 1 then [e]
    else e :: warnLoop minLevel (limit - 1) t

/-- `warn_logs` (reader.py l.130-166) for a group with all its datasets: the entries that are shown and the number of entries. -/
def warnLogs (minLevel limit : ℤ) (shown : Bool) (log : List LogEntry) : List LogEntry × ℕ :=
  let count := countErrors (some (log.map LogEntry.level)) minLevel
  if count < 1 then ([], 0)
  else if !shown then ([], count)
  else (warnLoop minLevel limit log, count)

end
end Verif.Model
