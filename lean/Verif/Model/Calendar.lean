import Verif.Model.LocalTime
import Verif.Model.Experiment

/-!
# Dates as text

Models the text of time stamps in tables and logs (`shepherd_data/shepherd_data/reader.py` l.84-85, l.118-120, `cli.py` l.240-241), in the names of directories for results
(`shepherd_core/shepherd_core/data_models/task/observer_tasks.py` l.61) and of `local_iso_date` (`base/timezone.py` l.21-23).  The calendar is that of the standard library (`datetime`, proleptic Gregorian).

Simplification: texts are lists of characters.
-/

namespace Verif.Model
open Verif.Py

/-- Year, month and day. -/
structure Ymd where
  year : ℕ
  month : ℕ
  day : ℕ
deriving DecidableEq

/-- Days in the months before the given one, in a year that is not a leap year (`_DAYS_BEFORE_MONTH` of `datetime`).  Used by the dates in reader.py l.84, l.118. -/
def daysBeforeMonth : ℕ → ℕ
  | 1 => 0 | 2 => 31 | 3 => 59 | 4 => 90 | 5 => 120 | 6 => 151 | 7 => 181 | 8 => 212 | 9 => 243 | 10 => 273 | 11 => 304 | 12 => 334 | _ => 365

/-- Month and day from the number of the day in the year, from 0 (second half of `_ord2ymd` of `datetime`).  Used by the dates in reader.py l.84, l.118. -/
def monthDay (leap : Bool) (n : ℕ) : ℕ × ℕ :=
  let month := (n + 50) / 32
  let preceding := daysBeforeMonth month + (if 2 < month ∧ leap then 1 else 0)
  if n < preceding then
    let before := daysBeforeMonth (month - 1) + (if 2 < month - 1 ∧ leap then 1 else 0)
    (month - 1, n - before + 1)
  else (month, n - preceding + 1)

/-- The date of a day, counted from 0001-01-01 (`_ord2ymd` of `datetime`).  Used by the dates in reader.py l.84, l.118. -/
def ordToYmd (ord : ℕ) : Ymd :=
  let n400 := ord / 146097
  let n := ord % 146097
  let n100 := n / 36524
  let n := n % 36524
  let n4 := n / 1461
  let n := n % 1461
  let n1 := n / 365
  let n := n % 365
  let year := n400 * 400 + 1 + n100 * 100 + n4 * 4 + n1
  if n1 = 4 ∨ n100 = 4 then ⟨year - 1, 12, 31⟩
  else
    let md := monthDay (n1 = 3 ∧ (n4 ≠ 24 ∨ n100 = 3)) n
    ⟨year, md.1, md.2⟩

/-- The day of a local time in microseconds since 1970, counted from 0001-01-01 (1970-01-01 is day 719162).  Used by the dates in reader.py l.84, l.118. -/
def dayOf (wall : ℤ) : ℕ := (wall / 86400000000 + 719162).toNat

/-- Microseconds since midnight.  Used by the dates in reader.py l.84, l.118. -/
def timeOfDay (wall : ℤ) : ℕ := (wall % 86400000000).toNat

/-- A digit as character.  Used by `strftime`, reader.py l.85, l.120. -/
def digitOf (n : ℕ) : Char := Char.ofNat (48 + n % 10)

/-- A number with a fixed number of digits.  Used by `strftime`, reader.py l.85, l.120. -/
def fixedDigits : ℕ → ℕ → List Char
  | 0, _ => []
  | k + 1, n => digitOf (n / 10^k) :: fixedDigits k n

/-- `%Y`: on Linux the year is not padded.  Used by `strftime`, reader.py l.85, l.120. -/
def yearText (y : ℕ) : List Char :=
  if y < 10 then fixedDigits 1 y else if y < 100 then fixedDigits 2 y else if y < 1000 then fixedDigits 3 y else fixedDigits 4 y

/-- `strftime("%Y-%m-%d %H:%M:%S.%f")` (reader.py l.85, l.120, cli.py l.241) of a local time. -/
def stampText (wall : ℤ) : List Char :=
  let d := ordToYmd (dayOf wall)
  let t := timeOfDay wall
  yearText d.year ++ '-' :: fixedDigits 2 d.month ++ '-' :: fixedDigits 2 d.day ++ ' ' :: fixedDigits 2 (t / 3600000000) ++ ':' :: fixedDigits 2 (t / 60000000 % 60) ++
    ':' :: fixedDigits 2 (t / 1000000 % 60) ++ '.' :: fixedDigits 6 (t % 1000000)

/-- `strftime("%Y-%m-%d_%H-%M-%S")` (observer_tasks.py l.61) of a local time. -/
def dirStamp (wall : ℤ) : List Char :=
  let d := ordToYmd (dayOf wall)
  let t := timeOfDay wall
  yearText d.year ++ '-' :: fixedDigits 2 d.month ++ '-' :: fixedDigits 2 d.day ++ '_' :: fixedDigits 2 (t / 3600000000) ++ '-' :: fixedDigits 2 (t / 60000000 % 60) ++
    '-' :: fixedDigits 2 (t / 1000000 % 60)

/-- `local_iso_date()` as text (timezone.py l.21-23); `isoformat` pads the year. -/
def isoDateText (z : Zone) (now : ℤ) : List Char :=
  let d := ordToYmd (localIsoDate z now + 719162).toNat
  fixedDigits 4 d.year ++ '-' :: fixedDigits 2 d.month ++ '-' :: fixedDigits 2 d.day

/-- The time stamp of a row of a table or a line of a log (reader.py l.84-85, l.118-120) in the local zone; `t` is the point in time in microseconds. -/
def rowStamp (z : Zone) (t : ℤ) : List Char := stampText (shownTime z t)

/-- The first column of an exported table (reader.py l.83-85). -/
def csvStamps (z : Zone) (file : CsvFile) : List (List Char) := file.rows.map (fun r => rowStamp z r.1)

/-- The name of the directory for the results (observer_tasks.py l.61): the start is a date with an offset in seconds, its own time of the day is printed. -/
def xpDirName (name : List Char) (start offset : ℤ) : List Char := name ++ '_' :: dirStamp (start + offset * 10^6)

end Verif.Model
