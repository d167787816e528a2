import Verif.Model.Calendar
import Verif.Model.YamlDump

/-!
# Dates in the files of models

Models how dates get into the files of models and back: `yaml.safe_dump` in `ShpModel.to_file` writes `isoformat(" ")` for the type `datetime` and `isoformat()` for `date`, `yaml.safe_load` in
`ShpModel.from_file` takes the text apart with a regular expression (`shepherd_core/shepherd_core/data_models/base/shepherd.py` l.124-165).

Simplifications: a date has an offset to UTC instead of a zone (the files have only the offset); a line feed at the end of a text is not considered.
-/

namespace Verif.Model
open Verif.Py

/-- Objects of the types `date` and `datetime`; the offset to UTC is in microseconds.  Used as `created`, `updated_last`, `time_start`, `time_prep`, `alive_last`, `calibrated`
(base/content.py l.51-52, base/wrapper.py l.22, experiment.py l.41, l.52, observer_tasks.py l.29, testbed/observer.py l.51-52, testbed/cape.py l.37-38). -/
inductive PyStamp
  | date (d : Ymd)
  | time (d : Ymd) (hour minute second micro : ℕ) (offset : Option ℤ)
deriving DecidableEq

/-- The offset in `isoformat`: hours and minutes, seconds and microseconds only where there are some.  Used in base/shepherd.py l.143-147. -/
def isoOffset (us : ℤ) : List Char :=
  (if us < 0 then '-' else '+') :: (fixedDigits 2 (us.natAbs / 3600000000) ++ ':' :: (fixedDigits 2 (us.natAbs / 60000000 % 60) ++
    (if us.natAbs % 60000000 = 0 then [] else ':' :: (fixedDigits 2 (us.natAbs / 1000000 % 60) ++ (if us.natAbs % 1000000 = 0 then [] else '.' :: fixedDigits 6 (us.natAbs % 1000000))))))

/-- `isoformat()` of a date.  Used in base/shepherd.py l.143-147. -/
def isoDate (d : Ymd) : List Char := fixedDigits 4 d.year ++ '-' :: (fixedDigits 2 d.month ++ '-' :: fixedDigits 2 d.day)

/-- `represent_date` and `represent_datetime` of PyYAML.  Used in base/shepherd.py l.143-147. -/
def isoText : PyStamp → List Char
  | .date d => isoDate d
  | .time d h m s f off => isoDate d ++ ' ' :: (fixedDigits 2 h ++ ':' :: (fixedDigits 2 m ++ ':' :: (fixedDigits 2 s ++ ((if f = 0 then [] else '.' :: fixedDigits 6 f) ++
      (match off with | none => [] | some us => isoOffset us)))))

/-- What reading a date can end with: the regular expression does not match (`AttributeError` on `None`), or there is no such date (`ValueError`).  Used in base/shepherd.py l.160. -/
inductive StampErr
  | noMatch
  | badValue
deriving DecidableEq

/-- `[0-9]` of the regular expression for dates.  Used in base/shepherd.py l.160. -/
def oneDigit : List Char → Option (ℕ × List Char)
  | c :: r => if '0' ≤ c ∧ c ≤ '9' then some (c.toNat - 48, r) else none
  | [] => none

/-- `[0-9]` a number of times, read as a number after `acc`.  Used in base/shepherd.py l.160. -/
def someDigits : ℕ → ℕ → List Char → Option (ℕ × List Char)
  | 0, acc, r => some (acc, r)
  | k + 1, acc, r => match oneDigit r with
    | some (a, r') => someDigits k (10 * acc + a) r'
    | none => none

/-- `[0-9][0-9]?`.  Used in base/shepherd.py l.160. -/
def oneOrTwo (r : List Char) : Option (ℕ × List Char) :=
  match oneDigit r with
  | none => none
  | some (a, r1) => match oneDigit r1 with
    | none => some (a, r1)
    | some (b, r2) => some (10 * a + b, r2)

/-- One given character.  Used in base/shepherd.py l.160. -/
def lit (c : Char) : List Char → Option (List Char)
  | x :: r => if x = c then some r else none
  | [] => none

/-- `[ \t]*`.  Used in base/shepherd.py l.160. -/
def skipBlanks : List Char → List Char
  | c :: r => if c = ' ' ∨ c = '\t' then skipBlanks r else c :: r
  | [] => []

/-- `[0-9]*`.  Used in base/shepherd.py l.160. -/
def allDigits : List Char → List Char × List Char
  | c :: r => if '0' ≤ c ∧ c ≤ '9' then (c :: (allDigits r).1, (allDigits r).2) else ([], c :: r)
  | [] => ([], [])

/-- `(year)-(month)-(day)` at the start of the text.  Used in base/shepherd.py l.160. -/
def readHead (t : List Char) : Option (Ymd × List Char) := do
  let (y, r) ← someDigits 4 0 t
  let r ← lit '-' r
  let (m, r) ← oneOrTwo r
  let r ← lit '-' r
  let (d, r) ← oneOrTwo r
  return (⟨y, m, d⟩, r)

/-- `[Tt]|[ \t]+` between date and time.  Used in base/shepherd.py l.160. -/
def readGap : List Char → Option (List Char)
  | c :: r => if c = 'T' ∨ c = 't' then some r else if c = ' ' ∨ c = '\t' then some (skipBlanks r) else none
  | [] => none

/-- `(hour):(minute):(second)`.  Used in base/shepherd.py l.160. -/
def readClock (t : List Char) : Option ((ℕ × ℕ × ℕ) × List Char) := do
  let (h, r) ← oneOrTwo t
  let r ← lit ':' r
  let (m, r) ← someDigits 2 0 r
  let r ← lit ':' r
  let (s, r) ← someDigits 2 0 r
  return ((h, m, s), r)

/-- The first six digits of a fraction, filled up with zeros.  Used in base/shepherd.py l.160. -/
def fractionValue (ds : List Char) : ℕ := ((ds.take 6 ++ List.replicate (6 - ds.length) '0').foldl (fun n c => 10 * n + (c.toNat - 48)) 0)

/-- `(?:\.(fraction))?`.  Used in base/shepherd.py l.160. -/
def readFraction (t : List Char) : ℕ × List Char :=
  match lit '.' t with
  | none => (0, t)
  | some r => (fractionValue (allDigits r).1, (allDigits r).2)

/-- The offset at the end of the text: nothing, `Z`, or a sign, hours and perhaps minutes; in microseconds.  Used in base/shepherd.py l.160. -/
def readOffset (t : List Char) : Option (Option ℤ) :=
  match t with
  | [] => some none
  | _ => match skipBlanks t with
    | ['Z'] => some (some 0)
    | c :: r =>
      if c = '+' ∨ c = '-' then
        match oneOrTwo r with
        | none => none
        | some (h, []) => some (some (if c = '-' then -(h * 3600000000 : ℤ) else (h * 3600000000 : ℤ)))
        | some (h, r1) => match lit ':' r1 with
          | none => none
          | some r2 => match someDigits 2 0 r2 with
            | some (m, []) => some (some (if c = '-' then -(h * 3600000000 + m * 60000000 : ℤ) else (h * 3600000000 + m * 60000000 : ℤ)))
            | _ => none
      else none
    | [] => none

/-- The length of a month, as checked by `date` and `datetime`.  Used in base/shepherd.py l.160. -/
def daysInMonth (y m : ℕ) : ℕ :=
  if m = 2 then (if y % 4 = 0 ∧ (y % 100 ≠ 0 ∨ y % 400 = 0) then 29 else 28) else if m = 4 ∨ m = 6 ∨ m = 9 ∨ m = 11 then 30 else 31

/-- The checks of `date(year, month, day)`.  Used in base/shepherd.py l.160. -/
def dateOk (d : Ymd) : Bool := decide (1 ≤ d.year ∧ d.year ≤ 9999 ∧ 1 ≤ d.month ∧ d.month ≤ 12 ∧ 1 ≤ d.day ∧ d.day ≤ daysInMonth d.year d.month)

/-- The checks of `datetime(...)` and `timezone(...)`.  Used in base/shepherd.py l.160. -/
def timeOk (h m s : ℕ) (off : Option ℤ) : Bool :=
  decide (h < 24 ∧ m < 60 ∧ s < 60) && (match off with | none => true | some us => decide (us.natAbs < 86400000000))

/-- `construct_yaml_timestamp` of PyYAML, called by `yaml.safe_load` for every date in a file (base/shepherd.py l.160). -/
def readStamp (t : List Char) : Except StampErr PyStamp :=
  match readHead t with
  | none => .error .noMatch
  | some (d, []) => if dateOk d then .ok (.date d) else .error .badValue
  | some (d, r) => match readGap r with
    | none => .error .noMatch
    | some r => match readClock r with
      | none => .error .noMatch
      | some ((h, m, s), r) => match readOffset (readFraction r).2 with
        | none => .error .noMatch
        | some off => if dateOk d && timeOk h m s off then .ok (.time d h m s (readFraction r).1 off) else .error .badValue

/-- What `yaml.safe_load` makes of a node written for a date (base/shepherd.py l.160); other nodes are no dates. -/
def readDateNode : YNode → Except StampErr PyStamp
  | .scalar .timestamp t => readStamp t
  | _ => .error .noMatch

/-- `datetime.fromtimestamp(t, tz=...)` with a fixed offset in seconds, `t` in microseconds (harvest.py l.63, emulation.py l.104, timezone.py l.16-18). -/
def stampAt (offset t : ℤ) : PyStamp :=
  let wall := t + offset * 1000000
  .time (ordToYmd (dayOf wall)) (timeOfDay wall / 3600000000) (timeOfDay wall / 60000000 % 60) (timeOfDay wall / 1000000 % 60) (timeOfDay wall % 1000000) (some (offset * 1000000))

/-- `_ymd2ord` of `datetime`, counted from 0.  Used by the comparison of times in harvest.py l.75, emulation.py l.116. -/
def ymdToOrd (d : Ymd) : ℕ :=
  365 * (d.year - 1) + (d.year - 1) / 4 - (d.year - 1) / 100 + (d.year - 1) / 400 + daysBeforeMonth d.month +
    (if 2 < d.month ∧ d.year % 4 = 0 ∧ (d.year % 100 ≠ 0 ∨ d.year % 400 = 0) then 1 else 0) + (d.day - 1)

/-- The point in time of a `datetime` with offset, in microseconds since 1970; others have none.  Used by the comparison of times in harvest.py l.75, emulation.py l.116. -/
def stampInstant : PyStamp → Option ℤ
  | .time d h m s f (some us) => some (((((ymdToOrd d : ℤ) - 719162) * 24 + h) * 60 + m) * 60000000 + s * 1000000 + f - us)
  | _ => none

end Verif.Model
