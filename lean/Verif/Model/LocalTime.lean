import Verif.Model.Export

/-!
# Local time

Models `shepherd_core/shepherd_core/data_models/base/timezone.py` (all of it), its uses for log files (`shepherd_data/shepherd_data/reader.py` l.84, 118, 156, `cli.py` l.240), for
calibrations (`base/calibration.py` l.197), for the age of the cache (`testbed_client/fixtures.py` l.165-170) and for start times of tasks (`task/harvest.py` l.57-68,
`task/emulation.py` l.98-109).

Points in time are microseconds since 1970 in UTC, local times are the microseconds a clock on the wall shows.  The calendar (years, months, days of a number of days) is not modelled.
-/

namespace Verif.Model
open Verif.Py

/-- What the operating system knows of the local zone: `-time.timezone`, `-time.altzone` (seconds), `time.daylight`, and when daylight saving time is used.  Used in timezone.py l.9-13. -/
structure Zone where
  std : ℤ
  dst : ℤ
  daylight : Bool
  inDst : ℤ → Bool

/-- The offset of `local_tz()` (timezone.py l.9-13). -/
def localTz (z : Zone) : ℤ := if z.daylight then z.dst else z.std

/-- The date and time in `datetime.fromtimestamp(t, tz=local_tz())` and `local_now()` (timezone.py l.16-18), with `t` in microseconds. -/
def shownTime (z : Zone) (t : ℤ) : ℤ := t + localTz z * 10^6

/-- The number of the day in `local_iso_date()` (timezone.py l.21-23). -/
def localIsoDate (z : Zone) (now : ℤ) : ℤ := shownTime z now / (86400 * 10^6)

/-- `file_older_than` (fixtures.py l.165-170): both sides are aware of the same offset, so that their local times are compared. -/
def fileOlderThan (fl : ℚ → ℚ) (z : Zone) (now : ℤ) (mtime : ℚ) (delta : ℤ) : Bool := shownTime z (microStamp fl mtime) < shownTime z now - delta

/-- What can be given as start of a task: a number (seconds since 1970), a text or object with an offset (seconds), or one without.  Used in harvest.py l.59-68, emulation.py l.100-109. -/
inductive StartArg
  | number (x : ℚ)
  | aware (wall : ℤ) (offset : ℤ)
  | naive (wall : ℤ)

/-- `naive.astimezone()` (PEP 495, `fold = 0`): the earlier of two possible points, and the offset before the change if there is none.  Used in harvest.py l.59-68, emulation.py l.100-109. -/
def astimezone (z : Zone) (wall : ℤ) : ℤ :=
  if z.daylight && z.inDst (wall - z.dst * 10^6) then wall - z.dst * 10^6 else wall - z.std * 10^6

/-- `pre_correction` of the tasks (harvest.py l.57-68, emulation.py l.98-109); the point in time that is meant by the result. -/
def startInstant (fl : ℚ → ℚ) (z : Zone) : StartArg → ℤ
  | .number x => shownTime z (microStamp fl x) - localTz z * 10^6
  | .aware wall offset => wall - offset * 10^6
  | .naive wall => astimezone z wall

end Verif.Model
