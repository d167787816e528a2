import Verif.Py.Err
import Mathlib.Algebra.Order.Ring.Int

/-!
# What is logged

Models `shepherd_core/shepherd_core/logger.py` (l.8-50), the loggers of `Reader` (`shepherd_core/shepherd_core/reader.py` l.72-75) and `Writer` (`writer.py` l.122-123, l.207), and how the
command line uses them (`shepherd_data/shepherd_data/cli.py` l.21, l.54 and the line `verbose_level = get_verbose_level()` of each command).

A logger of Python has a level of its own or that of its parent; it is found by its name, so all readers of a process share one.  Numbers: debug 10, info 20, warning 30, error 40.
Simplifications: handlers and formats of messages are left out; the root logger has its default level, warning (its level is only changed by `verbose == 0`, l.25, which `increase_verbose_level` never uses).
-/

namespace Verif.Model

/-- The state of logging in a process (logger.py l.9-13): `verbose_level`, the levels of the loggers "SHPCore", "SHPCore.Reader", "SHPCore.Writer", "SHPData.cli" (`none` is not set), and whether records
know their source (`logging._srcfile`, l.35). -/
structure LogState where
  level : ℤ
  core : Option ℕ
  reader : Option ℕ
  writer : Option ℕ
  cli : Option ℕ
  sources : Bool

/-- Before the import of the library (logger.py l.9-13). -/
def LogState.fresh : LogState := ⟨2, none, none, none, none, true⟩

/-- The level `set_log_verbose_level` (logger.py l.21-31) sets; `none` for negative numbers, for which nothing is set. -/
def verboseLevel (verbose : ℤ) : Option ℕ :=
  if verbose = 0 then some 40
  else if verbose = 1 then some 30
  else if verbose = 2 then some 20
  else if verbose > 2 then some 10
  else none

/-- `set_log_verbose_level(log, verbose)` (logger.py l.21-42): new level of the logger, given its old one. -/
def setVerbose (old : Option ℕ) (verbose : ℤ) : Option ℕ :=
  match verboseLevel verbose with
  | some n => some n
  | none => old

/-- The same call: what it does to the sources of records (logger.py l.33-37). -/
def keepsSources (old : Bool) (verbose : ℤ) : Bool := if verbose < 3 then false else old

/-- `increase_verbose_level` (logger.py l.45-50). -/
def raiseVerbose (s : LogState) (verbose : ℤ) : LogState :=
  if verbose ≥ s.level then
    let n := min (max verbose 0) 3
    { s with level := n, core := setVerbose s.core n, sources := keepsSources s.sources n }
  else s

/-- After the import (logger.py l.53). -/
def LogState.imported : LogState := raiseVerbose LogState.fresh 2

/-- The level a logger below "SHPCore" uses (`getEffectiveLevel` of Python; used in reader.py l.73, writer.py l.123). -/
def effective (own core : Option ℕ) : ℕ :=
  match own with
  | some n => n
  | none => core.getD 30

/-- What a program does that matters to logging. -/
inductive LogStep
  /-- `increase_verbose_level(n)` (logger.py l.45) -/
  | increase (n : ℤ)
  /-- `Reader(file, verbose=..)` (reader.py l.61-75) -/
  | reader (verbose : Option Bool)
  /-- `Writer(file, verbose=..)` (writer.py l.122-123, l.207 and reader.py l.74-75) -/
  | writer (verbose : Option Bool)
  /-- start of the command line with or without `-v` (cli.py l.52-54) -/
  | start (verbose : Bool)

/-- `self._logger.setLevel(logging.DEBUG if verbose else logging.INFO)` (reader.py l.74-75). -/
def ownLevel (old : Option ℕ) : Option Bool → Option ℕ
  | none => old
  | some true => some 10
  | some false => some 20

/-- One step (logger.py l.21-50, reader.py l.72-75, writer.py l.122-123, cli.py l.54). -/
def LogState.step (s : LogState) : LogStep → LogState
  | .increase n => raiseVerbose s n
  | .reader v => { s with reader := ownLevel s.reader v }
  | .writer v => { s with writer := ownLevel s.writer v }
  | .start v => { s with cli := setVerbose s.cli (if v then 3 else 2), sources := keepsSources s.sources (if v then 3 else 2) }

/-- A program from the import on (logger.py l.53). -/
def LogState.run (l : List LogStep) : LogState := l.foldl LogState.step LogState.imported

/-- How a command of the command line opens a file: `Reader(file, verbose=get_verbose_level() > 2)` (cli.py l.79-85, l.149-158, l.184-190, l.222-226, l.268-272, l.329-332, l.409-415). -/
def commandOpens (s : LogState) : LogStep := .reader (some (decide (s.level > 2)))

end Verif.Model
