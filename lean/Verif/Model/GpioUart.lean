import Verif.Model.Baud
import Verif.Model.Reports
import Verif.Model.Export
import Verif.Model.Fixtures
import Mathlib.Data.List.Infix

/-!
# Traces of pins

Models `shepherd_core/shepherd_core/reader.py` l.656-664 (`get_gpio_pin_num`), l.677-700 (`gpio_to_waveforms`), l.702-710 (`waveform_to_csv`) and l.712-732 (`gpio_to_uart`), and the commands
`extract_uart` and `extract_gpio` of `shepherd_data/shepherd_data/cli.py` (l.209-277).

The description of the pins is a mapping from numbers to names in the order of the file.  Numbers of pins are natural numbers.  Logging is left out; the branch that writes
a file while decoding (reader.py l.718-720) is switched off in the code.
-/

namespace Verif.Model
open Verif.Py

/-- The group "gpio" of a recording: time stamps in ns, states of all pins as one number, and names of the pins.  Used in reader.py l.656-700. -/
structure GpioLog where
  time : List ℤ
  value : List ℤ
  pins : List (ℕ × String)

/-- `name in text`.  Used in reader.py l.656-700. -/
def inText (name text : String) : Bool := decide (name.toList <:+: text.toList)

/-- `get_gpio_pin_num` (reader.py l.656-664). -/
def GpioLog.pinNum (g : GpioLog) (name : String) : Option ℕ := (g.pins.find? (fun d => inText name d.2)).map (·.1)

/-- `gpio_to_waveforms` with a name (reader.py l.677-700): `0b1 << None` raises TypeError. -/
def GpioLog.waveformOf (g : GpioLog) (name : String) : Except PyErr (List (ℤ × ℤ)) :=
  match g.pinNum name with
  | none => .error .typeError
  | some pin => pinWaveform g.time g.value pin

/-- The names of all pins with their numbers (reader.py l.687): the last one counts if a name is used twice. -/
def GpioLog.pinDict (g : GpioLog) : List (String × ℕ) := g.pins.foldl (fun d p => dictSet d p.2 p.1) []

/-- The loop over the pins (reader.py l.691-699). -/
def allWaveforms (time value : List ℤ) : List (String × ℕ) → Except PyErr (List (String × List (ℤ × ℤ)))
  | [] => .ok []
  | (name, pin) :: t =>
    match pinWaveform time value pin with
    | .error e => .error e
    | .ok w =>
      match allWaveforms time value t with
      | .error e => .error e
      | .ok r => .ok ((name, w) :: r)

/-- `gpio_to_waveforms` without a name (reader.py l.677-700). -/
def gpioToWaveforms : Option GpioLog → Except PyErr (List (String × List (ℤ × ℤ)))
  | none => .ok []
  | some g => allWaveforms g.time g.value g.pinDict

section
variable (fl : ℚ → ℚ)

/-- The table for the decoder (reader.py l.722-723): floats, time in seconds. -/
def uartTable (wf : List (ℤ × ℤ)) : List (ℚ × ℚ) := wf.map (fun r => (fl (fl r.1 / 10 ^ 9), fl r.2))

/-- `Uart(table).get_lines()` (reader.py l.726). -/
def decodeLines (npMean : List ℚ → ℚ) (table : List (ℚ × ℚ)) : Except PyErr (List (Option ℚ × List ℕ)) :=
  match uartDecodeAuto fl npMean 8 none table with
  | .error e => .error e
  | .ok symbols => getLines symbols

/-- `gpio_to_uart` (reader.py l.712-732). -/
def gpioToUart (npMean : List ℚ → ℚ) : Option GpioLog → Except PyErr (Option (List (Option ℚ × List ℕ)))
  | none => .ok none
  | some g =>
    match g.waveformOf "uart" with
    | .error e => .error e
    | .ok wf =>
      match decodeLines fl npMean (uartTable fl wf) with
      | .error .typeError => .ok none
      | .error .valueError => .ok none
      | .error e => .error e
      | .ok l => .ok (some l)

/-! ## Commands -/

/-- A log file: for each line the microseconds of its time stamp and its text.  Used in `extract_uart`, cli.py l.219-247. -/
abbrev UartLog := List (ℤ × List ℕ)

/-- The lines of the log (cli.py l.238-246): a line without time stamp raises TypeError, which is ignored. -/
def uartLog (lines : List (Option ℚ × List ℕ)) : UartLog := lines.filterMap (fun l => l.1.map (fun t => (microStamp fl t, l.2)))

/-- What `extract_uart` finds at a path: no recording (which raises TypeError), or one with or without a GPIO trace.  Used in `extract_uart`, cli.py l.219-247. -/
inductive GpioFile
  | unreadable
  | recording (gpio : Option GpioLog)

/-- `extract_uart` (cli.py l.209-247) for a list of files, given by their paths without suffix.  Only TypeErrors are caught. -/
def extractUart (npMean : List ℚ → ℚ) : List (String × GpioFile) → (String → Option UartLog) → (String → Option UartLog) × Except PyErr Unit
  | [], logs => (logs, .ok ())
  | (_, .unreadable) :: t, logs => extractUart npMean t logs
  | (stem, .recording g) :: t, logs =>
    match gpioToUart fl npMean g with
    | .error .typeError => extractUart npMean t logs
    | .error e => (logs, .error e)
    | .ok none => extractUart npMean t logs
    | .ok (some lines) =>
      let path := stem ++ ".uart_from_wf.log"
      if (logs path).isSome then extractUart npMean t logs
      else extractUart npMean t (fun p => if p = path then some (uartLog fl lines) else logs p)

end

/-- A file of `waveform_to_csv`: first line, separator of the other lines, times in seconds and states.  The numbers are written as they are.  Used in `waveform_to_csv`, reader.py l.702-710. -/
structure PinCsv where
  header : String
  separator : String
  rows : List (ℚ × ℤ)

/-- `waveform_to_csv` (reader.py l.702-710); `stem` is the path of the recording without suffix. -/
def waveformToCsv (fl : ℚ → ℚ) (sep : String) (files : String → Option PinCsv) (stem name : String) (wf : List (ℤ × ℤ)) : String → Option PinCsv :=
  let path := stem ++ ".waveform." ++ name ++ ".csv"
  if (files path).isSome then files
  else fun p => if p = path then some ⟨"timestamp [s]," ++ name, sep, wf.map (fun r => (fl (fl r.1 / 10 ^ 9), r.2))⟩ else files p

/-- `extract_gpio` (cli.py l.250-277). -/
def extractGpio (fl : ℚ → ℚ) (sep : String) : List (String × GpioFile) → (String → Option PinCsv) → (String → Option PinCsv) × Except PyErr Unit
  | [], files => (files, .ok ())
  | (_, .unreadable) :: t, files => extractGpio fl sep t files
  | (stem, .recording g) :: t, files =>
    match gpioToWaveforms g with
    | .error .typeError => extractGpio fl sep t files
    | .error e => (files, .error e)
    | .ok wfs => extractGpio fl sep t (wfs.foldl (fun fs w => waveformToCsv fl sep fs stem w.1 w.2) files)

end Verif.Model
