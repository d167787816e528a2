import Verif.Model.Store
import Verif.Model.Tasks

/-!
# Features of observers and metadata of contents

Models the settings of traces and actuation (`shepherd_core/shepherd_core/data_models/experiment/observer_features.py`, all but the times of events, which are in `Model/Store`),
pins (`shepherd_core/shepherd_core/data_models/testbed/gpio.py`), the validation of emulations (`shepherd_core/shepherd_core/data_models/task/emulation.py` l.44-131) and
`ContentModel` (`shepherd_core/shepherd_core/data_models/base/content.py` l.40-76).

Time spans are in micro-seconds.  Simplified: texts are already stripped of white space at their ends; all validation errors are ValueErrors, other exceptions of nested models
are raised as they are, before anything else is reported.
-/

namespace Verif.Model
open Verif.Py

/-! ## Power -/

/-- `PowerTracing` (observer_features.py l.19-38). -/
structure PowerTracing where
  delay : ℤ
  duration : Option ℤ
  calculatePower : Bool
  samplerate : ℤ
  discardCurrent : Bool
  discardVoltage : Bool

/-- `PowerTracing.post_validation` (observer_features.py l.40-52) with the limits of the rate (l.35). -/
def PowerTracing.validate (p : PowerTracing) : Except PyErr Unit :=
  if p.samplerate < 10 ∨ 100000 < p.samplerate then .error .valueError
  else if p.delay < 0 then .error .valueError
  else if (p.duration.map (fun d => decide (d < 0))).getD false then .error .valueError
  else if !p.calculatePower && (p.discardCurrent && p.discardVoltage) then .error .valueError
  else if p.calculatePower then .error .notImplementedError
  else .ok ()

/-! ## Pins -/

/-- `Direction` (testbed/gpio.py l.19-24). -/
inductive Direction
  | input
  | output
  | bidirectional
deriving DecidableEq

/-- `GPIO` (testbed/gpio.py l.27-41): the fields that are validated beyond their type. -/
structure Pin where
  name : String
  direction : Direction
  regPru : Option String
  pinPru : Option String
  regSys : Option ℕ
  pinSys : Option String
deriving DecidableEq

/-- `GPIO.post_validation` (testbed/gpio.py l.52-63). -/
def Pin.validate (p : Pin) : Except PyErr Unit :=
  let noPru := p.regPru = none ∨ p.pinPru = none
  let noSys := p.regSys = none ∨ p.pinSys = none
  if noPru ∧ noSys then .error .valueError else .ok ()

/-- `"gpio" in name.lower()` (testbed/gpio.py l.66). -/
def namedGpio : List Char → Bool
  | [] => false
  | c :: l => ['g', 'p', 'i', 'o'].isPrefixOf ((c :: l).map Char.toLower) || namedGpio l

/-- `user_controllable` (testbed/gpio.py l.65-66). -/
def Pin.userControllable (p : Pin) : Bool := namedGpio p.name.toList && (p.direction = .bidirectional || p.direction = .output)

/-! ## Traces of pins -/

/-- `GpioTracing` (observer_features.py l.55-77). -/
structure GpioTracing where
  mask : ℤ
  gpios : Option (List Pin)
  delay : ℤ
  duration : Option ℤ
  uartDecode : Bool
  uartPin : Pin
  uartBaudrate : ℤ

/-- `GpioTracing.post_validation` (observer_features.py l.79-87) with the limits of the fields (l.62-64, 76). -/
def GpioTracing.validate (g : GpioTracing) : Except PyErr Unit :=
  if g.mask < 0 ∨ 2 ^ 10 ≤ g.mask then .error .valueError
  else if (g.gpios.map (fun l => decide (l.length < 1 ∨ 10 < l.length) || l.any (fun p => p.validate ≠ .ok ()))).getD false then .error .valueError
  else if g.uartPin.validate ≠ .ok () then .error .valueError
  else if g.uartBaudrate < 2400 ∨ 921600 < g.uartBaudrate then .error .valueError
  else if g.mask = 0 then .error .valueError
  else if g.delay < 0 then .error .valueError
  else if (g.duration.map (fun d => decide (d < 0))).getD false then .error .valueError
  else .ok ()

/-! ## Actuation -/

/-- `GpioEvent` (observer_features.py l.98-108) with its pin. -/
structure PinEvent where
  event : GpioEvent
  pin : Pin

/-- `GpioEvent.post_validation` (observer_features.py l.110-115) with the limits of the fields. -/
def PinEvent.validate (e : PinEvent) : Except PyErr Unit :=
  if ¬e.event.valid then .error .valueError
  else if e.pin.validate ≠ .ok () then .error .valueError
  else if ¬e.pin.userControllable then .error .valueError
  else .ok ()

/-- `GpioActuation` (observer_features.py l.122-128). -/
def validateActuation (events : List PinEvent) : Except PyErr Unit :=
  if events.length < 1 ∨ 1024 < events.length then .error .valueError
  else if events.any (fun e => e.validate ≠ .ok ()) then .error .valueError
  else .ok ()

/-- `get_gpios` (observer_features.py l.130-131). -/
def actuationPins (events : List PinEvent) : List Pin := (events.map (·.pin)).dedup

/-! ## Emulation -/

/-- The second voltage (task/emulation.py l.79): a number or a text. -/
inductive AuxVoltage
  | volt (v : ℚ)
  | text (s : String)

/-- `EmulationTask` (task/emulation.py l.44-96): the fields that are validated beyond their type; `timeStart` is the point in time (see `startInstant`). -/
structure EmuSettings where
  timeStart : Option ℤ
  duration : Option ℤ
  voltageAux : AuxVoltage
  powerTracing : Option PowerTracing
  gpioTracing : Option GpioTracing
  gpioActuation : Option (List PinEvent)
  verbose : ℤ

/-- The limits of a number for the second voltage (task/emulation.py l.79). -/
def AuxVoltage.inRange : AuxVoltage → Bool
  | .volt v => 0 ≤ v && v ≤ 9 / 2
  | .text _ => true

/-- The allowed texts for the second voltage (task/emulation.py l.124-128). -/
def AuxVoltage.known : AuxVoltage → Bool
  | .volt _ => true
  | .text s => s = "main" || s = "buffer"

/-- `EmulationTask.post_validation` (task/emulation.py l.111-131) after the validation of the fields. -/
def EmuSettings.validate (now : ℤ) (t : EmuSettings) : Except PyErr Unit :=
  if optLoad PowerTracing.validate t.powerTracing = .error .notImplementedError then .error .notImplementedError
  else if ¬t.voltageAux.inRange then .error .valueError
  else if optLoad PowerTracing.validate t.powerTracing ≠ .ok () then .error .valueError
  else if optLoad GpioTracing.validate t.gpioTracing ≠ .ok () then .error .valueError
  else if optLoad validateActuation t.gpioActuation ≠ .ok () then .error .valueError
  else if t.verbose < 0 ∨ 4 < t.verbose then .error .valueError
  else if (t.timeStart.map (fun s => decide (s < now))).getD false then .error .valueError
  else if (t.duration.map (fun d => decide (d < 0))).getD false then .error .valueError
  else if ¬t.voltageAux.known then .error .valueError
  else if t.gpioActuation.isSome then .error .valueError
  else .ok ()

/-! ## Contents -/

/-- `ContentModel` (base/content.py l.40-61): the fields that are validated beyond their type. -/
structure Content where
  name : String
  description : Option String
  comment : Option String
  owner : String
  group : String
  visible2group : Bool
  visible2all : Bool

/-- `ContentModel.content_validation` (base/content.py l.68-76) with the limits of the fields. -/
def Content.validate (c : Content) : Except PyErr Unit :=
  if ¬isNameStr c.name then .error .valueError
  else if ¬((c.description.map isSafeStr).getD true) then .error .valueError
  else if ¬((c.comment.map isSafeStr).getD true) then .error .valueError
  else if ¬isNameStr c.owner then .error .valueError
  else if ¬isNameStr c.group then .error .valueError
  else if (c.visible2group || c.visible2all) && c.description = none then .error .valueError
  else .ok ()

end Verif.Model
