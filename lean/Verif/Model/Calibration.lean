import Verif.Py.Num

/-!
# Calibration pairs and hardware conversion formulas

Models `shepherd_core/shepherd_core/data_models/base/calibration.py` l.51-173 and
`shepherd_core/shepherd_core/calibration_hw_def.py`.
`fl` is the rounding of the float unit, applied after every float operation.
-/

namespace Verif.Model
open Verif.Py

/-- `CalibrationPair` (calibration.py l.51-56).  The display-only field `unit` is dropped here
(it is part of `Verif.Model.CalBytes`). -/
structure CalPair where
  gain : ℚ
  offset : ℚ
deriving DecidableEq, Repr

/-- The constraint `gain: PositiveFloat` (calibration.py l.54). -/
def CalPair.Valid (c : CalPair) : Prop := 0 < c.gain

instance (c : CalPair) : Decidable c.Valid := by unfold CalPair.Valid; infer_instance

section
variable (fl : ℚ → ℚ)

/-- `raw_to_si` for a scalar (calibration.py l.58-69).  `fl raw` is the int → float conversion of
the raw value. -/
def CalPair.rawToSi (c : CalPair) (raw : ℚ) (allowNegative : Bool := true) : ℚ :=
  let si := fl (fl (fl raw * c.gain) + c.offset)
  if !allowNegative then max si 0 else si

/-- `raw_to_si` for a numpy array (calibration.py l.60-64): masked assignment instead of `max`. -/
def CalPair.rawToSiArr (c : CalPair) (raws : List ℚ) (allowNegative : Bool := true) : List ℚ :=
  let sis := (raws.map (fun r => fl (fl r * c.gain))).map (fun x => fl (x + c.offset))
  if !allowNegative then sis.map (fun x => if x < 0 then 0 else x) else sis

/-- `si_to_raw` for a scalar (calibration.py l.71-80). -/
def CalPair.siToRaw (c : CalPair) (si : ℚ) : ℤ :=
  let raw := fl (fl (si - c.offset) / c.gain)
  pyRound (max raw 0)

/-- `si_to_raw` for a numpy array (calibration.py l.73-76): the result is an array of floats
holding whole numbers. -/
def CalPair.siToRawArr (c : CalPair) (sis : List ℚ) : List ℚ :=
  let raws := (sis.map (fun x => fl (x - c.offset))).map (fun x => fl (x / c.gain))
  (raws.map (fun x => if x < 0 then 0 else x)).map (fun x => (pyRound x : ℚ))

/-- `from_fn` (calibration.py l.82-87); `fn` is called with `limited=False`.  A zero or negative
`gain_inv` makes the constructor raise (ZeroDivisionError resp. ValidationError): `none`. -/
def CalPair.fromFn (fn : ℚ → ℤ) : Option CalPair :=
  let offset := fn 0
  let gainInv := fn 1 - offset
  if gainInv = 0 then none
  else
    let c : CalPair := { gain := fl (1 / fl gainInv), offset := fl (-fl offset / fl gainInv) }
    if c.Valid then some c else none

/-! ## calibration_hw_def.py -/

/-- `V_REF_ADC` (calibration_hw_def.py l.17): the float literal 4.096. -/
def vRefAdc : ℚ := fl (4096 / 1000)
/-- `G_ADC_I * V_REF_ADC` resp. `G_ADC_V * V_REF_ADC` (calibration.py l.19, l.21; both gains are 1.25). -/
def adcSpan : ℚ := fl (5 / 4 * vRefAdc fl)
/-- `R_SHT * G_INST_AMP` (calibration.py l.13, l.15). -/
def shuntGain : ℚ := fl (2 * 48)
/-- `V_REF_DAC * G_DAC` (calibration.py l.24, l.26). -/
def dacSpan : ℚ := fl (5 / 2 * 2)

/-- The clamp `min(max(v, 0), 2**M - 1)` (calibration.py l.41, 47, 58, 64, 72, 79). -/
def clampCode (m : ℕ) (v : ℤ) : ℤ := min (max v 0) (2^m - 1)

/-- `adc_current_to_raw` (calibration.py l.35-41). -/
def adcCurrentToRaw (current : ℚ) (limited : Bool := true) : ℤ :=
  let valAdc := fl (shuntGain fl * current)
  let valRaw := pyInt (fl (fl (valAdc * 2^18) / adcSpan fl))
  if limited then clampCode 18 valRaw else valRaw

/-- `adc_raw_to_current` (calibration.py l.44-51). -/
def adcRawToCurrent (value : ℤ) (limited : Bool := true) : ℚ :=
  let value := if limited then clampCode 18 value else value
  let valAdc := fl (fl (fl value * adcSpan fl) / 2^18)
  fl (valAdc / shuntGain fl)

/-- `adc_voltage_to_raw` (calibration.py l.54-58). -/
def adcVoltageToRaw (voltage : ℚ) (limited : Bool := true) : ℤ :=
  let valRaw := pyInt (fl (fl (voltage * 2^18) / adcSpan fl))
  if limited then clampCode 18 valRaw else valRaw

/-- `adc_raw_to_voltage` (calibration.py l.61-66). -/
def adcRawToVoltage (value : ℤ) (limited : Bool := true) : ℚ :=
  let value := if limited then clampCode 18 value else value
  fl (fl (fl value * adcSpan fl) / 2^18)

/-- `dac_raw_to_voltage` (calibration.py l.69-73). -/
def dacRawToVoltage (value : ℤ) (limited : Bool := true) : ℚ :=
  let value := if limited then clampCode 16 value else value
  fl (fl (fl value * dacSpan fl) / 2^16)

/-- `dac_voltage_to_raw` (calibration.py l.76-79). -/
def dacVoltageToRaw (voltage : ℚ) (limited : Bool := true) : ℤ :=
  let valRaw := pyInt (fl (fl (voltage * 2^16) / dacSpan fl))
  if limited then clampCode 16 valRaw else valRaw

/-! ## Containers and sysfs export -/

/-- `CalibrationHarvester` (calibration.py l.98-104). -/
structure CalHarvester where
  dacVHrv : CalPair
  dacVSim : CalPair
  adcVSense : CalPair
  adcCHrv : CalPair
deriving DecidableEq, Repr

/-- `CalibrationEmulator` (calibration.py l.139-148). -/
structure CalEmulator where
  dacVA : CalPair
  dacVB : CalPair
  adcCA : CalPair
  adcCB : CalPair
deriving DecidableEq, Repr

/-- Every contained pair has a positive gain.  Used in calibration.py l.51-56, l.98-104. -/
def CalHarvester.Valid (c : CalHarvester) : Prop :=
  c.dacVHrv.Valid ∧ c.dacVSim.Valid ∧ c.adcVSense.Valid ∧ c.adcCHrv.Valid
/-- Every contained pair has a positive gain.  Used in calibration.py l.51-56, l.139-148. -/
def CalEmulator.Valid (c : CalEmulator) : Prop :=
  c.dacVA.Valid ∧ c.dacVB.Valid ∧ c.adcCA.Valid ∧ c.adcCB.Valid

/-- The six values handed to the kernel module (keys of the dict in calibration.py l.114-121). -/
structure SysfsCal where
  adcCurrentGain : ℤ
  adcCurrentOffset : ℤ
  adcVoltageGain : ℤ
  adcVoltageOffset : ℤ
  dacVoltageGain : ℤ
  dacVoltageOffset : ℤ
deriving DecidableEq, Repr

/-- The range loop (calibration.py l.122-127 and l.167-172): an entry whose key contains "gain"
or "offset" outside of its range raises `ValueError` (`none`). -/
def checkSysfs (s : SysfsCal) : Option SysfsCal :=
  let badGain (v : ℤ) : Bool := !(decide (0 ≤ v) && decide (v < 2^32))
  let badOff (v : ℤ) : Bool := !(decide (-(2^31) ≤ v) && decide (v < 2^31))
  if badGain s.adcCurrentGain || badOff s.adcCurrentOffset || badGain s.adcVoltageGain
    || badOff s.adcVoltageOffset || badGain s.dacVoltageGain || badOff s.dacVoltageOffset
  then none else some s

/-- The dict computed by `CalibrationHarvester.export_for_sysfs` before the check (calibration.py l.114-121). -/
def CalHarvester.sysfsRaw (c : CalHarvester) : SysfsCal where
  adcCurrentGain := pyRound (fl (fl (10^9 * 2^8) * c.adcCHrv.gain))
  adcCurrentOffset := pyRound (fl (fl (10^9 * 1) * c.adcCHrv.offset))
  adcVoltageGain := pyRound (fl (fl (10^6 * 2^8) * c.adcVSense.gain))
  adcVoltageOffset := pyRound (fl (fl (10^6 * 1) * c.adcVSense.offset))
  dacVoltageGain := pyRound (fl (2^20 / fl (10^6 * c.dacVHrv.gain)))
  dacVoltageOffset := pyRound (fl (fl (10^6 * 1) * c.dacVHrv.offset))

/-- `CalibrationHarvester.export_for_sysfs` (calibration.py l.106-128). -/
def CalHarvester.exportForSysfs (c : CalHarvester) : Option SysfsCal := checkSysfs (c.sysfsRaw fl)

/-- The dict computed by `CalibrationEmulator.export_for_sysfs` before the check (calibration.py l.159-166). -/
def CalEmulator.sysfsRaw (c : CalEmulator) : SysfsCal where
  adcCurrentGain := pyRound (fl (fl (10^9 * 2^8) * c.adcCA.gain))
  adcCurrentOffset := pyRound (fl (fl (10^9 * 1) * c.adcCA.offset))
  adcVoltageGain := pyRound (fl (fl (10^6 * 2^8) * 1))
  adcVoltageOffset := pyRound (fl (fl (10^6 * 1) * 0))
  dacVoltageGain := pyRound (fl (2^20 / fl (10^6 * c.dacVA.gain)))
  dacVoltageOffset := pyRound (fl (fl (10^6 * 1) * c.dacVA.offset))

/-- `CalibrationEmulator.export_for_sysfs` (calibration.py l.150-173). -/
def CalEmulator.exportForSysfs (c : CalEmulator) : Option SysfsCal := checkSysfs (c.sysfsRaw fl)

/-- Default pair of the DAC channels (calibration.py l.101-102, 145-146). -/
def defaultDac : Option CalPair := CalPair.fromFn fl (fun v => dacVoltageToRaw fl v false)
/-- Default pair of the ADC voltage channel (calibration.py l.103). -/
def defaultAdcV : Option CalPair := CalPair.fromFn fl (fun v => adcVoltageToRaw fl v false)
/-- Default pair of the ADC current channels (calibration.py l.104, 147-148). -/
def defaultAdcC : Option CalPair := CalPair.fromFn fl (fun v => adcCurrentToRaw fl v false)

/-- `CalibrationSeries` (calibration.py l.259-267). -/
structure CalSeries where
  voltage : CalPair
  current : CalPair
  time : CalPair
deriving DecidableEq, Repr

/-- Defaults of `CalibrationSeries`: `gain=3 * 1e-9`, `250 * 1e-12`, `1e-9` (calibration.py l.262-266). -/
def CalSeries.default : CalSeries where
  voltage := ⟨fl (3 * fl (1 / 10^9)), 0⟩
  current := ⟨fl (250 * fl (1 / 10^12)), 0⟩
  time := ⟨fl (1 / 10^9), 0⟩

/-- `CalibrationSeries.from_cal` for a harvester calibration (calibration.py l.277-278). -/
def CalSeries.fromHrv (c : CalHarvester) : CalSeries :=
  { CalSeries.default fl with voltage := c.adcVSense, current := c.adcCHrv }

/-- `CalibrationSeries.from_cal` for an emulator calibration (calibration.py l.279-281). -/
def CalSeries.fromEmu (c : CalEmulator) (portA : Bool := true) : CalSeries :=
  if portA then { CalSeries.default fl with voltage := c.dacVA, current := c.adcCA }
  else { CalSeries.default fl with voltage := c.dacVB, current := c.adcCB }

end
end Verif.Model
