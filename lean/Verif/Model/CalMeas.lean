import Verif.Model.Calibration
import Verif.Py.Err

/-!
# Calibration from measurements

Models `shepherd_core/shepherd_core/data_models/base/cal_measurement.py` l.20-112.

Simplified: the arithmetic is exact.  `np.polyfit` solves the least squares problem by a singular value decomposition; here its result is the exact solution - the one with
the smallest norm after scaling the columns, if there is more than one.  The limit `rcond` (below which raw values count as equal) and the rounding are not modelled.
-/

namespace Verif.Model
open Verif.Py

/-- `CalMeasurementPair` (cal_measurement.py l.20-24). -/
structure MeasPair where
  raw : ℚ
  si : ℚ
deriving DecidableEq

section
variable (data : List MeasPair)

/-- `len(data)`.  Used in `np.linalg.lstsq` in `meas_to_cal`, cal_measurement.py l.31-57. -/
def measN : ℚ := (data.length : ℚ)
/-- The sums of the normal equations.  Used in `np.linalg.lstsq` in `meas_to_cal`, cal_measurement.py l.31-57. -/
def measX : ℚ := (data.map (·.raw)).sum
/-- The sums of the normal equations.  Used in `np.linalg.lstsq` in `meas_to_cal`, cal_measurement.py l.31-57. -/
def measY : ℚ := (data.map (·.si)).sum
/-- The sums of the normal equations.  Used in `np.linalg.lstsq` in `meas_to_cal`, cal_measurement.py l.31-57. -/
def measXX : ℚ := (data.map (fun p => p.raw * p.raw)).sum
/-- The sums of the normal equations.  Used in `np.linalg.lstsq` in `meas_to_cal`, cal_measurement.py l.31-57. -/
def measXY : ℚ := (data.map (fun p => p.raw * p.si)).sum
/-- The determinant of the normal equations; zero if all raw values are the same.  Used in `np.linalg.lstsq` in `meas_to_cal`, cal_measurement.py l.31-57. -/
def measDet : ℚ := measN data * measXX data - measX data * measX data

/-- `np.polyfit(x, y, 1)` (cal_measurement.py l.39-41): gain and offset.  If all raw values are the same both columns are the same after scaling, so each gets half. -/
def polyfit1 : ℚ × ℚ :=
  if measDet data = 0 then (measY data / (2 * measX data), measY data / (2 * measN data))
  else
    let gain := (measN data * measXY data - measX data * measY data) / measDet data
    (gain, (measY data - gain * measX data) / measN data)

/-- `ssreg` (cal_measurement.py l.44-47). -/
def ssReg : ℚ :=
  let g := (polyfit1 data).1
  let o := (polyfit1 data).2
  let ybar := measY data / measN data
  (data.map (fun p => (g * p.raw + o - ybar) ^ 2)).sum

/-- `sstot` (cal_measurement.py l.46, 48). -/
def ssTot : ℚ :=
  let ybar := measY data / measN data
  (data.map (fun p => (p.si - ybar) ^ 2)).sum

/-- `rval` (cal_measurement.py l.49): the division of numpy gives NaN or infinity for a divisor of zero, here `none`. -/
def rValue : Option ℚ := if ssTot data = 0 then none else some (ssReg data / ssTot data)

/-- `rval < 0.999` (cal_measurement.py l.51): false for NaN and infinity. -/
def tooLow : Option ℚ → Bool
  | some r => r < 999 / 1000
  | none => false

/-- `meas_to_cal` (cal_measurement.py l.30-57).  The constraints on the data (l.23, 27) and on the result are checked by pydantic. -/
def measToCal : Except PyErr CalPair :=
  if data.length < 2 ∨ ¬(data.all (fun p => 0 < p.raw)) then .error .valueError
  else if tooLow (rValue data) then .error .valueError
  else if (polyfit1 data).1 ≤ 0 then .error .valueError
  else .ok ⟨(polyfit1 data).1, (polyfit1 data).2⟩

end

/-- `CalMeasurementHarvester` (cal_measurement.py l.60-66). -/
structure MeasHarvester where
  dacVHrv : List MeasPair
  dacVSim : List MeasPair
  adcVSense : List MeasPair
  adcCHrv : List MeasPair

/-- `CalMeasurementEmulator` (cal_measurement.py l.76-82). -/
structure MeasEmulator where
  dacVA : List MeasPair
  dacVB : List MeasPair
  adcCA : List MeasPair
  adcCB : List MeasPair

/-- `CalMeasurementHarvester.to_cal` (cal_measurement.py l.68-73). -/
def MeasHarvester.toCal (m : MeasHarvester) : Except PyErr CalHarvester := do
  let a ← measToCal m.dacVHrv
  let b ← measToCal m.dacVSim
  let c ← measToCal m.adcVSense
  let d ← measToCal m.adcCHrv
  return ⟨a, b, c, d⟩

/-- `CalMeasurementEmulator.to_cal` (cal_measurement.py l.84-89). -/
def MeasEmulator.toCal (m : MeasEmulator) : Except PyErr CalEmulator := do
  let a ← measToCal m.dacVA
  let b ← measToCal m.dacVB
  let c ← measToCal m.adcCA
  let d ← measToCal m.adcCB
  return ⟨a, b, c, d⟩

/-- `CalMeasurementCape` (cal_measurement.py l.92-99); the information about the cape is opaque. -/
structure MeasCape where
  cape : Option ℕ
  host : Option String
  harvester : Option MeasHarvester
  emulator : Option MeasEmulator

/-- `CalibrationCape` (calibration.py l.205-218). -/
structure CalCape where
  cape : Option ℕ
  host : Option String
  harvester : CalHarvester
  emulator : CalEmulator

/-- `CalMeasurementCape.to_cal` (cal_measurement.py l.101-112); `dh` and `de` are the defaults. -/
def MeasCape.toCal (dh : CalHarvester) (de : CalEmulator) (m : MeasCape) : Except PyErr CalCape := do
  let h ← match m.harvester with
    | some h => h.toCal
    | none => .ok dh
  let e ← match m.emulator with
    | some e => e.toCal
    | none => .ok de
  return ⟨m.cape, m.host, h, e⟩

end Verif.Model
