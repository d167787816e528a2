import Verif.Py.Err
import Verif.Model.Calibration

/-!
# Virtual converter

Models `shepherd_core/shepherd_core/vsource/virtual_converter_model.py` (all of it) and the
register block `ConverterPRUConfig` of `data_models/content/virtual_source.py` l.244-299.

Simplifications: `math.log2(n)` truncated is `Nat.log2 n` (only its value up to 11 matters, there
the float logarithm is exact enough); numbers are rationals rounded by `fl` after each operation;
logging is dropped.
-/

namespace Verif.Model
open Verif.Py

/-- `LUT_SIZE` (virtual_source.py l.19). -/
def lutSize : ℕ := 12

/-- `ConverterPRUConfig` (virtual_source.py l.256-299). -/
structure CnvCfg where
  converterMode : ℕ
  intervalStartupDelayDrainN : ℕ
  vInputMax : ℕ
  iInputMax : ℕ
  vInputDrop : ℕ
  rInputN22 : ℕ
  constantN28 : ℕ
  vIntermediateInit : ℕ
  iIntermediateLeak : ℕ
  vEnableOutputThreshold : ℕ
  vDisableOutputThreshold : ℕ
  dVEnableOutput : ℕ
  intervalCheckThresholdsN : ℕ
  vPwrGoodEnableThreshold : ℕ
  vPwrGoodDisableThreshold : ℕ
  immediatePwrGoodSignal : ℕ
  vOutputLogGpioThreshold : ℕ
  vInputBoostThreshold : ℕ
  vIntermediateMax : ℕ
  vOutput : ℕ
  vBuckDrop : ℕ
  lutInputVMinLog2 : ℕ
  lutInputIMinLog2 : ℕ
  lutOutputIMinLog2 : ℕ
  lutInpEfficiencyN8 : List (List ℕ)
  lutOutInvEfficiencyN4 : List ℕ
deriving DecidableEq, Repr

/-- The field constraints `u32`, `u8`, `lut_i`, `lut_o` (virtual_source.py l.244-253).  Stricter than the code: the three
exponents of two are below 1024, as a larger power of two does not convert to a float (`OverflowError`); registers made from a
virtual source have exponents of at most 20 (`C26_registers_fit`). -/
structure CnvCfg.Valid (c : CnvCfg) : Prop where
  converterMode : c.converterMode < 2^32
  intervalStartupDelayDrainN : c.intervalStartupDelayDrainN < 2^32
  vInputMax : c.vInputMax < 2^32
  iInputMax : c.iInputMax < 2^32
  vInputDrop : c.vInputDrop < 2^32
  rInputN22 : c.rInputN22 < 2^32
  constantN28 : c.constantN28 < 2^32
  vIntermediateInit : c.vIntermediateInit < 2^32
  iIntermediateLeak : c.iIntermediateLeak < 2^32
  vEnableOutputThreshold : c.vEnableOutputThreshold < 2^32
  vDisableOutputThreshold : c.vDisableOutputThreshold < 2^32
  dVEnableOutput : c.dVEnableOutput < 2^32
  intervalCheckThresholdsN : c.intervalCheckThresholdsN < 2^32
  vPwrGoodEnableThreshold : c.vPwrGoodEnableThreshold < 2^32
  vPwrGoodDisableThreshold : c.vPwrGoodDisableThreshold < 2^32
  immediatePwrGoodSignal : c.immediatePwrGoodSignal < 2^32
  vOutputLogGpioThreshold : c.vOutputLogGpioThreshold < 2^32
  vInputBoostThreshold : c.vInputBoostThreshold < 2^32
  vIntermediateMax : c.vIntermediateMax < 2^32
  vOutput : c.vOutput < 2^32
  vBuckDrop : c.vBuckDrop < 2^32
  lutInputVMinLog2 : c.lutInputVMinLog2 < 1024
  lutInputIMinLog2 : c.lutInputIMinLog2 < 1024
  lutOutputIMinLog2 : c.lutOutputIMinLog2 < 1024
  lutInpRows : c.lutInpEfficiencyN8.length = 12
  lutInpCols : ∀ r ∈ c.lutInpEfficiencyN8, r.length = 12 ∧ ∀ x ∈ r, x < 2^8
  lutOut : c.lutOutInvEfficiencyN4.length = 12 ∧ ∀ x ∈ c.lutOutInvEfficiencyN4, x < 2^32

section
variable (fl : ℚ → ℚ)

/-! ## PruCalibration (virtual_converter_model.py l.25-57) -/

/-- `RESIDUE_MAX_nA = 2000 * 30` (virtual_converter_model.py l.30-32). -/
def residueMax : ℚ := 60000

/-- `conv_adc_raw_to_nA` (virtual_converter_model.py l.38-48): the converted current and the new residue. -/
def convAdcRawToNA (adc : CalPair) (residue : ℚ) (raw : ℤ) : ℚ × ℚ :=
  let i := fl (adc.rawToSi fl raw * 10^9)
  if adc.offset < 0 then
    if i > residue then (fl (i - residue), 0)
    else (0, min (fl (residue - i)) residueMax)
  else (i, residue)

/-- `conv_uV_to_dac_raw` (virtual_converter_model.py l.55-57). -/
def convUVToDacRaw (dac : CalPair) (uV : ℚ) : ℤ :=
  min (dac.siToRaw fl (fl (uV / 10^6))) (2^16 - 1)

/-! ## VirtualConverterModel -/

/-- Bit test `(int(mode) & bit) > 0` (virtual_converter_model.py l.81-86). -/
def CnvCfg.modeBit (c : CnvCfg) (b : ℕ) : Bool := c.converterMode.testBit b

/-- l.81 -/ def CnvCfg.enableStorage (c : CnvCfg) : Bool := c.modeBit 0
/-- l.82 -/ def CnvCfg.enableBoost (c : CnvCfg) : Bool := c.modeBit 1
/-- l.83 -/ def CnvCfg.enableBuck (c : CnvCfg) : Bool := c.modeBit 2
/-- l.84 -/ def CnvCfg.enableLogMid (c : CnvCfg) : Bool := c.modeBit 3
/-- l.86 -/ def CnvCfg.feedbackToHrv (c : CnvCfg) : Bool := c.modeBit 4

/-- `self.R_input_kOhm` (virtual_converter_model.py l.68). -/
def CnvCfg.rInput (c : CnvCfg) : ℚ := fl (c.rInputN22 / 2^22)
/-- `self.Constant_us_per_nF` (virtual_converter_model.py l.69). -/
def CnvCfg.capConstant (c : CnvCfg) : ℚ := fl (c.constantN28 / 2^28)
/-- `self.V_enable_output_threshold_uV` after virtual_converter_model.py l.98-100. -/
def CnvCfg.enableThreshold (c : CnvCfg) : ℕ := max c.dVEnableOutput c.vEnableOutputThreshold

/-- The mutable attributes of `VirtualConverterModel` (virtual_converter_model.py l.72-105) and of its `PruCalibration`
(`negative_residue_nA`, l.33). -/
structure CnvState where
  vInput : ℚ
  pInp : ℚ
  pOut : ℚ
  startupN : ℕ
  vMid : ℚ
  vInputRequest : ℚ
  vOut : ℚ
  vOutRaw : ℤ
  powerGood : Bool
  sampleCount : ℕ
  isOutputting : Bool
  skipGpioLogging : Bool
  residue : ℚ
deriving DecidableEq, Repr

/-- `__init__` (virtual_converter_model.py l.63-105). -/
def CnvState.init (c : CnvCfg) (cal : CalEmulator) : CnvState where
  vInput := 0
  pInp := 0
  pOut := 0
  startupN := c.intervalStartupDelayDrainN
  vMid := c.vIntermediateInit
  vInputRequest := c.vIntermediateInit
  vOut := c.vOutput
  vOutRaw := convUVToDacRaw fl cal.dacVA c.vOutput
  powerGood := true
  sampleCount := 0xFFFFFFF0
  isOutputting := false
  skipGpioLogging := false
  residue := 0

/-- Column on the logarithmic current axis before saturation (virtual_converter_model.py l.241-243, l.251-252). -/
def log2Pos (n : ℤ) : ℕ := if n > 0 then Nat.log2 n.toNat else 0

/-- `get_input_efficiency` (virtual_converter_model.py l.239-248); a list access out of range is an `IndexError`. -/
def getInputEfficiency (c : CnvCfg) (v i : ℚ) : Except PyErr ℚ :=
  let voltageN := pyInt (fl (v / 2^c.lutInputVMinLog2))
  let currentN := pyInt (fl (i / 2^c.lutInputIMinLog2))
  let posV : ℕ := if voltageN > 0 then voltageN.toNat else 0
  let posC : ℕ := log2Pos currentN
  let posV := if posV ≥ lutSize then lutSize - 1 else posV
  let posC := if posC ≥ lutSize then lutSize - 1 else posC
  match c.lutInpEfficiencyN8[posV]? with
  | none => .error .indexError
  | some row =>
    match row[posC]? with
    | none => .error .indexError
    | some x => .ok (fl (x / 2^8))

/-- `get_output_inv_efficiency` (virtual_converter_model.py l.250-255). -/
def getOutputInvEfficiency (c : CnvCfg) (i : ℚ) : Except PyErr ℚ :=
  let currentN := pyInt (fl (i / 2^c.lutOutputIMinLog2))
  let posC : ℕ := log2Pos currentN
  let posC := if posC ≥ lutSize then lutSize - 1 else posC
  match c.lutOutInvEfficiencyN4[posC]? with
  | none => .error .indexError
  | some x => .ok (fl (x / 2^4))

/-- `calc_inp_power` (virtual_converter_model.py l.107-159). -/
def calcInpPower (c : CnvCfg) (s : CnvState) (v i : ℚ) : Except PyErr (CnvState × ℤ) := do
  let v := max 0 v
  let i := max 0 i
  let v := if v > c.vInputDrop then fl (v - c.vInputDrop) else 0
  let v := min v c.vInputMax
  let i := min i c.iInputMax
  let s := { s with vInput := v }
  let (s, v) :=
    if c.enableBoost then
      (s, if v < c.vInputBoostThreshold then 0 else v)
    else if c.enableStorage then
      let vDiff := if v ≥ s.vMid then fl (v - s.vMid) else 0
      let vResDrop := fl (i * c.rInput fl)
      let v := if vResDrop > vDiff then s.vMid else fl (v - vResDrop)
      if c.feedbackToHrv then
        ({ s with vInputRequest := fl (fl (s.vMid + vResDrop) + c.vInputDrop) }, v)
      else if v < s.vMid then (s, 0) else (s, v)
    else
      ({ s with vMid := v }, 0)
  let eta ← if c.enableBoost then getInputEfficiency fl c v i else pure 1
  let s := { s with pInp := fl (fl (eta * v) * i) }
  return (s, pyRound s.pInp)

/-- `calc_out_power` (virtual_converter_model.py l.161-179). -/
def calcOutPower (c : CnvCfg) (cal : CalEmulator) (s : CnvState) (adcRaw : ℤ) :
    Except PyErr (CnvState × ℤ) := do
  let adcRaw := max 0 adcRaw
  let adcRaw := min (2^18 - 1) adcRaw
  let pLeak := fl (s.vMid * c.iIntermediateLeak)
  let (iOut, residue) := convAdcRawToNA fl cal.adcCA s.residue adcRaw
  let s := { s with residue := residue }
  let eta ← if c.enableBuck then getOutputInvEfficiency fl c iOut else pure 1
  let s := { s with pOut := fl (fl (fl (eta * s.vOut) * iOut) + pLeak) }
  let s := if s.startupN > 0 then { s with startupN := s.startupN - 1, pOut := 0 } else s
  return (s, pyRound s.pOut)

/-- `update_cap_storage` (virtual_converter_model.py l.182-193). -/
def updateCapStorage (c : CnvCfg) (s : CnvState) : CnvState × ℤ :=
  let s :=
    if c.enableStorage then
      let vProt := max 1 s.vMid
      let pSum := fl (s.pInp - s.pOut)
      let iMid := fl (pSum / vProt)
      let dV := fl (iMid * c.capConstant fl)
      { s with vMid := fl (s.vMid + dV) }
    else s
  let s := { s with vMid := min s.vMid c.vIntermediateMax }
  let s := { s with vMid := max s.vMid 1 }
  (s, pyRound s.vMid)

/-- `update_states_and_output`, virtual_converter_model.py l.196-208: count the sample, switch the output. -/
def switchOutput (c : CnvCfg) (check : Bool) (s : CnvState) : CnvState :=
  if check then
    if s.isOutputting then
      { s with
        sampleCount := 0
        isOutputting := if s.vMid < c.vDisableOutputThreshold then false else true }
    else if s.vMid ≥ c.enableThreshold then
      { s with sampleCount := 0, isOutputting := true, vMid := fl (s.vMid - c.dVEnableOutput) }
    else { s with sampleCount := 0 }
  else { s with sampleCount := s.sampleCount + 1 }

/-- `update_states_and_output`, virtual_converter_model.py l.210-216: power-good; `vNow` is the storage voltage before
`switchOutput`. -/
def evalPowerGood (c : CnvCfg) (check : Bool) (vNow : ℚ) (s : CnvState) : CnvState :=
  if check || c.immediatePwrGoodSignal != 0 then
    if s.powerGood then
      if vNow ≤ c.vPwrGoodDisableThreshold then { s with powerGood := false } else s
    else if vNow ≥ c.vPwrGoodEnableThreshold then { s with powerGood := s.isOutputting }
    else s
  else s

/-- `update_states_and_output`, virtual_converter_model.py l.219-237: output voltage, DAC code, gpio-logging. -/
def driveOutput (c : CnvCfg) (cal : CalEmulator) (s : CnvState) : CnvState :=
  let vOut : ℚ :=
    if s.isOutputting || s.startupN > 0 then
      if !c.enableBuck || decide (s.vMid ≤ ((c.vOutput + c.vBuckDrop : ℕ) : ℚ)) then
        if (c.vBuckDrop : ℚ) < s.vMid then fl (s.vMid - c.vBuckDrop) else 0
      else c.vOutput
    else 0
  { s with
    vOut := vOut
    vOutRaw := if s.isOutputting || s.startupN > 0 then convUVToDacRaw fl cal.dacVA vOut else 0
    skipGpioLogging := decide (vOut < c.vOutputLogGpioThreshold) }

/-- `update_states_and_output` (virtual_converter_model.py l.195-237). -/
def updateStatesAndOutput (c : CnvCfg) (cal : CalEmulator) (s : CnvState) : CnvState × ℤ :=
  let check := decide (s.sampleCount + 1 ≥ c.intervalCheckThresholdsN)
  let s' := driveOutput fl c cal (evalPowerGood c check s.vMid (switchOutput fl c check s))
  (s', s'.vOutRaw)

/-- `get_I_mid_out_nA` (virtual_converter_model.py l.281-282). -/
def getIMidOut (s : CnvState) : Except PyErr ℚ :=
  if s.vMid = 0 then .error .zeroDivisionError else .ok (fl (s.pOut / s.vMid))

/-- `get_V_intermediate_raw` (virtual_converter_model.py l.275-276). -/
def getVIntermediateRaw (cal : CalEmulator) (s : CnvState) : ℤ :=
  convUVToDacRaw fl cal.dacVA s.vMid

/-- One input sample of the converter: source voltage, source current, ADC code of the target
current.  Used in the calls of virtual_source_model.py l.62-91. -/
structure CnvIn where
  v : ℚ
  i : ℚ
  adc : ℤ
deriving DecidableEq, Repr

/-- What one sample yields: the four return values, and (ghost) the exact storage voltage right
after the capacitor update.  Used in the calls of virtual_source_model.py l.62-91. -/
structure CnvOut where
  pInp : ℤ
  pOut : ℤ
  vMid : ℤ
  vOutRaw : ℤ
  vCap : ℚ
deriving DecidableEq, Repr

/-- One sample: the call sequence of `VirtualSourceModel.iterate_sampling`
(virtual_source_model.py l.74-81) on the converter. -/
def cnvStep (c : CnvCfg) (cal : CalEmulator) (s : CnvState) (x : CnvIn) :
    Except PyErr (CnvState × CnvOut) := do
  let (s, pInp) ← calcInpPower fl c s x.v x.i
  let (s, pOut) ← calcOutPower fl c cal s x.adc
  let (s1, vMid) := updateCapStorage fl c s
  let (s2, vOutRaw) := updateStatesAndOutput fl c cal s1
  return (s2, { pInp, pOut, vMid, vOutRaw, vCap := s1.vMid })

/-- A whole run: final state and the outputs of all samples in order.  Used in the calls of virtual_source_model.py l.62-91. -/
def cnvRun (c : CnvCfg) (cal : CalEmulator) : CnvState → List CnvIn →
    Except PyErr (CnvState × List CnvOut)
  | s, [] => .ok (s, [])
  | s, x :: xs => do
    let (s, o) ← cnvStep fl c cal s x
    let (s, os) ← cnvRun c cal s xs
    return (s, o :: os)

end
end Verif.Model
