import Verif.Model.Converter
import Verif.Model.Harvester

/-!
# Configuration of virtual source and harvester

Models `data_models/content/virtual_source.py` (`VirtualSourceConfig` l.26-241,
`ConverterPRUConfig.from_vsrc` l.301-352) and `data_models/content/virtual_harvester.py`
(`VirtualHarvesterConfig` l.34-176, `HarvesterPRUConfig.from_vhrv` l.236-286).

Simplifications: metadata fields (`ContentModel`), log messages and the completion of a
configuration from fixtures (`tb_client.try_completing_model`, see `Verif.Model.Fixtures`) are left
out, missing keys carry their declared default; `pow(x, 0.5)` is the parameter `sqrt` for `x ≥ 0`
and complex (`none`) below; pydantic's range checks raise `valueError` (its `ValidationError` is one).
-/

namespace Verif.Model
open Verif.Py

/-- `EnergyDType` (energy_environment.py l.14-19). -/
inductive EnergyDType
  | ivsample
  | ivcurve
  | iscVoc
deriving DecidableEq, Repr

/-- `AlgorithmDType` (virtual_harvester.py l.21-31). -/
inductive Algorithm
  | neutral
  | iscVoc
  | ivcurve
  | cv
  | mpptVoc
  | mpptPo
  | mpptOpt
deriving DecidableEq, Repr

/-- `algo_to_num` (virtual_harvester.py l.187-196). -/
def Algorithm.num : Algorithm → ℕ
  | .neutral => 2^0
  | .iscVoc => 2^3
  | .ivcurve => 2^4
  | .cv => 2^8
  | .mpptVoc => 2^12
  | .mpptPo => 2^13
  | .mpptOpt => 2^14

/-- `algo_to_dtype` (virtual_harvester.py l.198-206). -/
def Algorithm.dtype : Algorithm → EnergyDType
  | .neutral => .ivsample
  | .iscVoc => .iscVoc
  | .ivcurve => .ivcurve
  | .cv => .ivsample
  | .mpptVoc => .ivsample
  | .mpptPo => .ivsample
  | .mpptOpt => .ivsample

/-- `Field(ge=lo, le=hi)`.  Used in the fields of virtual_harvester.py l.34-73, virtual_source.py l.26-112. -/
def inRange (lo hi x : ℚ) : Bool := decide (lo ≤ x) && decide (x ≤ hi)

/-- The constraint `u32 = Field(ge=0, lt=2**32)` (virtual_source.py l.244, virtual_harvester.py l.179). -/
def u32 (x : ℤ) : Except PyErr ℕ := if 0 ≤ x ∧ x < 2^32 then .ok x.toNat else .error .valueError

/-! ## Harvester -/

/-- The fields of `VirtualHarvesterConfig` as handed to the constructor, defaults filled in
(virtual_harvester.py l.43-72). -/
structure VhrvRaw where
  name : String
  algorithm : Algorithm
  samplesN : ℤ := 8
  voltage : ℚ := 2500
  voltageMin : ℚ := 0
  voltageMax : ℚ := 5000
  currentLimit : ℚ := 50000
  voltageStep : Option ℚ := none
  setpointN : ℚ := 7 / 10
  interval : ℚ := 100
  duration : ℚ := 1 / 10
  rising : Bool := true
  linExtrapolation : Bool := true
  waitCycles : ℤ := 1
deriving DecidableEq, Repr

/-- A `VirtualHarvesterConfig` after validation.  Used in virtual_harvester.py l.34-111. -/
structure VhrvCfg where
  name : String
  algorithm : Algorithm
  samplesN : ℤ
  voltage : ℚ
  voltageMin : ℚ
  voltageMax : ℚ
  currentLimit : ℚ
  voltageStep : ℚ
  setpointN : ℚ
  interval : ℚ
  duration : ℚ
  rising : Bool
  linExtrapolation : Bool
  waitCycles : ℤ
deriving DecidableEq, Repr

/-- The declared field ranges (virtual_harvester.py l.46-72), milliseconds as the float literals of the code. -/
def VhrvCfg.fieldsOk (fl : ℚ → ℚ) (c : VhrvCfg) : Bool :=
  inRange 8 2000 c.samplesN && inRange 0 5000 c.voltage && inRange 0 5000 c.voltageMin
    && inRange 0 5000 c.voltageMax && inRange 1 50000 c.currentLimit && inRange 1 1000000 c.voltageStep
    && inRange 0 1 c.setpointN && inRange (fl (1/100)) 1000000 c.interval
    && inRange (fl (1/100)) 1000000 c.duration && inRange 0 100 c.waitCycles

section
variable (fl : ℚ → ℚ)

/-- `10**6 * cal.adc_C_Hrv.raw_to_si(4)` (virtual_harvester.py l.85-87). -/
def minCurrentLimit (adc : CalPair) : ℚ := fl (10^6 * adc.rawToSi fl 4)

/-- `10**3 * cal.dac_V_Hrv.raw_to_si(4)` (virtual_harvester.py l.96-98). -/
def minVoltageStep (dac : CalPair) : ℚ := fl (10^3 * dac.rawToSi fl 4)

/-- `query_database` (virtual_harvester.py l.74-100) without the fixture look-up; `adc`, `dac` are the pairs of a
default `CalibrationHarvester`.  Runs before the range checks. -/
def VhrvRaw.query (adc dac : CalPair) (r : VhrvRaw) : Except PyErr VhrvCfg :=
  if r.name = "neutral" then .error .valueError
  else
    let currentLimit := max (minCurrentLimit fl adc) r.currentLimit
    let step : Except PyErr ℚ :=
      match r.voltageStep with
      | some s => .ok s
      | none =>
        if r.samplesN - 1 = 0 then .error .zeroDivisionError
        else .ok (fl (|fl (r.voltageMax - r.voltageMin)| / ((r.samplesN - 1 : ℤ) : ℚ)))
    match step with
    | .error e => .error e
    | .ok step => .ok {
        name := r.name, algorithm := r.algorithm, samplesN := r.samplesN, voltage := r.voltage
        voltageMin := r.voltageMin, voltageMax := r.voltageMax, currentLimit
        voltageStep := max (minVoltageStep fl dac) step, setpointN := r.setpointN
        interval := r.interval, duration := r.duration, rising := r.rising
        linExtrapolation := r.linExtrapolation, waitCycles := r.waitCycles }

/-- `post_validation` (virtual_harvester.py l.102-111). -/
def VhrvCfg.postValidation (c : VhrvCfg) : Except PyErr VhrvCfg :=
  if c.voltageMin > c.voltageMax then .error .valueError
  else if c.voltage < c.voltageMin then .error .valueError
  else if c.voltage > c.voltageMax then .error .valueError
  else .ok c

/-- `VirtualHarvesterConfig(...)`: before-validator, range checks, after-validator.  Used in virtual_harvester.py l.34-111. -/
def VhrvRaw.validate (adc dac : CalPair) (r : VhrvRaw) : Except PyErr VhrvCfg :=
  match r.query fl adc dac with
  | .error e => .error e
  | .ok c => if c.fieldsOk fl then c.postValidation else .error .valueError

/-- What a validated harvester fulfils.  Used in virtual_harvester.py l.34-111. -/
structure VhrvCfg.Valid (c : VhrvCfg) : Prop where
  fields : c.fieldsOk fl = true
  order : c.voltageMin ≤ c.voltage ∧ c.voltage ≤ c.voltageMax

/-- `calc_hrv_mode` (virtual_harvester.py l.113-114). -/
def VhrvCfg.hrvMode (c : VhrvCfg) (forEmu : Bool) : ℕ :=
  1 * forEmu.toNat + 2 * c.rising.toNat + 4 * c.linExtrapolation.toNat

/-- `calc_algorithm_num` (virtual_harvester.py l.116-130). -/
def VhrvCfg.algorithmNum (c : VhrvCfg) (forEmu : Bool) : Except PyErr ℕ :=
  if forEmu && c.algorithm.dtype ≠ .ivsample then .error .valueError
  else if !forEmu && c.algorithm.num < Algorithm.iscVoc.num then .error .valueError
  else .ok c.algorithm.num

/-- `calc_timings_ms` (virtual_harvester.py l.132-149): interval and duration.  The ratio in l.142 only serves a
log message (its divisors are positive). -/
def VhrvCfg.timings (c : VhrvCfg) (forEmu : Bool) : ℚ × ℚ :=
  let windowLength := c.samplesN * (1 + c.waitCycles)
  let timeMin := fl (((1 + c.waitCycles) * 1000 : ℤ) / 100000)
  let timeMin := if forEmu then max timeMin (fl ((windowLength * 1000 : ℤ) / 100000)) else timeMin
  let interval := min (max c.interval timeMin) 1000000
  let duration := min (max c.duration timeMin) interval
  (interval, duration)

/-- `calc_window_size` (virtual_harvester.py l.154-176). -/
def VhrvCfg.windowSize (c : VhrvCfg) (dtypeIn : Option EnergyDType) (forEmu : Bool) : ℤ :=
  if !forEmu then c.samplesN
  else
    match dtypeIn.getD c.algorithm.dtype with
    | .ivcurve => c.samplesN * (1 + c.waitCycles)
    | .ivsample => 0
    | .iscVoc => 2 * (1 + c.waitCycles)

/-- `HarvesterPRUConfig.from_vhrv` (virtual_harvester.py l.236-286). -/
def fromVhrv (c : VhrvCfg) (dtypeIn : Option EnergyDType) (windowSize : Option ℤ) (voltageStepV : Option ℚ)
    (forEmu : Bool) : Except PyErr HrvCfg := do
  if forEmu && !(dtypeIn == some .ivsample || dtypeIn == some .ivcurve) then throw .notImplementedError
  if forEmu && dtypeIn == some .ivcurve && voltageStepV.isNone then throw .valueError
  if forEmu && dtypeIn == some .ivcurve && windowSize.isNone then throw .valueError
  let t := c.timings fl forEmu
  let window := windowSize.getD (c.windowSize dtypeIn forEmu)
  let step := match voltageStepV with
    | some v => fl (1000 * v)
    | none => c.voltageStep
  let algorithm ← c.algorithmNum forEmu
  return {
    algorithm := ← u32 algorithm
    hrvMode := ← u32 (c.hrvMode forEmu)
    windowSize := ← u32 window
    voltage := ← u32 (pyRound (fl (c.voltage * 10^3)))
    voltageMin := ← u32 (pyRound (fl (c.voltageMin * 10^3)))
    voltageMax := ← u32 (pyRound (fl (c.voltageMax * 10^3)))
    voltageStep := ← u32 (pyRound (fl (step * 10^3)))
    currentLimit := ← u32 (pyRound (fl (c.currentLimit * 10^3)))
    setpointN8 := ← u32 (pyRound (min 255 (fl (c.setpointN * 2^8))))
    intervalN := ← u32 (pyRound (fl (fl (t.1 * 100000) * fl (1/1000))))
    durationN := ← u32 (pyRound (fl (fl (t.2 * 100000) * fl (1/1000))))
    waitCyclesN := ← u32 c.waitCycles }

/-! ## Source -/

/-- `VirtualSourceConfig` (virtual_source.py l.42-112) after validation; voltages in mV, currents in mA resp. nA, capacities in uF,
times in ms. -/
structure VsrcCfg where
  enableBoost : Bool
  enableBuck : Bool
  enableFeedbackToHrv : Bool
  intervalStartupDelayDrain : ℚ
  harvester : VhrvCfg
  vInputMax : ℚ
  iInputMax : ℚ
  vInputDrop : ℚ
  rInput : ℚ
  cIntermediate : ℚ
  vIntermediateInit : ℚ
  iIntermediateLeak : ℚ
  vEnable : ℚ
  vDisable : ℚ
  intervalCheckThresholds : ℚ
  vPwrGoodEnable : ℚ
  vPwrGoodDisable : ℚ
  immediatePwrGoodSignal : Bool
  cOutput : ℚ
  vOutputLogGpio : ℚ
  vInputBoost : ℚ
  vIntermediateMax : ℚ
  lutInput : List (List ℚ)
  lutInputVMin : ℤ
  lutInputIMin : ℤ
  vOutput : ℚ
  vBuckDrop : ℚ
  lutOutput : List ℚ
  lutOutputIMin : ℤ
deriving DecidableEq, Repr

/-- Field constraints (virtual_source.py l.19-23, 42-112) and `post_validation` (l.122-126). -/
structure VsrcCfg.Valid (c : VsrcCfg) : Prop where
  intervalStartupDelayDrain : inRange 0 10000 c.intervalStartupDelayDrain = true
  vInputMax : inRange 0 10000 c.vInputMax = true
  iInputMax : inRange 0 4290 c.iInputMax = true
  vInputDrop : inRange 0 4290000 c.vInputDrop = true
  rInput : inRange 0 4290000 c.rInput = true
  cIntermediate : inRange 0 100000 c.cIntermediate = true
  vIntermediateInit : inRange 0 10000 c.vIntermediateInit = true
  iIntermediateLeak : inRange 0 4290000000 c.iIntermediateLeak = true
  vEnable : inRange 0 10000 c.vEnable = true
  vDisable : inRange 0 10000 c.vDisable = true
  intervalCheckThresholds : inRange 0 4290 c.intervalCheckThresholds = true
  vPwrGoodEnable : inRange 0 10000 c.vPwrGoodEnable = true
  vPwrGoodDisable : inRange 0 10000 c.vPwrGoodDisable = true
  cOutput : inRange 0 4290000 c.cOutput = true
  vOutputLogGpio : inRange 0 4290000 c.vOutputLogGpio = true
  vInputBoost : inRange 0 10000 c.vInputBoost = true
  vIntermediateMax : inRange 0 10000 c.vIntermediateMax = true
  lutInput : c.lutInput.length = 12 ∧ ∀ r ∈ c.lutInput, r.length = 12 ∧ ∀ x ∈ r, inRange 0 1 x = true
  lutInputVMin : 0 ≤ c.lutInputVMin ∧ c.lutInputVMin ≤ 20
  lutInputIMin : 1 ≤ c.lutInputIMin ∧ c.lutInputIMin ≤ 20
  vOutput : inRange 0 5000 c.vOutput = true
  vBuckDrop : inRange 0 5000 c.vBuckDrop = true
  lutOutput : c.lutOutput.length = 12 ∧ ∀ x ∈ c.lutOutput, inRange 0 1 x = true
  lutOutputIMin : 1 ≤ c.lutOutputIMin ∧ c.lutOutputIMin ≤ 20
  harvester : c.harvester.Valid fl
  post : ∃ p, fromVhrv fl c.harvester (some .ivsample) none none true = .ok p

/-- `pow(x, 0.5)`: `none` is a complex number.  Used in `calc_internal_states`, virtual_source.py l.128-204. -/
def powHalf (sqrt : ℚ → ℚ) (x : ℚ) : Option ℚ := if x < 0 then none else some (sqrt x)

/-- virtual_harvester.py l.175-176 resp. l.177-179: complex or negative becomes 0. -/
def protect : Option ℚ → ℚ
  | none => 0
  | some d => if d ≥ 0 then d else 0

/-- The two candidates for the drop at switch-on (virtual_source.py l.155-179): with the storage at
the enable threshold, and with the storage at the output voltage. -/
def dVCandidates (sqrt : ℚ → ℚ) (c : VsrcCfg) : ℚ × ℚ :=
  if c.cIntermediate > 0 ∧ c.cOutput > 0 then
    let r := fl (c.cOutput / c.cIntermediate)
    let a := (powHalf sqrt (fl (fl (c.vEnable^2) - fl (r * fl (c.vOutput^2))))).map (fun q => fl (c.vEnable - q))
    let b := (powHalf sqrt (fl (1 - r))).map (fun q => fl (c.vOutput * fl (1 - q)))
    (protect a, protect b)
  else (0, 0)

/-- What `calc_internal_states` returns, in mV.  Used in `calc_internal_states`, virtual_source.py l.128-204. -/
structure VsrcStates where
  dVEnable : ℚ
  vEnable : ℚ
  vDisable : ℚ
deriving DecidableEq, Repr

/-- `calc_internal_states` (virtual_source.py l.128-204). -/
def VsrcCfg.internalStates (sqrt : ℚ → ℚ) (c : VsrcCfg) : VsrcStates :=
  let d := dVCandidates fl sqrt c
  if c.enableBuck then
    let vPre := fl (c.vOutput + c.vBuckDrop)
    let vDis := if c.vDisable > vPre then c.vDisable else vPre
    if c.vEnable > vPre then { dVEnable := d.1, vEnable := c.vEnable, vDisable := vDis }
    else { dVEnable := d.2, vEnable := fl (vPre + d.2), vDisable := vDis }
  else { dVEnable := d.1, vEnable := c.vEnable, vDisable := c.vDisable }

/-- `calc_converter_mode` (virtual_source.py l.206-233). -/
def VsrcCfg.converterMode (c : VsrcCfg) (dtypeIn : EnergyDType) (logMid : Bool) : ℕ :=
  let storage := decide (c.cIntermediate > 0)
  let boost := c.enableBoost && storage
  let feedback := c.enableFeedbackToHrv && storage && !boost && (dtypeIn == .ivcurve)
  1 * storage.toNat + 2 * boost.toNat + 4 * c.enableBuck.toNat + 8 * logMid.toNat + 16 * feedback.toNat

/-- `calc_cap_constant_us_per_nF_n28` (virtual_source.py l.235-241); the float floor division is the floor of the exact quotient. -/
def VsrcCfg.capConstant (c : VsrcCfg) : ℤ :=
  let cap := max c.cIntermediate (fl (1/1000))
  pyInt (fl (⌊(10^3 * 2^28 : ℚ) / fl (cap * 100000)⌋ : ℚ))

/-- Entry of `LUT_inp_efficiency_n8` (virtual_source.py l.345-347); constraint `u8`. -/
def lutInpEntry (x : ℚ) : Except PyErr ℕ :=
  let v := min 255 (pyRound (fl (256 * x)))
  if 0 ≤ v ∧ v < 2^8 then .ok v.toNat else .error .valueError

/-- Entry of `LUT_out_inv_efficiency_n4` (virtual_source.py l.348-351).  A quotient beyond the float range is
infinite and `round` raises `OverflowError`. -/
def lutOutEntry (x : ℚ) : Except PyErr ℕ :=
  if x > 0 then
    if fl (2^4 / x) ≥ 2^1024 then .error .overflowError
    else u32 (min (2^14) (pyRound (fl (2^4 / x))))
  else u32 (2^14)

/-- `ConverterPRUConfig.from_vsrc` (virtual_source.py l.301-352). -/
def fromVsrc (sqrt : ℚ → ℚ) (c : VsrcCfg) (dtypeIn : EnergyDType) (logMid : Bool) : Except PyErr CnvCfg := do
  let s := c.internalStates fl sqrt
  return {
    converterMode := ← u32 (c.converterMode dtypeIn logMid)
    intervalStartupDelayDrainN := ← u32 (pyRound (fl (fl (c.intervalStartupDelayDrain * 100000) * fl (1/1000))))
    vInputMax := ← u32 (pyRound (fl (c.vInputMax * 1000)))
    iInputMax := ← u32 (pyRound (fl (c.iInputMax * 10^6)))
    vInputDrop := ← u32 (pyRound (fl (c.vInputDrop * 1000)))
    rInputN22 := ← u32 (pyRound (fl (c.rInput * fl (fl (1/10^6) * 2^22))))
    constantN28 := ← u32 (c.capConstant fl)
    vIntermediateInit := ← u32 (pyRound (fl (c.vIntermediateInit * 1000)))
    iIntermediateLeak := ← u32 (pyRound c.iIntermediateLeak)
    vEnableOutputThreshold := ← u32 (pyRound (fl (s.vEnable * 1000)))
    vDisableOutputThreshold := ← u32 (pyRound (fl (s.vDisable * 1000)))
    dVEnableOutput := ← u32 (pyRound (fl (s.dVEnable * 1000)))
    intervalCheckThresholdsN := ← u32 (pyRound (fl (fl (c.intervalCheckThresholds * 100000) * fl (1/1000))))
    vPwrGoodEnableThreshold := ← u32 (pyRound (fl (c.vPwrGoodEnable * 1000)))
    vPwrGoodDisableThreshold := ← u32 (pyRound (fl (c.vPwrGoodDisable * 1000)))
    immediatePwrGoodSignal := ← u32 c.immediatePwrGoodSignal.toNat
    vOutputLogGpioThreshold := ← u32 (pyRound (fl (c.vOutputLogGpio * 1000)))
    vInputBoostThreshold := ← u32 (pyRound (fl (c.vInputBoost * 1000)))
    vIntermediateMax := ← u32 (pyRound (fl (c.vIntermediateMax * 1000)))
    vOutput := ← u32 (pyRound (fl (c.vOutput * 1000)))
    vBuckDrop := ← u32 (pyRound (fl (c.vBuckDrop * 1000)))
    lutInputVMinLog2 := ← u32 c.lutInputVMin
    lutInputIMinLog2 := ← u32 (c.lutInputIMin - 1)
    lutOutputIMinLog2 := ← u32 (c.lutOutputIMin - 1)
    lutInpEfficiencyN8 := ← c.lutInput.mapM (fun il => il.mapM (lutInpEntry fl))
    lutOutInvEfficiencyN4 := ← c.lutOutput.mapM (lutOutEntry fl) }

end
end Verif.Model
