import Verif.Model.Shipped
import Verif.Model.SourceConfig
import Verif.Model.Calibration

/-!
# The virtual sources and harvesters that come with the library

The fixture files `shepherd_core/shepherd_core/data_models/content/virtual_harvester_fixture.yaml` and `virtual_source_fixture.yaml` as data and the construction of
`VirtualHarvesterConfig` and `VirtualSourceConfig` from them: `query_database` in `content/virtual_harvester.py` l.74-100 and `content/virtual_source.py` l.114-120, with the data
base of `Verif.Model.Fixtures`.

Values of the files: `.int n` is the number n, `.other n` the decimal number n/100, for switches 0 is false and 1 is true, for tables 0 stands for the table of ones and 1 for the table
of the chip.  A nested dictionary that consists of a name is that name.  Left out: texts that are only shown, owners and dates.
-/

namespace Verif.Model
open Verif.Py

/-! ## Values -/

/-- A number field with its default.  Used in field defaults, virtual_harvester.py l.34-73, virtual_source.py l.26-112. -/
def numOf (r : Rec) (k : String) (d : ℚ) : Except PyErr ℚ :=
  match r k with
  | none => .ok d
  | some (.int n) => .ok n
  | some (.other n) => .ok (n / 100)
  | some (.str _) => .error .valueError

/-- An integer field with its default.  Used in field defaults, virtual_harvester.py l.34-73, virtual_source.py l.26-112. -/
def intOf (r : Rec) (k : String) (d : ℤ) : Except PyErr ℤ :=
  match r k with
  | none => .ok d
  | some (.int n) => .ok n
  | some _ => .error .valueError

/-- A switch with its default.  Used in field defaults, virtual_harvester.py l.34-73, virtual_source.py l.26-112. -/
def boolOf (r : Rec) (k : String) (d : Bool) : Except PyErr Bool :=
  match r k with
  | none => .ok d
  | some (.other 0) => .ok false
  | some (.other 1) => .ok true
  | some _ => .error .valueError

/-- A table with its default.  Used in field defaults, virtual_harvester.py l.34-73, virtual_source.py l.26-112. -/
def tableOf {α : Type} (r : Rec) (k : String) (ones chip : α) : Except PyErr α :=
  match r k with
  | none => .ok ones
  | some (.other 0) => .ok ones
  | some (.other 1) => .ok chip
  | some _ => .error .valueError

/-- `AlgorithmDType(..)` (virtual_harvester.py l.21-31). -/
def algorithmOf (r : Rec) : Except PyErr Algorithm :=
  match r "algorithm" with
  | some (.str "neutral") => .ok .neutral
  | some (.str "isc_voc") => .ok .iscVoc
  | some (.str "ivcurve") => .ok .ivcurve
  | some (.str "cv") => .ok .cv
  | some (.str "mppt_voc") => .ok .mpptVoc
  | some (.str "mppt_po") => .ok .mpptPo
  | some (.str "mppt_opt") => .ok .mpptOpt
  | _ => .error .valueError

/-! ## Harvesters -/

/-- The fields of a harvester (virtual_harvester.py l.43-72), numbers as written. -/
def parseVhrv (r : Rec) : Except PyErr VhrvRaw := do
  let step ← match r "voltage_step_mV" with
    | none => pure none
    | some _ => do pure (some (← numOf r "voltage_step_mV" 0))
  return { name := ← textOf r "name", algorithm := ← algorithmOf r, samplesN := ← intOf r "samples_n" 8, voltage := ← numOf r "voltage_mV" 2500
           voltageMin := ← numOf r "voltage_min_mV" 0, voltageMax := ← numOf r "voltage_max_mV" 5000, currentLimit := ← numOf r "current_limit_uA" 50000
           voltageStep := step, setpointN := ← numOf r "setpoint_n" (7 / 10), interval := ← numOf r "interval_ms" 100, duration := ← numOf r "duration_ms" (1 / 10)
           rising := ← boolOf r "rising" true, linExtrapolation := ← boolOf r "enable_linear_extrapolation" true, waitCycles := ← intOf r "wait_cycles" 1 }

/-- Decimal numbers become the nearest floats.  Used in virtual_harvester.py l.76-100. -/
def VhrvRaw.toFloats (fl : ℚ → ℚ) (r : VhrvRaw) : VhrvRaw :=
  { r with voltage := fl r.voltage, voltageMin := fl r.voltageMin, voltageMax := fl r.voltageMax, currentLimit := fl r.currentLimit, voltageStep := r.voltageStep.map fl
           setpointN := fl r.setpointN, interval := fl r.interval, duration := fl r.duration }

/-- `VirtualHarvesterConfig(..)` from completed values: a missing algorithm is only noticed after `query_database` (virtual_harvester.py l.74-100). -/
def makeVhrv (fl : ℚ → ℚ) (adc dac : CalPair) (r : Rec) : Except PyErr VhrvCfg := do
  let raw ← parseVhrv r
  (raw.toFloats fl).validate fl adc dac

/-- `VirtualHarvesterConfig(name=..)`.  Used in virtual_harvester.py l.76-100. -/
def loadVhrv (fl : ℚ → ℚ) (adc dac : CalPair) (files : List (String × Rec)) (name : String) : Except PyErr VhrvCfg := do
  makeVhrv fl adc dac (← byNameIn "VirtualHarvesterConfig" files name)

/-- `VirtualHarvesterConfig(id=..)`.  Used in virtual_harvester.py l.76-100. -/
def loadVhrvId (fl : ℚ → ℚ) (adc dac : CalPair) (files : List (String × Rec)) (id : ℤ) : Except PyErr VhrvCfg := do
  makeVhrv fl adc dac (← byIdIn "VirtualHarvesterConfig" files id)

/-- One entry of the file.  From data_models/content/virtual_harvester_fixture.yaml. -/
def hrvEntry (name : String) (id : ℤ) (base : Option String) (fields : List (String × Val)) : String × Rec :=
  yaml "VirtualHarvesterConfig" name id ((base.map fun b => ("inherit_from", Val.str b)).toList ++ fields)

/-- `content/virtual_harvester_fixture.yaml` l.8-168. -/
def harvesterFile : List (String × Rec) :=
  [hrvEntry "neutral" 1000 none [("enable_linear_extrapolation", .other 1)],
   hrvEntry "ivcurve" 1100 (some "neutral") [("algorithm", .str "ivcurve"), ("samples_n", .int 909), ("voltage_min_mV", .int 0), ("voltage_max_mV", .int 5000), ("wait_cycles", .int 0),
     ("rising", .other 0)],
   hrvEntry "ivcurves" 1101 (some "ivcurve") [],
   hrvEntry "iv110" 1103 (some "ivcurve") [],
   hrvEntry "iv1000" 1102 (some "ivcurve") [("samples_n", .int 100), ("wait_cycles", .int 0)],
   hrvEntry "isc_voc" 1200 (some "neutral") [("algorithm", .str "isc_voc"), ("wait_cycles", .int 4)],
   hrvEntry "cv20" 2100 (some "neutral") [("algorithm", .str "cv"), ("voltage_mV", .int 2000)],
   hrvEntry "cv24" 2101 (some "cv20") [("voltage_mV", .int 2400)],
   hrvEntry "cv33" 2102 (some "cv20") [("voltage_mV", .int 3300)],
   hrvEntry "cv10" 2102 (some "cv20") [("voltage_mV", .int 1000)],
   hrvEntry "mppt_voc" 2200 (some "neutral") [("algorithm", .str "mppt_voc"), ("setpoint_n", .other 76), ("interval_ms", .int 100), ("duration_ms", .other 120), ("current_limit_uA", .int 5)],
   hrvEntry "mppt_bq" 2201 (some "mppt_voc") [("setpoint_n", .other 76), ("interval_ms", .int 16000), ("duration_ms", .int 256)],
   hrvEntry "mppt_bqt" 2202 (some "mppt_voc") [("setpoint_n", .other 50), ("interval_ms", .int 16000), ("duration_ms", .int 256)],
   hrvEntry "mppt_bq_solar" 2203 (some "mppt_bq") [],
   hrvEntry "mppt_bq_thermoelectric" 2204 (some "mppt_bqt") [],
   hrvEntry "mppt_po" 2205 (some "neutral") [("algorithm", .str "mppt_po"), ("voltage_min_mV", .int 0), ("voltage_max_mV", .int 5000), ("voltage_step_mV", .int 10), ("interval_ms", .int 18)],
   hrvEntry "mppt_opt" 2206 (some "mppt_po") [("algorithm", .str "mppt_opt"), ("voltage_step_mV", .int 1), ("interval_ms", .other 1)],
   hrvEntry "direct" 3000 (some "neutral") [("algorithm", .str "neutral")]]

/-! ## Sources -/

/-- The fields of `VirtualSourceConfig` (virtual_source.py l.42-112), numbers as written, the harvester by name. -/
structure VsrcRaw where
  enableBoost : Bool := false
  enableBuck : Bool := false
  enableFeedbackToHrv : Bool := false
  intervalStartupDelayDrain : ℚ := 0
  harvester : String := "mppt_opt"
  vInputMax : ℚ := 10000
  iInputMax : ℚ := 4200
  vInputDrop : ℚ := 0
  rInput : ℚ := 0
  cIntermediate : ℚ := 0
  vIntermediateInit : ℚ := 3000
  iIntermediateLeak : ℚ := 0
  vEnable : ℚ := 1
  vDisable : ℚ := 0
  intervalCheckThresholds : ℚ := 0
  vPwrGoodEnable : ℚ := 2800
  vPwrGoodDisable : ℚ := 2200
  immediatePwrGoodSignal : Bool := true
  cOutput : ℚ := 1
  vOutputLogGpio : ℚ := 1400
  vInputBoost : ℚ := 0
  vIntermediateMax : ℚ := 10000
  lutInput : List (List ℚ) := List.replicate 12 (List.replicate 12 1)
  lutInputVMin : ℤ := 0
  lutInputIMin : ℤ := 1
  vOutput : ℚ := 2400
  vBuckDrop : ℚ := 0
  lutOutput : List ℚ := List.replicate 12 1
  lutOutputIMin : ℤ := 1
deriving DecidableEq, Repr

/-- `LUT_input_efficiency` of the chip, in percent (virtual_source_fixture.yaml l.157-171). -/
def chipInput : List (List ℕ) :=
  [[1, 1, 2, 5, 10, 15, 15, 20, 25, 30, 30, 35], [10, 20, 30, 40, 50, 55, 56, 57, 58, 59, 60, 61], [20, 40, 50, 60, 65, 66, 67, 68, 69, 70, 71, 72],
   [35, 55, 65, 71, 73, 74, 75, 75, 76, 77, 77, 78], [45, 65, 70, 73, 75, 77, 78, 79, 80, 81, 81, 82], [50, 70, 74, 76, 78, 79, 80, 81, 82, 83, 83, 84],
   [52, 73, 76, 78, 80, 81, 82, 83, 84, 85, 85, 86], [53, 75, 77, 79, 81, 82, 83, 84, 85, 86, 86, 87], [55, 77, 78, 80, 82, 83, 85, 86, 87, 87, 87, 88],
   [56, 78, 79, 81, 83, 85, 87, 88, 88, 88, 88, 89], [58, 79, 80, 82, 84, 86, 88, 89, 89, 89, 89, 90], [60, 80, 81, 83, 85, 87, 89, 90, 90, 90, 90, 90]]
/-- `LUT_output_efficiency` of the chip, in percent (virtual_source_fixture.yaml l.224). -/
def chipOutput : List ℕ := [40, 50, 60, 73, 82, 86, 88, 90, 91, 92, 93, 92]

/-- The fields of a source (virtual_source.py l.42-112). -/
def parseVsrc (r : Rec) : Except PyErr VsrcRaw := do
  let hrv ← match r "harvester" with
    | none => pure "mppt_opt"
    | some (.str s) => pure s
    | some _ => throw .valueError
  return { enableBoost := ← boolOf r "enable_boost" false, enableBuck := ← boolOf r "enable_buck" false, enableFeedbackToHrv := ← boolOf r "enable_feedback_to_hrv" false
           intervalStartupDelayDrain := ← numOf r "interval_startup_delay_drain_ms" 0, harvester := hrv, vInputMax := ← numOf r "V_input_max_mV" 10000
           iInputMax := ← numOf r "I_input_max_mA" 4200, vInputDrop := ← numOf r "V_input_drop_mV" 0, rInput := ← numOf r "R_input_mOhm" 0
           cIntermediate := ← numOf r "C_intermediate_uF" 0, vIntermediateInit := ← numOf r "V_intermediate_init_mV" 3000, iIntermediateLeak := ← numOf r "I_intermediate_leak_nA" 0
           vEnable := ← numOf r "V_intermediate_enable_threshold_mV" 1, vDisable := ← numOf r "V_intermediate_disable_threshold_mV" 0
           intervalCheckThresholds := ← numOf r "interval_check_thresholds_ms" 0, vPwrGoodEnable := ← numOf r "V_pwr_good_enable_threshold_mV" 2800
           vPwrGoodDisable := ← numOf r "V_pwr_good_disable_threshold_mV" 2200, immediatePwrGoodSignal := ← boolOf r "immediate_pwr_good_signal" true
           cOutput := ← numOf r "C_output_uF" 1, vOutputLogGpio := ← numOf r "V_output_log_gpio_threshold_mV" 1400, vInputBoost := ← numOf r "V_input_boost_threshold_mV" 0
           vIntermediateMax := ← numOf r "V_intermediate_max_mV" 10000
           lutInput := ← tableOf r "LUT_input_efficiency" (List.replicate 12 (List.replicate 12 1)) (chipInput.map fun l => l.map fun n => (n : ℚ) / 100)
           lutInputVMin := ← intOf r "LUT_input_V_min_log2_uV" 0, lutInputIMin := ← intOf r "LUT_input_I_min_log2_nA" 1, vOutput := ← numOf r "V_output_mV" 2400
           vBuckDrop := ← numOf r "V_buck_drop_mV" 0, lutOutput := ← tableOf r "LUT_output_efficiency" (List.replicate 12 1) (chipOutput.map fun n => (n : ℚ) / 100)
           lutOutputIMin := ← intOf r "LUT_output_I_min_log2_nA" 1 }

/-- Decimal numbers become the nearest floats; the harvester is `h`.  Used in virtual_source.py l.116-126. -/
def VsrcRaw.toCfg (fl : ℚ → ℚ) (r : VsrcRaw) (h : VhrvCfg) : VsrcCfg :=
  { enableBoost := r.enableBoost, enableBuck := r.enableBuck, enableFeedbackToHrv := r.enableFeedbackToHrv, intervalStartupDelayDrain := fl r.intervalStartupDelayDrain, harvester := h
    vInputMax := fl r.vInputMax, iInputMax := fl r.iInputMax, vInputDrop := fl r.vInputDrop, rInput := fl r.rInput, cIntermediate := fl r.cIntermediate
    vIntermediateInit := fl r.vIntermediateInit, iIntermediateLeak := fl r.iIntermediateLeak, vEnable := fl r.vEnable, vDisable := fl r.vDisable
    intervalCheckThresholds := fl r.intervalCheckThresholds, vPwrGoodEnable := fl r.vPwrGoodEnable, vPwrGoodDisable := fl r.vPwrGoodDisable
    immediatePwrGoodSignal := r.immediatePwrGoodSignal, cOutput := fl r.cOutput, vOutputLogGpio := fl r.vOutputLogGpio, vInputBoost := fl r.vInputBoost
    vIntermediateMax := fl r.vIntermediateMax, lutInput := r.lutInput.map fun l => l.map fl, lutInputVMin := r.lutInputVMin, lutInputIMin := r.lutInputIMin
    vOutput := fl r.vOutput, vBuckDrop := fl r.vBuckDrop, lutOutput := r.lutOutput.map fl, lutOutputIMin := r.lutOutputIMin }

open Classical in
/-- `VirtualSourceConfig(..)` from completed values: the nested harvester by name, checks of the fields and `post_validation` (virtual_source.py l.114-126). -/
noncomputable def makeVsrc (fl : ℚ → ℚ) (adc dac : CalPair) (files : List (String × Rec)) (r : Rec) : Except PyErr VsrcCfg := do
  let raw ← parseVsrc r
  let h ← loadVhrv fl adc dac files raw.harvester
  if (raw.toCfg fl h).Valid fl then return raw.toCfg fl h else throw .valueError

/-- `VirtualSourceConfig(name=..)`.  Used in virtual_source.py l.116-126. -/
noncomputable def loadVsrc (fl : ℚ → ℚ) (adc dac : CalPair) (files : List (String × Rec)) (name : String) : Except PyErr VsrcCfg := do
  makeVsrc fl adc dac files (← byNameIn "VirtualSourceConfig" files name)

/-- `VirtualSourceConfig(id=..)`.  Used in virtual_source.py l.116-126. -/
noncomputable def loadVsrcId (fl : ℚ → ℚ) (adc dac : CalPair) (files : List (String × Rec)) (id : ℤ) : Except PyErr VsrcCfg := do
  makeVsrc fl adc dac files (← byIdIn "VirtualSourceConfig" files id)

/-- One entry of the file.  From data_models/content/virtual_source_fixture.yaml. -/
def srcEntry (name : String) (id : ℤ) (base : Option String) (fields : List (String × Val)) : String × Rec :=
  yaml "VirtualSourceConfig" name id ((base.map fun b => ("inherit_from", Val.str b)).toList ++ fields)

/-- `content/virtual_source_fixture.yaml` l.6-246. -/
def sourceFile : List (String × Rec) :=
  [srcEntry "neutral" 1000 none [("enable_boost", .other 0), ("enable_buck", .other 0), ("enable_feedback_to_hrv", .other 0), ("interval_startup_delay_drain_ms", .int 0),
     ("harvester", .str "mppt_opt"), ("V_input_max_mV", .int 10000), ("I_input_max_mA", .int 4200), ("V_input_drop_mV", .int 0), ("R_input_mOhm", .int 0), ("C_intermediate_uF", .int 0),
     ("V_intermediate_init_mV", .int 3000), ("I_intermediate_leak_nA", .int 0), ("V_intermediate_enable_threshold_mV", .int 1), ("V_intermediate_disable_threshold_mV", .int 0),
     ("interval_check_thresholds_ms", .int 0), ("V_pwr_good_enable_threshold_mV", .int 2800), ("V_pwr_good_disable_threshold_mV", .int 2200), ("immediate_pwr_good_signal", .other 1),
     ("C_output_uF", .int 1), ("V_output_log_gpio_threshold_mV", .int 1400), ("V_input_boost_threshold_mV", .int 0), ("V_intermediate_max_mV", .int 10000),
     ("LUT_input_efficiency", .other 0), ("LUT_input_V_min_log2_uV", .int 0), ("LUT_input_I_min_log2_nA", .int 1), ("V_output_mV", .int 2400), ("V_buck_drop_mV", .int 0),
     ("LUT_output_efficiency", .other 0), ("LUT_output_I_min_log2_nA", .int 1)],
   srcEntry "direct" 1010 (some "neutral") [("harvester", .str "direct")],
   srcEntry "diode+capacitor" 1011 (some "neutral") [("V_input_drop_mV", .int 300), ("C_intermediate_uF", .int 47), ("harvester", .str "cv20"), ("enable_feedback_to_hrv", .other 1),
     ("V_intermediate_enable_threshold_mV", .int 2000), ("V_intermediate_disable_threshold_mV", .int 1800)],
   srcEntry "dio_cap" 1012 (some "diode+capacitor") [],
   srcEntry "diode+resistor+capacitor" 1013 (some "diode+capacitor") [("R_input_mOhm", .int 10000)],
   srcEntry "dio_res_cap" 1014 (some "diode+resistor+capacitor") [],
   srcEntry "BQ25504" 1020 (some "neutral") [("enable_boost", .other 1), ("harvester", .str "mppt_bq_solar"), ("V_input_max_mV", .int 3000), ("I_input_max_mA", .int 100),
     ("C_intermediate_uF", .int 100), ("V_intermediate_init_mV", .int 3000), ("I_intermediate_leak_nA", .int 330), ("V_intermediate_enable_threshold_mV", .int 1000),
     ("V_intermediate_disable_threshold_mV", .int 0), ("interval_check_thresholds_ms", .int 64), ("V_pwr_good_enable_threshold_mV", .int 2800),
     ("V_pwr_good_disable_threshold_mV", .int 2340), ("immediate_pwr_good_signal", .other 0), ("V_input_boost_threshold_mV", .int 130), ("V_intermediate_max_mV", .int 3600),
     ("LUT_input_efficiency", .other 1), ("LUT_input_V_min_log2_uV", .int 17), ("LUT_input_I_min_log2_nA", .int 13)],
   srcEntry "BQ25504s" 1021 (some "BQ25504") [("immediate_pwr_good_signal", .other 1)],
   srcEntry "BQ25504-Schmitt" 1022 (some "BQ25504s") [],
   srcEntry "BQ25570" 1030 (some "BQ25504") [("enable_boost", .other 1), ("enable_buck", .other 1), ("V_input_max_mV", .int 5100), ("I_input_max_mA", .int 100), ("C_intermediate_uF", .int 33),
     ("V_intermediate_init_mV", .int 3400), ("I_intermediate_leak_nA", .int 0), ("V_intermediate_enable_threshold_mV", .int 3000), ("V_intermediate_disable_threshold_mV", .int 2400),
     ("interval_check_thresholds_ms", .int 64), ("V_pwr_good_enable_threshold_mV", .int 3000), ("V_pwr_good_disable_threshold_mV", .int 2500), ("immediate_pwr_good_signal", .other 0),
     ("C_output_uF", .int 1), ("V_input_boost_threshold_mV", .int 100), ("V_intermediate_max_mV", .int 5500), ("V_output_mV", .int 2200), ("V_buck_drop_mV", .int 200),
     ("LUT_output_efficiency", .other 1), ("LUT_output_I_min_log2_nA", .int 10)],
   srcEntry "BQ25570s" 1031 (some "BQ25570") [("immediate_pwr_good_signal", .other 1)],
   srcEntry "BQ25570-Schmitt" 1032 (some "BQ25570s") [],
   srcEntry "default" 1033 (some "BQ25570s") []]

/-- Both files.  Used in virtual_harvester_fixture.yaml, virtual_source_fixture.yaml in data_models/content. -/
def contentFiles : List (String × Rec) := harvesterFile ++ sourceFile

end Verif.Model
