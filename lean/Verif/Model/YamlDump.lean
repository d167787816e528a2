import Verif.Model.CsvText
import Verif.Model.Reports
import Verif.Model.Fingerprint
import Verif.Model.Store

/-!
# Writing models as YAML

Models `yaml.safe_dump` as `ShpModel.__str__` and `ShpModel.to_file` use it (`shepherd_core/shepherd_core/data_models/base/shepherd.py` l.26-50, l.86-93, l.124-154): which
types of Python have a text, which text it is, and what is left on the disk if one has none.

Simplifications: the result is the tree of nodes, not its layout as text; the text of dates, of floats and of bytes is a parameter; paths are those of POSIX with at most one
leading slash; names of directories are texts.
-/

namespace Verif.Model
open Verif.Py

mutual
/-- The objects `model_dump` leaves in a model (base/shepherd.py l.88-92, l.136): values of the types the fields of models can have.  `text` also stands for the values of
enumerations (`use_enum_values`, l.77), `list` also for tuples. -/
inductive PyObj
  | none
  | bool (b : Bool)
  | int (i : ℤ)
  | float (q : ℚ)
  | text (s : Name)
  | bytes (b : List ℕ)
  | date (iso : Name)
  | datetime (iso : Name)
  | path (absolute : Bool) (parts : List Name)
  | span (us : ℤ)
  | ip4 (a b c d : ℕ)
  | ip6 (n : ℕ)
  | uuid (n : ℕ)
  | url (s : Name)
  | secret (s : Name)
  | list (l : PyObjs)
  | dict (l : PyItems)
/-- Entries of a list.  Used in base/shepherd.py l.88-92, l.136. -/
inductive PyObjs
  | nil
  | cons (x : PyObj) (l : PyObjs)
/-- Entries of a dictionary.  Used in base/shepherd.py l.88-92, l.136. -/
inductive PyItems
  | nil
  | cons (k : Name) (x : PyObj) (l : PyItems)
end

/-- Tags of YAML for single values.  Used in base/shepherd.py l.26-42. -/
inductive YTag
  | null | bool | int | float | str | binary | timestamp
deriving DecidableEq

mutual
/-- The nodes of a document (base/shepherd.py l.26-42, `yaml.ScalarNode`). -/
inductive YNode
  | scalar (tag : YTag) (text : Name)
  | seq (l : YNodes)
  | map (l : YPairs)
/-- Nodes of a sequence.  Used in base/shepherd.py l.88-92, l.143-147. -/
inductive YNodes
  | nil
  | cons (x : YNode) (l : YNodes)
/-- Pairs of a mapping.  Used in base/shepherd.py l.88-92, l.143-147. -/
inductive YPairs
  | nil
  | cons (k : Name) (x : YNode) (l : YPairs)
end

/-- `yaml.representer.RepresenterError`: the type has no representer.  Used in base/shepherd.py l.88-92, l.143-147. -/
inductive DumpErr
  | noRepresenter
deriving DecidableEq

/-- The texts PyYAML makes of floats and bytes.  Used in base/shepherd.py l.88-92, l.143-147. -/
structure YTexts where
  /-- `represent_float` -/
  float : ℚ → Name
  /-- `represent_binary`, base64 -/
  binary : List ℕ → Name

/-- `str(data.as_posix())` in `path2str`, base/shepherd.py l.26-30. -/
def asPosix (absolute : Bool) (parts : List Name) : Name :=
  if absolute then '/' :: joinWith ['/'] parts
  else if parts = [] then ['.'] else joinWith ['/'] parts

/-- `str` of an integer.  Used in `time2int`, base/shepherd.py l.33-35. -/
def intText (i : ℤ) : Name := if i < 0 then '-' :: dec i.natAbs else dec i.natAbs

/-- `str` of an `IPv4Address`, in `generic2str`, base/shepherd.py l.38-40. -/
def ip4Text (a b c d : ℕ) : Name := joinWith ['.'] [dec a, dec b, dec c, dec d]

/-- `str` of a `UUID`: 32 hexadecimal digits in groups of 8, 4, 4, 4 and 12.  Used in `generic2str`, base/shepherd.py l.38-40. -/
def uuidText (n : ℕ) : Name :=
  joinWith ['-'] [hexFixed 8 (n / 16 ^ 24), hexFixed 4 (n / 16 ^ 20), hexFixed 4 (n / 16 ^ 16), hexFixed 4 (n / 16 ^ 12), hexFixed 12 n]

mutual
/-- `SafeDumper.represent_data` with the representers added in base/shepherd.py l.43-48; there is none for addresses of version 6, for URLs and for secrets. -/
def represent (fl : ℚ → ℚ) (t : YTexts) : PyObj → Except DumpErr YNode
  | .none => .ok (.scalar .null ['n', 'u', 'l', 'l'])
  | .bool b => .ok (.scalar .bool (if b then ['t', 'r', 'u', 'e'] else ['f', 'a', 'l', 's', 'e']))
  | .int i => .ok (.scalar .int (intText i))
  | .float q => .ok (.scalar .float (t.float q))
  | .text s => .ok (.scalar .str s)
  | .bytes b => .ok (.scalar .binary (t.binary b))
  | .date s => .ok (.scalar .timestamp s)
  | .datetime s => .ok (.scalar .timestamp s)
  | .path a p => .ok (.scalar .str (asPosix a p))
  | .span us => .ok (.scalar .int (intText (spanToInt fl us)))
  | .ip4 a b c d => .ok (.scalar .str (ip4Text a b c d))
  | .uuid n => .ok (.scalar .str (uuidText n))
  | .ip6 _ => .error .noRepresenter
  | .url _ => .error .noRepresenter
  | .secret _ => .error .noRepresenter
  | .list l => do return .seq (← representList fl t l)
  | .dict l => do return .map (← representItems fl t l)
/-- `represent_sequence`.  Used in base/shepherd.py l.88-92, l.143-147. -/
def representList (fl : ℚ → ℚ) (t : YTexts) : PyObjs → Except DumpErr YNodes
  | .nil => .ok .nil
  | .cons x l => do
    let y ← represent fl t x
    let r ← representList fl t l
    return .cons y r
/-- `represent_mapping` with `sort_keys=False`: the order of the entries is kept.  Used in base/shepherd.py l.88-92, l.143-147. -/
def representItems (fl : ℚ → ℚ) (t : YTexts) : PyItems → Except DumpErr YPairs
  | .nil => .ok .nil
  | .cons k x l => do
    let y ← represent fl t x
    let r ← representItems fl t l
    return .cons k y r
end

/-- `str(model)` where a class does not define it otherwise (base/shepherd.py l.86-93), on the entries `model_dump(exclude_unset=True, exclude_defaults=True)` gives. -/
def modelStr (fl : ℚ → ℚ) (t : YTexts) (items : PyItems) : Except DumpErr YNode := represent fl t (.dict items)

/-- What is at the path `to_file` writes to: whether its directory exists and what the file has in it.  Used in base/shepherd.py l.148-153. -/
structure YamlPlace where
  dirExists : Bool
  file : Option YNode

/-- The entries of the `Wrapper` (base/shepherd.py l.137-145, base/wrapper.py l.16-26): with `minimal`, fields that were not given and those that have their default are left out;
without, the version of the library is in it. -/
def wrapItems (cls : Name) (comment : Option Name) (created lib : Name) (minimal : Bool) (params : PyItems) : PyItems :=
  let tail := PyItems.cons "created".toList (.datetime created)
    (if minimal then .cons "parameters".toList (.dict params) .nil
      else .cons "lib_ver".toList (.text lib) (.cons "parameters".toList (.dict params) .nil))
  .cons "datatype".toList (.text cls)
    (match comment with
      | some c => .cons "comment".toList (.text c) tail
      | none => if minimal then tail else .cons "comment".toList .none tail)

/-- `to_file` (base/shepherd.py l.124-154): the document is complete before the directory is made and the file is opened. -/
def yamlToFile (fl : ℚ → ℚ) (t : YTexts) (cls : Name) (comment : Option Name) (created lib : Name) (minimal : Bool) (params : PyItems) (p : YamlPlace) : Except DumpErr Unit × YamlPlace :=
  match represent fl t (.dict (wrapItems cls comment created lib minimal params)) with
  | .error e => (.error e, p)
  | .ok n => (.ok (), { dirExists := true, file := some n })

/-! ## Which types the fields of the classes have -/

/-- Types of single values.  Used in the annotations of the fields of the classes below. -/
inductive PyKind
  | none | bool | int | float | text | bytes | date | datetime | path | span | ip4 | ip6 | uuid | url | secret
deriving DecidableEq

mutual
/-- The annotation of a field: one type, one of two, a list, or a model with its fields.  Used for the annotations of the fields of the classes below. -/
inductive PyShape
  | one (k : PyKind)
  | either (a b : PyShape)
  | list (s : PyShape)
  | model (f : PyFields)
/-- The fields of a model; `always`: the field is set in every instance (it is required, or a validator sets it).  Used for the classes below. -/
inductive PyFields
  | nil
  | cons (k : Name) (always : Bool) (s : PyShape) (l : PyFields)
end

namespace PyShape
/-- `Optional[…]`.  Used in the annotations of the fields of the classes below. -/
def opt (s : PyShape) : PyShape := .either s (.one .none)
/-- `bool`.  Used in the annotations of the fields of the classes below. -/
def bool : PyShape := .one .bool
/-- `int` with or without bounds.  Used in the annotations of the fields of the classes below. -/
def int : PyShape := .one .int
/-- `float` with or without bounds.  Used in the annotations of the fields of the classes below. -/
def float : PyShape := .one .float
/-- `str` with or without constraints, and enumerations.  Used in the annotations of the fields of the classes below. -/
def text : PyShape := .one .text
/-- `datetime`.  Used in the annotations of the fields of the classes below. -/
def time : PyShape := .one .datetime
/-- `timedelta`.  Used in the annotations of the fields of the classes below. -/
def span : PyShape := .one .span
/-- `Path`.  Used in the annotations of the fields of the classes below. -/
def path : PyShape := .one .path
/-- `Union[UUID4, int]`.  Used in base/content.py l.44, experiment.py l.33, user_model.py l.44. -/
def uid : PyShape := .either (.one .uuid) (.one .int)
end PyShape

/-- Fields of a class in the order of the text: name, whether it is set in every instance, annotation.  Used for the classes below. -/
def PyFields.ofList : List (String × Bool × PyShape) → PyFields
  | [] => .nil
  | (k, a, s) :: t => .cons k.toList a s (.ofList t)

/-- The same fields for several names.  Used for the classes below. -/
def fieldsOf (always : Bool) (s : PyShape) (names : List String) : List (String × Bool × PyShape) := names.map fun k => (k, always, s)

open PyShape

/-- `CalibrationPair`, base/calibration.py l.51-56. -/
def shCalPair : PyShape := .model (.ofList [("gain", true, float), ("offset", false, float), ("unit", false, opt text)])
/-- `CalibrationHarvester`, base/calibration.py l.98-104. -/
def shCalHrv : PyShape := .model (.ofList (fieldsOf false shCalPair ["dac_V_Hrv", "dac_V_Sim", "adc_V_Sense", "adc_C_Hrv"]))
/-- `CalibrationEmulator`, base/calibration.py l.139-148. -/
def shCalEmu : PyShape := .model (.ofList (fieldsOf false shCalPair ["dac_V_A", "dac_V_B", "adc_C_A", "adc_C_B"]))
/-- `CapeData`, base/calibration.py l.176-197. -/
def shCapeData : PyShape := .model (.ofList ([("header", false, .one .bytes)] ++
  fieldsOf false text ["eeprom_revision", "board_name", "version", "manufacturer", "part_number"] ++ [("serial_number", true, text), ("cal_date", false, text)]))
/-- `CalibrationCape`, base/calibration.py l.205-218. -/
def shCalCape : PyShape := .model (.ofList [("cape", false, opt shCapeData), ("host", false, opt text), ("harvester", false, shCalHrv), ("emulator", false, shCalEmu)])
/-- `CalibrationSeries`, base/calibration.py l.259-266. -/
def shCalSeries : PyShape := .model (.ofList (fieldsOf false shCalPair ["voltage", "current", "time"]))
/-- `CalMeasurementPair`, base/cal_measurement.py l.20-24. -/
def shMeasPair : PyShape := .model (.ofList [("shepherd_raw", true, float), ("reference_si", false, float)])
/-- `CalMeasurementHarvester`, base/cal_measurement.py l.60-66. -/
def shMeasHrv : PyShape := .model (.ofList (fieldsOf true (.list shMeasPair) ["dac_V_Hrv", "dac_V_Sim", "adc_V_Sense", "adc_C_Hrv"]))
/-- `CalMeasurementEmulator`, base/cal_measurement.py l.76-82. -/
def shMeasEmu : PyShape := .model (.ofList (fieldsOf true (.list shMeasPair) ["dac_V_A", "dac_V_B", "adc_C_A", "adc_C_B"]))
/-- `CalMeasurementCape`, base/cal_measurement.py l.92-99. -/
def shMeasCape : PyShape := .model (.ofList [("cape", false, opt shCapeData), ("host", false, opt text), ("harvester", false, opt shMeasHrv), ("emulator", false, opt shMeasEmu)])
/-- The fields of `ContentModel`, base/content.py l.40-59. -/
def contentFields : List (String × Bool × PyShape) :=
  [("id", false, uid), ("name", true, text), ("description", false, opt text), ("comment", false, opt text), ("created", false, time), ("updated_last", false, time),
    ("owner", true, text), ("group", true, text), ("visible2group", false, bool), ("visible2all", false, bool)]
/-- `ContentModel`, base/content.py l.40-59. -/
def shContent : PyShape := .model (.ofList contentFields)
/-- `EnergyEnvironment`, content/energy_environment.py l.22-45. -/
def shEnv : PyShape := .model (.ofList (contentFields ++
  [("data_path", true, path), ("data_type", true, text), ("data_local", false, bool), ("duration", true, float), ("energy_Ws", true, float), ("valid", false, bool),
    ("light_source", false, opt text), ("weather_conditions", false, opt text), ("indoor", false, opt bool), ("location", false, opt text)]))
/-- `MCU`, testbed/mcu.py l.26-40. -/
def shMcu : PyShape := .model (.ofList
  [("id", true, int), ("name", true, text), ("description", true, text), ("comment", false, opt text), ("platform", true, text), ("core", true, text), ("prog_protocol", true, text),
    ("prog_voltage", false, float), ("prog_datarate", false, int), ("fw_name_default", true, text)])
/-- `Firmware`, content/firmware.py l.53-64. -/
def shFirmware : PyShape := .model (.ofList (contentFields ++
  [("mcu", true, shMcu), ("data", true, .either text path), ("data_type", true, text), ("data_hash", false, opt text), ("data_local", false, bool)]))
/-- `VirtualHarvesterConfig`, content/virtual_harvester.py l.34-71. -/
def shHarvester : PyShape := .model (.ofList (contentFields ++
  [("algorithm", true, text), ("samples_n", false, int)] ++ fieldsOf false float ["voltage_mV", "voltage_min_mV", "voltage_max_mV", "current_limit_uA"] ++
  [("voltage_step_mV", false, opt float)] ++ fieldsOf false float ["setpoint_n", "interval_ms", "duration_ms"] ++
  [("rising", false, bool), ("enable_linear_extrapolation", false, bool), ("wait_cycles", false, int)]))
/-- `HarvesterPRUConfig`, content/virtual_harvester.py l.209-233. -/
def shHrvPru : PyShape := .model (.ofList (fieldsOf true int ["algorithm", "hrv_mode", "window_size", "voltage_uV", "voltage_min_uV", "voltage_max_uV", "voltage_step_uV",
  "current_limit_nA", "setpoint_n8", "interval_n", "duration_n", "wait_cycles_n"]))
/-- `VirtualSourceConfig`, content/virtual_source.py l.26-111. -/
def shSource : PyShape := .model (.ofList (contentFields ++ fieldsOf false bool ["enable_boost", "enable_buck", "enable_feedback_to_hrv"] ++
  [("interval_startup_delay_drain_ms", false, float), ("harvester", false, shHarvester)] ++
  fieldsOf false float ["V_input_max_mV", "I_input_max_mA", "V_input_drop_mV", "R_input_mOhm", "C_intermediate_uF", "V_intermediate_init_mV", "I_intermediate_leak_nA",
    "V_intermediate_enable_threshold_mV", "V_intermediate_disable_threshold_mV", "interval_check_thresholds_ms", "V_pwr_good_enable_threshold_mV", "V_pwr_good_disable_threshold_mV"] ++
  [("immediate_pwr_good_signal", false, bool)] ++
  fieldsOf false float ["C_output_uF", "V_output_log_gpio_threshold_mV", "V_input_boost_threshold_mV", "V_intermediate_max_mV"] ++
  [("LUT_input_efficiency", false, .list (.list float)), ("LUT_input_V_min_log2_uV", false, int), ("LUT_input_I_min_log2_nA", false, int), ("V_output_mV", false, float),
    ("V_buck_drop_mV", false, float), ("LUT_output_efficiency", false, .list float), ("LUT_output_I_min_log2_nA", false, int)]))
/-- `ConverterPRUConfig`, content/virtual_source.py l.256-299. -/
def shCnvPru : PyShape := .model (.ofList (fieldsOf true int ["converter_mode", "interval_startup_delay_drain_n", "V_input_max_uV", "I_input_max_nA", "V_input_drop_uV", "R_input_kOhm_n22",
  "Constant_us_per_nF_n28", "V_intermediate_init_uV", "I_intermediate_leak_nA", "V_enable_output_threshold_uV", "V_disable_output_threshold_uV", "dV_enable_output_uV",
  "interval_check_thresholds_n", "V_pwr_good_enable_threshold_uV", "V_pwr_good_disable_threshold_uV", "immediate_pwr_good_signal", "V_output_log_gpio_threshold_uV",
  "V_input_boost_threshold_uV", "V_intermediate_max_uV", "V_output_uV", "V_buck_drop_uV", "LUT_input_V_min_log2_uV", "LUT_input_I_min_log2_nA", "LUT_output_I_min_log2_nA"] ++
  [("LUT_inp_efficiency_n8", true, .list (.list int)), ("LUT_out_inv_efficiency_n4", true, .list int)]))
/-- `GPIO`, testbed/gpio.py l.27-41. -/
def shGpio : PyShape := .model (.ofList
  [("id", true, int), ("name", true, text), ("description", false, opt text), ("comment", false, opt text), ("direction", false, text), ("dir_switch", false, opt text),
    ("reg_pru", false, opt text), ("pin_pru", false, opt text), ("reg_sys", false, opt int), ("pin_sys", false, opt text)])
/-- `PowerTracing`, experiment/observer_features.py l.19-37. -/
def shPower : PyShape := .model (.ofList
  [("intermediate_voltage", false, bool), ("delay", false, span), ("duration", false, opt span), ("calculate_power", false, bool), ("samplerate", false, int),
    ("discard_current", false, bool), ("discard_voltage", false, bool)])
/-- `GpioTracing`, experiment/observer_features.py l.55-76. -/
def shTracing : PyShape := .model (.ofList
  [("mask", false, int), ("gpios", false, opt (.list shGpio)), ("delay", false, span), ("duration", false, opt span), ("uart_decode", false, bool), ("uart_pin", false, shGpio),
    ("uart_baudrate", false, int)])
/-- `GpioEvent`, experiment/observer_features.py l.98-108. -/
def shEvent : PyShape := .model (.ofList [("delay", true, float), ("gpio", true, shGpio), ("level", true, text), ("period", false, float), ("count", false, int)])
/-- `GpioActuation`, experiment/observer_features.py l.122-128. -/
def shActuation : PyShape := .model (.ofList [("events", true, .list shEvent)])
/-- `SystemLogging`, experiment/observer_features.py l.134-139. -/
def shLogging : PyShape := .model (.ofList (fieldsOf false bool ["dmesg", "ptp", "shepherd"]))
/-- `TargetConfig`, experiment/target_config.py l.23-44. -/
def shTargetConfig : PyShape := .model (.ofList
  [("target_IDs", true, .list int), ("custom_IDs", false, opt (.list int)), ("energy_env", true, shEnv), ("virtual_source", false, shSource), ("target_delays", false, opt (.list int)),
    ("firmware1", true, shFirmware), ("firmware2", false, opt shFirmware), ("power_tracing", false, opt shPower), ("gpio_tracing", false, opt shTracing),
    ("gpio_actuation", false, opt shActuation)])
/-- `Experiment`, experiment/experiment.py l.28-60. -/
def shExperiment : PyShape := .model (.ofList
  [("id", false, uid), ("name", true, text), ("description", false, opt text), ("comment", false, opt text), ("created", false, time), ("owner_id", false, opt int),
    ("email_results", false, bool), ("sys_logging", false, shLogging), ("time_start", false, opt time), ("duration", false, opt span), ("abort_on_error", false, bool),
    ("target_configs", true, .list shTargetConfig), ("lib_ver", false, opt text)])
/-- `EmulationTask`, task/emulation.py l.44-95. -/
def shEmulation : PyShape := .model (.ofList
  [("input_path", true, path), ("output_path", false, opt path), ("force_overwrite", false, bool), ("output_compression", false, opt (.either text int)), ("time_start", false, opt time),
    ("duration", false, opt span), ("abort_on_error", false, bool), ("use_cal_default", false, bool), ("enable_io", false, bool), ("io_port", false, text), ("pwr_port", false, text),
    ("voltage_aux", false, .either float text), ("virtual_source", false, shSource), ("power_tracing", false, opt shPower), ("gpio_tracing", false, opt shTracing),
    ("gpio_actuation", false, opt shActuation), ("sys_logging", false, opt shLogging), ("verbose", false, int)])
/-- `FirmwareModTask`, task/firmware_mod.py l.28-36. -/
def shFwMod : PyShape := .model (.ofList
  [("data", true, .either text path), ("data_type", true, text), ("custom_id", false, opt int), ("firmware_file", true, path), ("verbose", false, int)])
/-- `HarvestTask`, task/harvest.py l.21-52. -/
def shHarvest : PyShape := .model (.ofList
  [("output_path", true, path), ("force_overwrite", false, bool), ("output_compression", false, opt (.either text int)), ("time_start", false, opt time), ("duration", false, opt span),
    ("abort_on_error", false, bool), ("use_cal_default", false, bool), ("virtual_harvester", false, shHarvester), ("power_tracing", false, shPower), ("sys_logging", false, opt shLogging),
    ("verbose", false, int)])
/-- `ProgrammingTask`, task/programming.py l.25-39. -/
def shProg : PyShape := .model (.ofList
  [("firmware_file", true, path), ("target_port", false, text), ("mcu_port", false, int), ("mcu_type", true, text), ("voltage", false, float), ("datarate", false, int),
    ("protocol", true, text), ("simulate", false, bool), ("verbose", false, int)])
/-- `ObserverTasks`, task/observer_tasks.py l.22-40. -/
def shObsTasks : PyShape := .model (.ofList
  [("observer", true, text), ("owner_id", true, opt int), ("time_prep", true, time), ("root_path", true, path), ("abort_on_error", true, bool), ("fw1_mod", false, opt shFwMod),
    ("fw2_mod", false, opt shFwMod), ("fw1_prog", false, opt shProg), ("fw2_prog", false, opt shProg), ("emulation", false, opt shEmulation)])
/-- `TestbedTasks`, task/testbed_tasks.py l.19-27. -/
def shTbTasks : PyShape := .model (.ofList [("name", true, text), ("observer_tasks", true, .list shObsTasks), ("email_results", false, bool), ("owner_id", true, opt int)])
/-- `Cape`, testbed/cape.py l.26-38. -/
def shCape : PyShape := .model (.ofList
  [("id", true, int), ("name", true, text), ("version", true, text), ("description", true, text), ("comment", false, opt text), ("active", false, bool),
    ("created", false, .either (.one .date) time), ("calibrated", false, opt (.either (.one .date) time))])
/-- `Target`, testbed/target.py l.23-39. -/
def shTarget : PyShape := .model (.ofList
  [("id", true, int), ("name", true, text), ("version", true, text), ("description", true, text), ("comment", false, opt text), ("active", false, bool), ("created", false, time),
    ("testbed_id", false, opt int), ("mcu1", true, .either shMcu text), ("mcu2", false, opt (.either shMcu text))])
/-- The fields of `Observer` before its address, testbed/observer.py l.31-34. -/
def observerHead : List (String × Bool × PyShape) := [("id", true, int), ("name", true, text), ("description", true, text), ("comment", false, opt text)]
/-- The fields of `Observer` after its address, testbed/observer.py l.37-52. -/
def observerTail : List (String × Bool × PyShape) :=
  [("mac", true, text), ("room", true, text), ("eth_port", true, text), ("latitude", false, float), ("longitude", false, float), ("active", false, bool),
    ("cape", false, opt shCape), ("target_a", false, opt shTarget), ("target_b", false, opt shTarget), ("created", false, time), ("alive_last", false, opt time)]
/-- `Observer`, testbed/observer.py l.28-52, with the types `ip` that its address (l.36) can have. -/
def shObserverOf (ip : PyShape) : PyShape := .model (.ofList (observerHead ++ ("ip", true, ip) :: observerTail))
/-- `Observer`, testbed/observer.py l.28-52: `IPvAnyAddress` is an address of version 4 or 6. -/
def shObserver : PyShape := shObserverOf (.either (.one .ip4) (.one .ip6))
/-- `Testbed`, testbed/testbed.py l.23-40, with the types of the address `url` and of the observers. -/
def shTestbedOf (url obs : PyShape) : PyShape := .model (.ofList
  [("id", true, int), ("name", true, text), ("description", true, text), ("comment", false, opt text), ("url", false, url), ("observers", true, .list obs),
    ("shared_storage", false, bool), ("data_on_server", true, path), ("data_on_observer", true, path), ("prep_duration", false, span)])
/-- `Testbed`, testbed/testbed.py l.23-40. -/
def shTestbed : PyShape := shTestbedOf (opt (.one .url)) shObserver
/-- The fields of `PythonInventory`, inventory/python.py l.14-25. -/
def pythonFields : List (String × Bool × PyShape) := fieldsOf false (opt text) ["h5py", "numpy", "pydantic", "python", "shepherd_core", "shepherd_sheep", "yaml", "zstandard"]
/-- The fields of `SystemInventory`, inventory/system.py l.27-53.  Simplification: the addresses of the interfaces are a list of lists of text, as `collect` makes them (l.71), not
any dictionary. -/
def sysInvFields : List (String × Bool × PyShape) :=
  [("uptime", true, int), ("timestamp", true, time)] ++ fieldsOf true text ["system", "release", "version", "machine", "processor"] ++
  [("ptp", false, opt text), ("hostname", true, text), ("interfaces", false, .list (.list text)), ("fs_root", false, opt (.list text)), ("beagle", false, opt (.list text))]
/-- The fields of `TargetInventory`, inventory/target.py l.12-16. -/
def targetInvFields : List (String × Bool × PyShape) := [("cape", false, opt text), ("targets", false, .list text)]
/-- `Inventory`, inventory/__init__.py l.32-39: the fields of the three parts and the time. -/
def shInventory : PyShape := .model (.ofList (pythonFields ++ sysInvFields ++ targetInvFields ++ [("created", true, time)]))
/-- `User`, testbed_client/user_model.py l.40-62; the validator (l.64-73) sets the token. -/
def shUser : PyShape := .model (.ofList
  [("id", false, uid), ("name", true, text), ("description", false, opt text), ("comment", false, opt text), ("name_full", false, opt text), ("group", true, text), ("email", true, text),
    ("pw_hash", false, opt (.one .secret)), ("token", true, .one .secret), ("active", false, bool)])

/-- All classes derived from `ShpModel` (base/shepherd.py l.51), by name. -/
def allClasses : List (String × PyShape) :=
  [("CalibrationPair", shCalPair), ("CalibrationHarvester", shCalHrv), ("CalibrationEmulator", shCalEmu), ("CapeData", shCapeData), ("CalibrationCape", shCalCape),
    ("CalibrationSeries", shCalSeries), ("CalMeasurementPair", shMeasPair), ("CalMeasurementHarvester", shMeasHrv), ("CalMeasurementEmulator", shMeasEmu),
    ("CalMeasurementCape", shMeasCape), ("ContentModel", shContent), ("EnergyEnvironment", shEnv), ("MCU", shMcu), ("Firmware", shFirmware), ("VirtualHarvesterConfig", shHarvester),
    ("HarvesterPRUConfig", shHrvPru), ("VirtualSourceConfig", shSource), ("ConverterPRUConfig", shCnvPru), ("GPIO", shGpio), ("PowerTracing", shPower), ("GpioTracing", shTracing),
    ("GpioEvent", shEvent), ("GpioActuation", shActuation), ("SystemLogging", shLogging), ("TargetConfig", shTargetConfig), ("Experiment", shExperiment),
    ("EmulationTask", shEmulation), ("FirmwareModTask", shFwMod), ("HarvestTask", shHarvest), ("ProgrammingTask", shProg), ("ObserverTasks", shObsTasks), ("TestbedTasks", shTbTasks),
    ("Cape", shCape), ("Target", shTarget), ("PythonInventory", .model (.ofList pythonFields)), ("SystemInventory", .model (.ofList sysInvFields)),
    ("TargetInventory", .model (.ofList targetInvFields)), ("Inventory", shInventory), ("InventoryList", .model (.ofList [("elements", true, .list shInventory)])),
    ("Observer", shObserver), ("Testbed", shTestbed), ("User", shUser)]

end Verif.Model
