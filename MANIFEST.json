{
 "claims": [
  {
   "property": "C01",
   "status": "proved",
   "theorems": [
    "Verif.Props.C01_raw_si_raw",
    "Verif.Props.C01_raw_si_raw_nonneg",
    "Verif.Props.C01_raw_si_raw_float"
   ],
   "note": ""
  },
  {
   "property": "C02",
   "status": "proved",
   "theorems": [
    "Verif.Props.C02_si_raw_si",
    "Verif.Props.C02_below_is_zero",
    "Verif.Props.C02_si_raw_si_float"
   ],
   "note": "Exact (half a step) and for every accurate rounding (half a step and 1/2048 of it, C02_si_raw_si_float)."
  },
  {
   "property": "C03",
   "status": "proved",
   "theorems": [
    "Verif.Props.C03_si_to_raw_nonneg",
    "Verif.Props.C03_raw_to_si_nonneg",
    "Verif.Props.C03_raw_to_si_sign",
    "Verif.Props.C03_si_to_raw_mono",
    "Verif.Props.C03_raw_to_si_mono",
    "Verif.Props.C03_raw_to_si_elementwise",
    "Verif.Props.C03_si_to_raw_elementwise"
   ],
   "note": ""
  },
  {
   "property": "C04",
   "status": "proved",
   "theorems": [
    "Verif.Props.C04_layout",
    "Verif.Props.C04_roundtrip",
    "Verif.Props.C04_reverse",
    "Verif.Props.C04_length",
    "Verif.Props.C04_accepted",
    "Verif.Props.C04_default"
   ],
   "note": "Doubles are 64-bit patterns; the walk through the dictionary and struct are modelled. Units and host are lost, as the property says."
  },
  {
   "property": "C05",
   "status": "proved",
   "theorems": [
    "Verif.Props.C05_hrv_export_float",
    "Verif.Props.C05_emu_export_float",
    "Verif.Props.C05_hrv_export_fits",
    "Verif.Props.C05_emu_export_fits",
    "Verif.Props.C05_hrv_export_scaled",
    "Verif.Props.C05_emu_export_scaled",
    "Verif.Props.C05_refused_iff"
   ],
   "note": "Range check exact for every rounding; the values are the scaled calibration rounded to the next number, exactly and for every accurate rounding up to 1/32768."
  },
  {
   "property": "C06",
   "status": "proved",
   "theorems": [
    "Verif.Props.C06_exact",
    "Verif.Props.C06_optimum",
    "Verif.Props.C06_quality",
    "Verif.Props.C06_gate",
    "Verif.Props.C06_refused",
    "Verif.Props.C06_same_accepted",
    "Verif.Props.C06_same_refused",
    "Verif.Props.C06_harvester",
    "Verif.Props.C06_emulator",
    "Verif.Props.C06_cape"
   ],
   "note": "Exact arithmetic: rounding of the solver and its rank threshold are not modelled. C06_same_accepted: identical points are accepted although they determine no line."
  },
  {
   "property": "C07",
   "status": "partial",
   "theorems": [
    "Verif.Props.C07_default_adc_float",
    "Verif.Props.C07_adc_current_roundtrip_float_partial",
    "Verif.Props.C07_from_fn",
    "Verif.Props.C07_adc_current_roundtrip",
    "Verif.Props.C07_adc_voltage_roundtrip",
    "Verif.Props.C07_dac_roundtrip",
    "Verif.Props.C07_adc_roundtrip_float_violated",
    "Verif.Props.C07_adc_voltage_roundtrip_float_partial",
    "Verif.Props.C07_default_adc_matches_hw",
    "Verif.Props.C07_default_dac_matches_hw_violated",
    "Verif.Props.C07_default_dac_float",
    "Verif.Props.C07_default_dac_binary64_violated"
   ],
   "note": "Round trips and ADC defaults are proved exactly, and for binary64 up to its precision (C07_default_adc_float) and up to one code (_float_partial, for every accurate rounding); the exact float round trip and the DAC default are violated by the code (witness theorems). C07_from_fn: pairs made from any conversion function are the line through its values at 0 and 1. The deviation of the DAC is shown in binary64, too (C07_default_dac_binary64_violated)."
  },
  {
   "property": "C08",
   "status": "proved",
   "theorems": [
    "Verif.Props.C08_storage_bounds",
    "Verif.Props.C08_after_cap_update"
   ],
   "note": ""
  },
  {
   "property": "C09",
   "status": "proved",
   "theorems": [
    "Verif.Props.C09_output_voltage",
    "Verif.Props.C09_output_voltage_exact"
   ],
   "note": ""
  },
  {
   "property": "C10",
   "status": "proved",
   "theorems": [
    "Verif.Props.C10_dac_code_range",
    "Verif.Props.C10_off_is_zero",
    "Verif.Props.C10_storage_code",
    "Verif.Props.C10_storage_code_mono"
   ],
   "note": ""
  },
  {
   "property": "C11",
   "status": "proved",
   "theorems": [
    "Verif.Props.C11_hysteresis",
    "Verif.Props.C11_switch_on_cost"
   ],
   "note": ""
  },
  {
   "property": "C12",
   "status": "proved",
   "theorems": [
    "Verif.Props.C12_no_drain",
    "Verif.Props.C12_driven",
    "Verif.Props.C12_over"
   ],
   "note": ""
  },
  {
   "property": "C13",
   "status": "partial",
   "theorems": [
    "Verif.Props.C13_input_power_partial",
    "Verif.Props.C13_input_limits",
    "Verif.Props.C13_boost_threshold",
    "Verif.Props.C13_input_power_general_partial",
    "Verif.Props.C13_input_power_violated",
    "Verif.Props.C13_input_power_binary64_violated"
   ],
   "note": "Holds for boost, direct connection and storage without series resistor; violated for storage without boost with a series resistor when the source is below the storage (witness); a bound with the larger of source and storage voltage holds always. Also in binary64 (C13_input_power_binary64_violated)."
  },
  {
   "property": "C14",
   "status": "proved",
   "theorems": [
    "Verif.Props.C14_drain",
    "Verif.Props.C14_drain_run"
   ],
   "note": ""
  },
  {
   "property": "C15",
   "status": "partial",
   "theorems": [
    "Verif.Props.C15_power_good_partial",
    "Verif.Props.C15_power_good_violated",
    "Verif.Props.C15_power_good_binary64_violated",
    "Verif.Props.C15_startup_binary64_violated",
    "Verif.Props.C15_means_output_partial",
    "Verif.Props.C15_from_start_partial",
    "Verif.Props.C15_startup_violated",
    "Verif.Props.C15_configuration"
   ],
   "note": "Raising and dropping proved exactly. 'Not signalled while the output is disabled' is violated in two ways: the output switches off above the power-good disable threshold, or the storage starts between the thresholds. It is proved for all runs outside these two cases (C15_means_output_partial, C15_from_start_partial). Both deviations also in binary64 (C15_*_binary64_violated)."
  },
  {
   "property": "C16",
   "status": "proved",
   "theorems": [
    "Verif.Props.C16_sign",
    "Verif.Props.C16_energy"
   ],
   "note": ""
  },
  {
   "property": "C17",
   "status": "proved",
   "theorems": [
    "Verif.Props.C17_input_lut_float",
    "Verif.Props.C17_output_lut_float",
    "Verif.Props.C17_input_lut",
    "Verif.Props.C17_output_lut",
    "Verif.Props.C17_no_exception"
   ],
   "note": "The same table entries are used in exact and in float arithmetic (C17_*_lut_float)."
  },
  {
   "property": "C18",
   "status": "partial",
   "theorems": [
    "Verif.Props.C18_charge_lower_float",
    "Verif.Props.C18_charge_float_partial",
    "Verif.Props.C18_bounds",
    "Verif.Props.C18_charge_lower",
    "Verif.Props.C18_charge_exact_partial",
    "Verif.Props.C18_residue_run",
    "Verif.Props.C18_exact_iff",
    "Verif.Props.C18_stretches_float_partial",
    "Verif.Props.C18_saturation_violated"
   ],
   "note": "Bounds for every rounding and every run. The mean is unbiased exactly if no stretch of consecutive samples sums up to less than -60000 nA (C18_exact_iff), in floats up to 2^-50 of the largest current per sample (C18_stretches_float_partial). Beyond that the deviation grows without bound, for every calibration with a negative offset and every rounding (C18_saturation_violated)."
  },
  {
   "property": "C19",
   "status": "partial",
   "theorems": [
    "Verif.Props.C19_measured",
    "Verif.Props.C19_nonneg",
    "Verif.Props.C19_near",
    "Verif.Props.C19_cv_nonneg",
    "Verif.Props.C19_extrapolation_violated",
    "Verif.Props.C19_startup_violated"
   ],
   "note": "Currents of measured voltages are proved for every stream; extrapolation beyond the curve gives negative or never measured currents (witness theorems)."
  },
  {
   "property": "C20",
   "status": "proved",
   "theorems": [
    "Verif.Props.C20_best",
    "Verif.Props.C20_optimum"
   ],
   "note": ""
  },
  {
   "property": "C21",
   "status": "proved",
   "theorems": [
    "Verif.Props.C21_start",
    "Verif.Props.C21_estimate",
    "Verif.Props.C21_bounds",
    "Verif.Props.C21_follows",
    "Verif.Props.C21_setpoint",
    "Verif.Props.C21_setpoint_run"
   ],
   "note": ""
  },
  {
   "property": "C22",
   "status": "partial",
   "theorems": [
    "Verif.Props.C22_start",
    "Verif.Props.C22_limits_partial",
    "Verif.Props.C22_hold",
    "Verif.Props.C22_interval",
    "Verif.Props.C22_step",
    "Verif.Props.C22_setpoint_run",
    "Verif.Props.C22_limits_violated"
   ],
   "note": "Limits of the set-point and of the step are proved for every stream; the upper limit of the step does not hold in full (witness theorem)."
  },
  {
   "property": "C23",
   "status": "proved",
   "theorems": [
    "Verif.Props.C23_passthrough",
    "Verif.Props.C23_passthrough_run",
    "Verif.Props.C23_dispatch",
    "Verif.Props.C23_stream"
   ],
   "note": ""
  },
  {
   "property": "C24",
   "status": "proved",
   "theorems": [
    "Verif.Props.C24_units",
    "Verif.Props.C24_composition",
    "Verif.Props.C24_total",
    "Verif.Props.C24_counters_exact",
    "Verif.Props.C24_counters_rounded",
    "Verif.Props.C24_counters_grow",
    "Verif.Props.C24_harvester_buffers",
    "Verif.Props.C24_harvester_stream",
    "Verif.Props.C24_source_buffers",
    "Verif.Props.C24_source_energy",
    "Verif.Props.C24_source_stream"
   ],
   "note": ""
  },
  {
   "property": "C25",
   "status": "partial",
   "theorems": [
    "Verif.Props.C25_resistive",
    "Verif.Props.C25_diode_partial",
    "Verif.Props.C25_diode_violated",
    "Verif.Props.C25_constant_current",
    "Verif.Props.C25_power_partial",
    "Verif.Props.C25_power_violated",
    "Verif.Props.C25_power_run_violated",
    "Verif.Props.C25_source_voltage",
    "Verif.Props.C25_simulation_partial",
    "Verif.Props.C25_negative_violated"
   ],
   "note": "Proved for resistor, constant current and (barring underflow of R*I_S) diode, also for whole simulations; violated for constant-power targets at 0 V (reachable in a simulation), for diode parameters that underflow and for resistors behind a DAC with negative offset (witnesses)."
  },
  {
   "property": "C26",
   "status": "partial",
   "theorems": [
    "Verif.Props.C26_registers_fit",
    "Verif.Props.C26_translation_partial",
    "Verif.Props.C26_overflow_violated"
   ],
   "note": "Proved except for positive output efficiencies below 2^-1000, for which the translation raises OverflowError (witness)."
  },
  {
   "property": "C27",
   "status": "proved",
   "theorems": [
    "Verif.Props.C27_converter_mode",
    "Verif.Props.C27_harvester_mode"
   ],
   "note": ""
  },
  {
   "property": "C28",
   "status": "partial",
   "theorems": [
    "Verif.Props.C28_energy_binary64_violated",
    "Verif.Props.C28_floor_binary64_violated",
    "Verif.Props.C28_order",
    "Verif.Props.C28_energy_partial",
    "Verif.Props.C28_energy_violated",
    "Verif.Props.C28_floor_partial",
    "Verif.Props.C28_floor_violated"
   ],
   "note": "Order of the thresholds proved; energy balance proved for switch-on at the configured threshold, violated in the low buck case (witness); landing at or above the disable threshold proved (to 1 \u00b5V) in the low buck case, violated otherwise (witness). Both deviations also in binary64 (C28_*_binary64_violated)."
  },
  {
   "property": "C29",
   "status": "proved",
   "theorems": [
    "Verif.Props.C29_consistent",
    "Verif.Props.C29_total"
   ],
   "note": ""
  },
  {
   "property": "C30",
   "status": "partial",
   "theorems": [
    "Verif.Props.C30_accepted_iff",
    "Verif.Props.C30_rejected_partial",
    "Verif.Props.C30_default_floors",
    "Verif.Props.C30_samples_violated",
    "Verif.Props.C30_algorithm_rejected",
    "Verif.Props.C30_front_end_rejected",
    "Verif.Props.C30_dtype_violated"
   ],
   "note": "Exact acceptance condition; ValueError for every rejection with 8 or more samples; samples_n=1 raises ZeroDivisionError and an unsuitable dtype NotImplementedError (witnesses)."
  },
  {
   "property": "C31",
   "status": "proved",
   "theorems": [
    "Verif.Props.C31_concatenation",
    "Verif.Props.C31_new_file",
    "Verif.Props.C31_total"
   ],
   "note": ""
  },
  {
   "property": "C32",
   "status": "proved",
   "theorems": [
    "Verif.Props.C32_interrupted_append",
    "Verif.Props.C32_history"
   ],
   "note": ""
  },
  {
   "property": "C33",
   "status": "proved",
   "theorems": [
    "Verif.Props.C33_close",
    "Verif.Props.C33_close_100kHz",
    "Verif.Props.C33_aligned_untouched",
    "Verif.Props.C33_other_rate"
   ],
   "note": ""
  },
  {
   "property": "C34",
   "status": "proved",
   "theorems": [
    "Verif.Props.C34_read_buffers",
    "Verif.Props.C34_read_all",
    "Verif.Props.C34_read_si"
   ],
   "note": ""
  },
  {
   "property": "C35",
   "status": "partial",
   "theorems": [
    "Verif.Props.C35_new_file_partial",
    "Verif.Props.C35_reopened_partial",
    "Verif.Props.C35_reopened_violated"
   ],
   "note": "Proved for the session that created the file and for re-opened files with at least 20001 samples; violated for re-opened files with 2..19999 samples, whose interval is taken as duration/count (every such file)."
  },
  {
   "property": "C36",
   "status": "partial",
   "theorems": [
    "Verif.Props.C36_new_file_valid",
    "Verif.Props.C36_modify_partial",
    "Verif.Props.C36_modify_violated",
    "Verif.Props.C36_valid_meaning"
   ],
   "note": "Every newly created file is valid; re-opening for modification keeps validity unless an ivcurve recording is given a window of 0 (witness)."
  },
  {
   "property": "C37",
   "status": "partial",
   "theorems": [
    "Verif.Props.C37_read_back",
    "Verif.Props.C37_device",
    "Verif.Props.C37_config_group",
    "Verif.Props.C37_config_violated"
   ],
   "note": "Mode, datatype, window, calibration, hostname and stored items read back, proved for every history of stores; the stored configuration is never read back because it is written to the root and searched in the data group (violated for every file)."
  },
  {
   "property": "C38",
   "status": "proved",
   "theorems": [
    "Verif.Props.C38_unique_path",
    "Verif.Props.C38_never_existing",
    "Verif.Props.C38_given_path"
   ],
   "note": ""
  },
  {
   "property": "C39",
   "status": "partial",
   "theorems": [
    "Verif.Props.C39_interval_float_violated",
    "Verif.Props.C39_energy_exact",
    "Verif.Props.C39_energy_float",
    "Verif.Props.C39_interval_violated"
   ],
   "note": "Energy is the sum of power times sample interval for every chunk split, exactly and with a float error bound; re-opened files use a wrong interval, so the energy is too small by the factor (m-1)/m (violated for every such file). The missing interval in every accurate float arithmetic: C39_interval_float_violated."
  },
  {
   "property": "C40",
   "status": "partial",
   "theorems": [
    "Verif.Props.C40_mean_float_violated",
    "Verif.Props.C40_std_float_violated",
    "Verif.Props.C40_mean_error",
    "Verif.Props.C40_mean_bound",
    "Verif.Props.C40_std_below",
    "Verif.Props.C40_min_max",
    "Verif.Props.C40_empty",
    "Verif.Props.C40_one_chunk_partial",
    "Verif.Props.C40_mean_partial",
    "Verif.Props.C40_mean_violated",
    "Verif.Props.C40_std_violated"
   ],
   "note": "Minimum and maximum proved for every file; mean and deviation proved for a single chunk and for equal chunks (mean), violated for unequal chunks (witnesses). How far it is off: the error of the mean is given exactly (C40_mean_error) and bounded by the spread over the number of chunks (C40_mean_bound); the deviation is never too large for equal chunks (C40_std_below). Both deviations in any float arithmetic: C40_*_float_violated."
  },
  {
   "property": "C41",
   "status": "partial",
   "theorems": [
    "Verif.Props.C41_check_partial",
    "Verif.Props.C41_regular",
    "Verif.Props.C41_border_violated",
    "Verif.Props.C41_tolerance_violated",
    "Verif.Props.C41_short_violated"
   ],
   "note": "Every difference inside a chunk that deviates by more than the tolerance is reported and regular files are clean; jumps at chunk borders, jumps within the tolerance and files shorter than a chunk are missed (violated)."
  },
  {
   "property": "C42",
   "status": "proved",
   "theorems": [
    "Verif.Props.C42_count",
    "Verif.Props.C42_history"
   ],
   "note": ""
  },
  {
   "property": "C43",
   "status": "partial",
   "theorems": [
    "Verif.Props.C43_unit_float_violated",
    "Verif.Props.C43_falling_float_violated",
    "Verif.Props.C43_raw_partial",
    "Verif.Props.C43_static",
    "Verif.Props.C43_unit_violated",
    "Verif.Props.C43_falling_violated",
    "Verif.Props.C43_configured"
   ],
   "note": "Raw search proved for rising ramps; SI level compared with raw codes and falling ramps are violated (witnesses). Both deviations in every accurate float arithmetic: C43_*_float_violated."
  },
  {
   "property": "C44",
   "status": "partial",
   "theorems": [
    "Verif.Props.C44_filter",
    "Verif.Props.C44_empty_violated",
    "Verif.Props.C44_waveform"
   ],
   "note": "Filter and waveform proved for every non-empty recording; an empty recording raises IndexError (violated)."
  },
  {
   "property": "C45",
   "status": "partial",
   "theorems": [
    "Verif.Props.C45_si_roundtrip",
    "Verif.Props.C45_time_partial",
    "Verif.Props.C45_time_exact",
    "Verif.Props.C45_time_violated"
   ],
   "note": "Voltages and currents proved to come back within half a step plus 2^-11 steps in machine arithmetic; time stamps within half a nano-second plus 2^-50 of the time, which exceeds half a nano-second for present UNIX times (violated, witness)."
  },
  {
   "property": "C46",
   "status": "partial",
   "theorems": [
    "Verif.Props.C46_ascii_partial",
    "Verif.Props.C46_nul_violated",
    "Verif.Props.C46_high_violated"
   ],
   "note": "Proved for messages of values 1..2^(L-1)-1 (ASCII without NUL for 8 bits); NUL is always dropped and values with the highest bit set are never returned (both proved for all inputs)."
  },
  {
   "property": "C47",
   "status": "partial",
   "theorems": [
    "Verif.Props.C47_jitter_partial",
    "Verif.Props.C47_table_partial",
    "Verif.Props.C47_inverted_partial",
    "Verif.Props.C47_tick_violated"
   ],
   "note": "Proved at the level of events and from the table of samples (floats) for values 1..2^(L-1)-1, also for inverted lines. Not so for a byte with only the highest bit set: the least delay of its edge makes the symbol disappear (C47_tick_violated); all values with the highest bit are decoded wrongly anyway (C46)."
  },
  {
   "property": "C48",
   "status": "partial",
   "theorems": [
    "Verif.Props.C48_lines_partial",
    "Verif.Props.C48_subsequence",
    "Verif.Props.C48_cr_violated",
    "Verif.Props.C48_tail_violated"
   ],
   "note": "Proved for lines ended by \\n or \\r\\n; text is always a subsequence of the symbols; the symbol behind a lone \\r and an unterminated last line are lost (proved for all inputs)."
  },
  {
   "property": "C49",
   "status": "partial",
   "theorems": [
    "Verif.Props.C49_latest",
    "Verif.Props.C49_case",
    "Verif.Props.C49_getItem",
    "Verif.Props.C49_item",
    "Verif.Props.C49_agree_partial",
    "Verif.Props.C49_agree_violated"
   ],
   "note": "Look-up proved for every history of insertions; name and id agree if no id is shared by two names and no name has two ids, otherwise not (witness)."
  },
  {
   "property": "C50",
   "status": "partial",
   "theorems": [
    "Verif.Props.C50_inherit",
    "Verif.Props.C50_complete",
    "Verif.Props.C50_query",
    "Verif.Props.C50_query_id",
    "Verif.Props.C50_int_violated"
   ],
   "note": "Proved for lines of ancestors of any length named by strings; if the last ancestor is named by its number an AttributeError is raised (proved for all data bases)."
  },
  {
   "property": "C51",
   "status": "partial",
   "theorems": [
    "Verif.Props.C51_bound",
    "Verif.Props.C51_cases",
    "Verif.Props.C51_endless_circle",
    "Verif.Props.C51_circle_violated",
    "Verif.Props.C51_unknown_partial"
   ],
   "note": "Following parents ends, breaks or circles (proved); lines are bounded by the size of the data base; circles raise RecursionError for every recursion limit, not ValueError (violated, universally); unknown ancestors raise ValueError."
  },
  {
   "property": "C52",
   "status": "proved",
   "theorems": [
    "Verif.Props.C52_ids",
    "Verif.Props.C52_observers",
    "Verif.Props.C52_config",
    "Verif.Props.C52_exactly"
   ],
   "note": "For every valid experiment, any number of configs and targets: every target id and custom id is used once, every target has its own observer, exactly one config is found per target; wrong experiments are refused (examples)."
  },
  {
   "property": "C53",
   "status": "partial",
   "theorems": [
    "Verif.Props.C53_distinct_partial",
    "Verif.Props.C53_tasks_partial",
    "Verif.Props.C53_distinct_violated",
    "Verif.Props.C53_custom_violated"
   ],
   "note": "Partial: node ids of different targets differ if the ids of all targets equal their testbed ids (id < 2^16); violated otherwise: valid experiments whose targets get the same node id (two witnesses)."
  },
  {
   "property": "C54",
   "status": "proved",
   "theorems": [
    "Verif.Props.C54_sets",
    "Verif.Props.C54_preparation"
   ],
   "note": "One set of tasks per target, in order, with all fields and all tasks in order; preparation before the experiment. What an observer is handed of it is C87."
  },
  {
   "property": "C55",
   "status": "partial",
   "theorems": [
    "Verif.Props.C55_paths_partial",
    "Verif.Props.C55_paths_violated",
    "Verif.Props.C55_directory_violated"
   ],
   "note": "Partial: distinct output paths, one per target, if names of observers differ; violated by observers of equal names (a valid testbed) and, without start time, results in different directories."
  },
  {
   "property": "C56",
   "status": "partial",
   "theorems": [
    "Verif.Props.C56_exactly",
    "Verif.Props.C56_match_partial",
    "Verif.Props.C56_nomcu_violated"
   ],
   "note": "Exact characterisation of valid target configs; firmware fits the MCU of its port (partial); violated: firmware for a port without MCU is accepted and a task to program it is made."
  },
  {
   "property": "C57",
   "status": "partial",
   "theorems": [
    "Verif.Props.C57_found",
    "Verif.Props.C57_complete_partial",
    "Verif.Props.C57_capeless_violated",
    "Verif.Props.C57_distinct",
    "Verif.Props.C57_unique_partial",
    "Verif.Props.C57_port",
    "Verif.Props.C57_unique_violated"
   ],
   "note": "Found observers are right (proved for all testbeds); unknown targets raise ValueError if every active observer has a cape (partial); violated: observer without cape raises AttributeError; two observers with the same target id form a valid testbed."
  },
  {
   "property": "C58",
   "status": "partial",
   "theorems": [
    "Verif.Props.C58_binary_partial",
    "Verif.Props.C58_count_partial",
    "Verif.Props.C58_times_partial",
    "Verif.Props.C58_resolution_partial",
    "Verif.Props.C58_count_violated"
   ],
   "note": "Partial: exact for binary fractions; else never fewer, at most one event more, every event within 10 \u00b5s (up to 10^6 s). Violated by IEEE doubles: delay = period = 0.1, count 3 gives 4 events; delay 2^60 gives none."
  },
  {
   "property": "C59",
   "status": "partial",
   "theorems": [
    "Verif.Props.C59_whole_partial",
    "Verif.Props.C59_fraction_violated",
    "Verif.Props.C59_loss_partial"
   ],
   "note": "Partial: whole seconds survive; below 2^32 s the fraction is cut off. Violated for every time span with a fraction of a second."
  },
  {
   "property": "C60",
   "status": "proved",
   "theorems": [
    "Verif.Props.C60_modify",
    "Verif.Props.C60_last",
    "Verif.Props.C60_absent",
    "Verif.Props.C60_names"
   ],
   "note": "For every image, byte order, symbol of two bytes in the file and value below 2^16. The ELF library is assumed to find the same symbols after these two bytes changed."
  },
  {
   "property": "C61",
   "status": "partial",
   "theorems": [
    "Verif.Props.C61_base64",
    "Verif.Props.C61_embed_partial",
    "Verif.Props.C61_large_violated",
    "Verif.Props.C61_reference",
    "Verif.Props.C61_hash",
    "Verif.Props.C61_reference_violated",
    "Verif.Props.C61_faulty_violated",
    "Verif.Props.C61_type"
   ],
   "note": "Base64 codec in full, compressor any lossless pair of functions, hash any function. Violated: referenced files that changed later are extracted nonetheless; faulty compressed data raise an exception that is no ValueError. Files whose compressed text exceeds 8 million characters are accepted but can never be extracted (C61_large_violated)."
  },
  {
   "property": "C62",
   "status": "partial",
   "theorems": [
    "Verif.Props.C62_vector_violated",
    "Verif.Props.C62_checks_partial",
    "Verif.Props.C62_half_violated",
    "Verif.Props.C62_nrf52",
    "Verif.Props.C62_nrf52_check"
   ],
   "note": "Violated for every file: the condition 0x4000 > value >= 0xFF80 is never true. The other checks hold (partial). A vector of one byte raises an exception."
  },
  {
   "property": "C63",
   "status": "partial",
   "theorems": [
    "Verif.Props.C63_downsample_partial",
    "Verif.Props.C63_empty",
    "Verif.Props.C63_grid_violated",
    "Verif.Props.C63_fails_violated",
    "Verif.Props.C63_any_factor",
    "Verif.Props.C63_drift",
    "Verif.Props.C63_short_violated",
    "Verif.Props.C63_overrun",
    "Verif.Props.C63_late",
    "Verif.Props.C63_late_violated"
   ],
   "note": "Proved for every factor and length with the grid of the code (C63_any_factor, C63_late); it drifts from the ideal grid by less than one block per block (C63_drift), and some lengths cannot be down-sampled (C63_short_violated, C63_late_violated)."
  },
  {
   "property": "C64",
   "status": "partial",
   "theorems": [
    "Verif.Props.C64_untouched",
    "Verif.Props.C64_one_output",
    "Verif.Props.C64_refused",
    "Verif.Props.C64_range",
    "Verif.Props.C64_content_partial",
    "Verif.Props.C64_meta",
    "Verif.Props.C64_created",
    "Verif.Props.C64_whole",
    "Verif.Props.C64_tail_violated",
    "Verif.Props.C64_collision_violated",
    "Verif.Props.C64_leftover_violated"
   ],
   "note": "No existing file is harmed, one output, refused arguments and content of the cut are proved. Violated: the rounded runtime loses up to 4999 samples at the end; names of different cuts collide; an interrupted cut leaves a file that is later taken as finished."
  },
  {
   "property": "C65",
   "status": "partial",
   "theorems": [
    "Verif.Props.C65_time",
    "Verif.Props.C65_time_mono",
    "Verif.Props.C65_rows",
    "Verif.Props.C65_raw",
    "Verif.Props.C65_calibrated_partial",
    "Verif.Props.C65_uncalibrated_violated",
    "Verif.Props.C65_existing",
    "Verif.Props.C65_undescribed",
    "Verif.Props.C65_leftover_violated"
   ],
   "note": "Rows, header, time stamps and calibrated values are proved, with an error bound. Violated: datasets without calibration are exported with 1 added; datasets that are too short leave an incomplete file that is later taken as finished. Dates are in C112, lines of text in C113; the digits of numbers in C117."
  },
  {
   "property": "C66",
   "status": "partial",
   "theorems": [
    "Verif.Props.C66_table_error",
    "Verif.Props.C66_curve",
    "Verif.Props.C66_optimal",
    "Verif.Props.C66_loss",
    "Verif.Props.C66_loss_all",
    "Verif.Props.C66_oc",
    "Verif.Props.C66_oc_current",
    "Verif.Props.C66_oc_missing_violated",
    "Verif.Props.C66_find_oc_partial",
    "Verif.Props.C66_find_oc_violated",
    "Verif.Props.C66_table",
    "Verif.Props.C66_optimal_float",
    "Verif.Props.C66_empty_float",
    "Verif.Props.C66_grid_float",
    "Verif.Props.C66_current_float",
    "Verif.Props.C66_loss_float",
    "Verif.Props.C66_loss_good_exp",
    "Verif.Props.C66_oc_float"
   ],
   "note": "Optimal and open circuit tracker proved over the reals (C66_optimal, C66_loss, C66_oc) and in floating point with any accurate rounding and any exponential function (C66_optimal_float, C66_grid_float, C66_current_float, C66_loss_float, C66_loss_good_exp, C66_oc_float). Violated: the open circuit tracker fails without a column voc that it should compute, and the approximation of the voltage returns 0 V for curves beyond the supported voltage."
  },
  {
   "property": "C67",
   "status": "partial",
   "theorems": [
    "Verif.Props.C67_selected",
    "Verif.Props.C67_selected_once",
    "Verif.Props.C67_case_violated",
    "Verif.Props.C67_exit_partial",
    "Verif.Props.C67_order",
    "Verif.Props.C67_regular",
    "Verif.Props.C67_unreadable_violated",
    "Verif.Props.C67_short_violated"
   ],
   "note": "Partial: exit code for files that can be opened. Violated: files that are no HDF5 count as passed, valid recordings shorter than a second fail, \"a.H5\" is only found by its own name."
  },
  {
   "property": "C68",
   "status": "partial",
   "theorems": [
    "Verif.Props.C68_independent_partial",
    "Verif.Props.C68_given",
    "Verif.Props.C68_rate_violated",
    "Verif.Props.C68_abort_violated",
    "Verif.Props.C68_untouched",
    "Verif.Props.C68_unreadable"
   ],
   "note": "Partial: files of the same sample rate, or with the factor given. Violated: the factor computed for the first file is used for all others; an HDF5 file without data ends the command."
  },
  {
   "property": "C69",
   "status": "partial",
   "theorems": [
    "Verif.Props.C69_I_mid_out_partial",
    "Verif.Props.C69_I_mid_out_violated"
   ],
   "note": "Fails with a ZeroDivisionError if the switch-on drop equals the enable threshold (witness); proved for every other configuration."
  },
  {
   "property": "C70",
   "status": "proved",
   "theorems": [
    "Verif.Props.C70_constants",
    "Verif.Props.C70_buck_thresholds",
    "Verif.Props.C70_switch_on",
    "Verif.Props.C70_in_use",
    "Verif.Props.C70_source_registers",
    "Verif.Props.C70_efficiency_tables",
    "Verif.Props.C70_harvester_registers"
   ],
   "note": ""
  },
  {
   "property": "C71",
   "status": "partial",
   "theorems": [
    "Verif.Props.C71_samples_partial",
    "Verif.Props.C71_mode_partial",
    "Verif.Props.C71_rejected_violated"
   ],
   "note": "Samples are never changed by a rejected open, and a rejected mode changes nothing; other rejected arguments leave changed metadata (witness)."
  },
  {
   "property": "C72",
   "status": "partial",
   "theorems": [
    "Verif.Props.C72_translate_partial",
    "Verif.Props.C72_translate_violated"
   ],
   "note": "Partial: proved for all valid testbeds and experiments without actuation, not starting in the past, MCUs programmed below 5 V; violated in each of the excluded cases."
  },
  {
   "property": "C73",
   "status": "partial",
   "theorems": [
    "Verif.Props.C73_missing",
    "Verif.Props.C73_roundtrip_partial",
    "Verif.Props.C73_full_partial",
    "Verif.Props.C73_class",
    "Verif.Props.C73_generated_violated"
   ],
   "note": "Partial: all classes and instances of any depth whose unset fields have constant defaults and whose time spans are whole seconds; with minimal=False generated fields survive, too. Violated for generated fields (id, dates) that were not set."
  },
  {
   "property": "C74",
   "status": "partial",
   "theorems": [
    "Verif.Props.C74_text",
    "Verif.Props.C74_readback",
    "Verif.Props.C74_message",
    "Verif.Props.C74_log",
    "Verif.Props.C74_verbatim_violated",
    "Verif.Props.C74_lines",
    "Verif.Props.C74_time",
    "Verif.Props.C74_existing",
    "Verif.Props.C74_subgroup_violated"
   ],
   "note": "All groups of datasets. The text has a line for each entry exactly if no message has a line end (C74_text); messages are written as Python shows byte strings, so this is always so and each entry can be read back, whatever bytes it contains (C74_message, C74_log). Violated: a subgroup ends the export with TypeError and leaves an empty log; messages are not written as they are."
  },
  {
   "property": "C75",
   "status": "partial",
   "theorems": [
    "Verif.Props.C75_shown",
    "Verif.Props.C75_silent",
    "Verif.Props.C75_limit_violated"
   ],
   "note": "All logs and limits of at least one. Violated: a limit below one shows one entry."
  },
  {
   "property": "C76",
   "status": "partial",
   "theorems": [
    "Verif.Props.C76_gapless_partial",
    "Verif.Props.C76_curves_partial",
    "Verif.Props.C76_rest_violated",
    "Verif.Props.C76_grid_violated",
    "Verif.Props.C76_rows",
    "Verif.Props.C76_wanted",
    "Verif.Props.C76_existing",
    "Verif.Props.C76_rate_violated"
   ],
   "note": "Proved for rows at equal distances of a multiple of the output interval, samples and curves, if no block is left with two or three rows (C76_gapless_partial, C76_curves_partial); the rows wanted are exact (C76_wanted). Not so: a block of two or three rows can not be interpolated, the call raises and its incomplete output counts as finished (C76_rest_violated); rows beside the grid (C76_grid_violated); tables with a higher rate than the output (C76_rate_violated). Times only; values are in C121."
  },
  {
   "property": "C77",
   "status": "proved",
   "theorems": [
    "Verif.Props.C77_names",
    "Verif.Props.C77_readable",
    "Verif.Props.C77_source"
   ],
   "note": "Names are compared to the millisecond; marks that differ by less share a file, which is then not written again."
  },
  {
   "property": "C78",
   "status": "partial",
   "theorems": [
    "Verif.Props.C78_plot_partial",
    "Verif.Props.C78_small",
    "Verif.Props.C78_complete",
    "Verif.Props.C78_size",
    "Verif.Props.C78_360s_violated",
    "Verif.Props.C78_files",
    "Verif.Props.C78_whole"
   ],
   "note": "Proved for ranges of one block (up to about 80 s at 100 kHz: complete and in SI units) and factors that divide the block size; recordings of 360.1 s to 399.9 s can not be plotted at all (C78_360s_violated). Drawing itself is outside of the model."
  },
  {
   "property": "C79",
   "status": "partial",
   "theorems": [
    "Verif.Props.C79_detect",
    "Verif.Props.C79_exact",
    "Verif.Props.C79_decode_partial",
    "Verif.Props.C79_half_violated"
   ],
   "note": "Detection and decoding proved if more than a tenth of the edges are a single bit time apart and the jitter is small; without single bits half the rate is detected (C79_half_violated)."
  },
  {
   "property": "C80",
   "status": "partial",
   "theorems": [
    "Verif.Props.C80_text_partial",
    "Verif.Props.C80_short_violated",
    "Verif.Props.C80_missing",
    "Verif.Props.C80_kept",
    "Verif.Props.C80_logs",
    "Verif.Props.C80_abort_violated",
    "Verif.Props.C80_precision_violated"
   ],
   "note": "Proved for ASCII text in lines with at least 8 edges and enough single bit times, with the exact cost of the conversion of time stamps; at 460800 baud (supported by the observers) a perfect trace is not decoded (C80_precision_violated), short messages never are, an empty trace ends the command."
  },
  {
   "property": "C81",
   "status": "partial",
   "theorems": [
    "Verif.Props.C81_waveforms",
    "Verif.Props.C81_names_violated",
    "Verif.Props.C81_pin",
    "Verif.Props.C81_pin_violated",
    "Verif.Props.C81_kept",
    "Verif.Props.C81_untouched",
    "Verif.Props.C81_complete",
    "Verif.Props.C81_files",
    "Verif.Props.C81_header_violated",
    "Verif.Props.C81_abort_violated"
   ],
   "note": "Names used twice, names that are part of others, the header and empty traces are negative results."
  },
  {
   "property": "C82",
   "status": "partial",
   "theorems": [
    "Verif.Props.C82_restart_violated",
    "Verif.Props.C82_clock_violated",
    "Verif.Props.C82_collected_violated",
    "Verif.Props.C82_missing_violated",
    "Verif.Props.C82_versions_partial",
    "Verif.Props.C82_psutil_violated",
    "Verif.Props.C82_collect"
   ],
   "note": "Collection is proved for machines with psutil (without it a ValueError, C82_psutil_violated). warn() raises for every list of inventories as collected (C82_collected_violated): the list has no method for the restart warning, and packages are looked up in fields that do not exist. What it does for hand-made lists without any of these cases is C82_versions_partial."
  },
  {
   "property": "C83",
   "status": "partial",
   "theorems": [
    "Verif.Props.C83_cells",
    "Verif.Props.C83_values",
    "Verif.Props.C83_rows_partial",
    "Verif.Props.C83_lists_violated",
    "Verif.Props.C83_df_violated"
   ],
   "note": "C83_cells gives the cells of every file exactly; rows are aligned if no value contains the separator (C83_rows_partial), but lists with two entries and the disk usage always contain it (C83_lists_violated, C83_df_violated). C83_values says which cells unset fields get."
  },
  {
   "property": "C84",
   "status": "partial",
   "theorems": [
    "Verif.Props.C84_shown_partial",
    "Verif.Props.C84_spacing",
    "Verif.Props.C84_winter_violated",
    "Verif.Props.C84_date_violated",
    "Verif.Props.C84_age",
    "Verif.Props.C84_start_number",
    "Verif.Props.C84_start_aware",
    "Verif.Props.C84_start_naive"
   ],
   "note": "The zone in use is that of daylight saving whenever the machine has one, so times in winter are shown an hour late (C84_winter_violated); differences, ages of files and start times are proved without this restriction. Zones are modelled by two offsets and the set of moments with daylight saving."
  },
  {
   "property": "C85",
   "status": "partial",
   "theorems": [
    "Verif.Props.C85_online_violated",
    "Verif.Props.C85_token_violated",
    "Verif.Props.C85_token_file_partial",
    "Verif.Props.C85_no_file",
    "Verif.Props.C85_address_violated",
    "Verif.Props.C85_owner",
    "Verif.Props.C85_owner_offline",
    "Verif.Props.C85_empty_violated"
   ],
   "note": "All models keep the client of the first import, so a web client is never asked (C85_online_violated, over every program); a token given as text is ignored (C85_token_violated)."
  },
  {
   "property": "C86",
   "status": "partial",
   "theorems": [
    "Verif.Props.C86_types",
    "Verif.Props.C86_fresh",
    "Verif.Props.C86_history",
    "Verif.Props.C86_cache_violated",
    "Verif.Props.C86_expired"
   ],
   "note": "Proved for every set of files and every history; the exception is a cache file copied from elsewhere (C86_cache_violated). Lower-casing is a parameter that is assumed idempotent."
  },
  {
   "property": "C87",
   "status": "partial",
   "theorems": [
    "Verif.Props.C87_prepare_partial",
    "Verif.Props.C87_errors",
    "Verif.Props.C87_testbed",
    "Verif.Props.C87_only_own",
    "Verif.Props.C87_without_name",
    "Verif.Props.C87_set",
    "Verif.Props.C87_single",
    "Verif.Props.C87_file",
    "Verif.Props.C87_in_time",
    "Verif.Props.C87_experiment_partial",
    "Verif.Props.C87_foreign_violated",
    "Verif.Props.C87_others_violated",
    "Verif.Props.C87_names_violated"
   ],
   "note": "Sets and single tasks are handed to anyone, whatever observer they are for (C87_foreign_violated); one late task of another observer blocks all (C87_others_violated); the second of two observers with the same name gets nothing (C87_names_violated). With unique names of observers every one gets its set (C87_prepare_partial)."
  },
  {
   "property": "C88",
   "status": "partial",
   "theorems": [
    "Verif.Props.C88_power",
    "Verif.Props.C88_power_errors",
    "Verif.Props.C88_pin",
    "Verif.Props.C88_switchable",
    "Verif.Props.C88_gpio",
    "Verif.Props.C88_actuation",
    "Verif.Props.C88_actuation_pins",
    "Verif.Props.C88_emulation_partial",
    "Verif.Props.C88_aux",
    "Verif.Props.C88_actuation_violated",
    "Verif.Props.C88_pins_violated",
    "Verif.Props.C88_empty_violated",
    "Verif.Props.C88_refusal_violated"
   ],
   "note": "Acceptance is characterised exactly; emulations with actuation are never accepted (C88_actuation_violated), the list of pins has no effect (C88_pins_violated), durations of zero pass (C88_empty_violated), one refusal is a NotImplementedError (C88_refusal_violated)."
  },
  {
   "property": "C89",
   "status": "proved",
   "theorems": [
    "Verif.Props.C89_verbosity",
    "Verif.Props.C89_levels"
   ],
   "note": ""
  },
  {
   "property": "C90",
   "status": "partial",
   "theorems": [
    "Verif.Props.C90_content_partial",
    "Verif.Props.C90_names",
    "Verif.Props.C90_names_violated"
   ],
   "note": "Acceptance is characterised exactly and names have no separators; names like '..' pass (C90_names_violated)."
  },
  {
   "property": "C91",
   "status": "partial",
   "theorems": [
    "Verif.Props.C91_parts_partial",
    "Verif.Props.C91_mirror_partial",
    "Verif.Props.C91_facts_partial",
    "Verif.Props.C91_success",
    "Verif.Props.C91_minimal",
    "Verif.Props.C91_names_violated",
    "Verif.Props.C91_array_violated",
    "Verif.Props.C91_values_violated",
    "Verif.Props.C91_export",
    "Verif.Props.C91_crash_violated"
   ],
   "note": "Partial: names of attributes and members must not meet (C91_names_violated). Arrays in attributes prevent all metadata (C91_array_violated), some values are shown as others (C91_values_violated), an interrupted export counts as finished (C91_crash_violated)."
  },
  {
   "property": "C92",
   "status": "partial",
   "theorems": [
    "Verif.Props.C92_plot",
    "Verif.Props.C92_plot_kept",
    "Verif.Props.C92_plot_unreadable",
    "Verif.Props.C92_multi",
    "Verif.Props.C92_plot_abort_violated",
    "Verif.Props.C92_multi_empty_violated",
    "Verif.Props.C92_power_violated",
    "Verif.Props.C92_meta",
    "Verif.Props.C92_meta_kept",
    "Verif.Props.C92_meta_unreadable",
    "Verif.Props.C92_meta_abort_violated",
    "Verif.Props.C92_extract",
    "Verif.Props.C92_extract_kept",
    "Verif.Props.C92_extract_unreadable",
    "Verif.Props.C92_rows",
    "Verif.Props.C92_extract_abort_violated",
    "Verif.Props.C92_collision_violated"
   ],
   "note": "Each by itself, if outputs have different names (proved for distinct recordings with plot and extract-meta) and no exception escapes; exceptions that are not caught stop the other files (C92_plot_abort_violated, C92_meta_abort_violated, C92_extract_abort_violated), outputs can collide (C92_collision_violated), a multi-plot of nothing fails (C92_multi_empty_violated), power plots are skipped after normal ones (C92_power_violated)."
  },
  {
   "property": "C93",
   "status": "partial",
   "theorems": [
    "Verif.Props.C93_hex",
    "Verif.Props.C93_elf",
    "Verif.Props.C93_content",
    "Verif.Props.C93_directory_partial",
    "Verif.Props.C93_directory_violated",
    "Verif.Props.C93_mcu_violated",
    "Verif.Props.C93_arch_violated",
    "Verif.Props.C93_exec_violated",
    "Verif.Props.C93_type_violated",
    "Verif.Props.C93_name_violated",
    "Verif.Props.C93_task_violated"
   ],
   "note": "Violated: a given MCU or type is not checked (C93_mcu_violated, C93_arch_violated, C93_type_violated), files that are not executable raise TypeError (C93_exec_violated), long names are refused (C93_name_violated), names with dots collide in a directory (C93_directory_violated), referenced firmware can not be made a task (C93_task_violated)."
  },
  {
   "property": "C94",
   "status": "partial",
   "theorems": [
    "Verif.Props.C94_type",
    "Verif.Props.C94_arch_hex",
    "Verif.Props.C94_arch_elf_partial",
    "Verif.Props.C94_arch_elf_violated",
    "Verif.Props.C94_convert",
    "Verif.Props.C94_convert_violated"
   ],
   "note": "Partial: an executable for ARM can be taken for MSP430 (C94_arch_elf_violated); conversion overwrites existing hex files (C94_convert_violated)."
  },
  {
   "property": "C95",
   "status": "proved",
   "theorems": [
    "Verif.Props.C95_testbed",
    "Verif.Props.C95_targets",
    "Verif.Props.C95_database",
    "Verif.Props.C95_experiments",
    "Verif.Props.C95_valid_iff",
    "Verif.Props.C95_tasks"
   ],
   "note": "The fixture files are data of the model; descriptions, rooms and dates are left out."
  },
  {
   "property": "C96",
   "status": "partial",
   "theorems": [
    "Verif.Props.C96_names",
    "Verif.Props.C96_ids_partial",
    "Verif.Props.C96_ids_violated",
    "Verif.Props.C96_harvesters",
    "Verif.Props.C96_harvester_use",
    "Verif.Props.C96_sources",
    "Verif.Props.C96_runs",
    "Verif.Props.C96_power_good",
    "Verif.Props.C96_input_partial",
    "Verif.Props.C96_energy_violated"
   ],
   "note": "C96_ids_violated: id 2102 is given twice, so loading it gives cv10 and cv33 cannot be had by id. C96_energy_violated: the two sources with diode, resistor and capacitor are credited energy from a current at 0 V; C96_input_partial covers all others. For sources with a buck converter power good needs readings of at most 0.2 A (53.4 mA with the default calibration)."
  },
  {
   "property": "C97",
   "status": "partial",
   "theorems": [
    "Verif.Props.C97_direction",
    "Verif.Props.C97_limit_violated",
    "Verif.Props.C97_constant_violated"
   ],
   "note": "The rule is proved for set-points within the limits (C97_direction). At a limit the direction is turned twice, so the tracker stays there as long as the power does not grow (C97_limit_violated, for all streams; C97_constant_violated: a constant source, less than half of the possible power for ever)."
  },
  {
   "property": "C98",
   "status": "partial",
   "theorems": [
    "Verif.Props.C98_samples",
    "Verif.Props.C98_interrupted_violated",
    "Verif.Props.C98_labels",
    "Verif.Props.C98_valid_partial",
    "Verif.Props.C98_finishes",
    "Verif.Props.C98_untouched",
    "Verif.Props.C98_calibration_violated",
    "Verif.Props.C98_mode_violated",
    "Verif.Props.C98_all",
    "Verif.Props.C98_stop_violated",
    "Verif.Props.C98_foreign_violated"
   ],
   "note": "Samples, labels and validity after a repair without exception, and when there is an exception, are proved exactly for aligned files (C98_samples, C98_labels, C98_valid_partial, C98_finishes). Not so: a missing calibration alone, an append interrupted after its second step, unknown modes with unequal datasets, emulator recordings of curves; one exception ends the repair of all files (C98_*_violated)."
  },
  {
   "property": "C99",
   "status": "partial",
   "theorems": [
    "Verif.Props.C99_recording",
    "Verif.Props.C99_static",
    "Verif.Props.C99_ramp",
    "Verif.Props.C99_environment",
    "Verif.Props.C99_energy_violated",
    "Verif.Props.C99_interrupted_violated",
    "Verif.Props.C99_stuck_violated",
    "Verif.Props.C99_ramp_float",
    "Verif.Props.C99_environment_float",
    "Verif.Props.C99_interrupted_float_violated",
    "Verif.Props.C99_stuck_float_violated"
   ],
   "note": "Timestamps, lengths, constant values and labels are proved for every accurate float arithmetic (C99_recording, C99_static), ramps in every accurate float arithmetic, too (C99_ramp_float), durations and energies of static environments in exact arithmetic (C99_environment) and in every accurate float arithmetic with a bound on the relative error of the energy (C99_environment_float). Not so: the energy misses one sample interval (C99_energy_violated); after an interruption the shorter recording is kept and declared complete and valid (C99_interrupted_violated), and an empty one makes every further run fail (C99_stuck_violated). Interruptions in every accurate float arithmetic: C99_interrupted_float_violated, C99_stuck_float_violated."
  },
  {
   "property": "C100",
   "status": "partial",
   "theorems": [
    "Verif.Props.C100_path",
    "Verif.Props.C100_fixed",
    "Verif.Props.C100_distinct",
    "Verif.Props.C100_complete",
    "Verif.Props.C100_stopped",
    "Verif.Props.C100_again",
    "Verif.Props.C100_elsewhere_violated",
    "Verif.Props.C100_embedded_violated",
    "Verif.Props.C100_hex_violated"
   ],
   "note": "Proved for all lists of files and all paths below a directory 'content' (C100_path, C100_distinct, C100_complete, C100_stopped, C100_again). Not so: a path elsewhere is reduced to its last character (C100_elsewhere_violated); embedded firmware is replaced by such a path (C100_embedded_violated); HEX files are declared to be ELF files (C100_hex_violated)."
  },
  {
   "property": "C101",
   "status": "partial",
   "theorems": [
    "Verif.Props.C101_fingerprint",
    "Verif.Props.C101_repr",
    "Verif.Props.C101_mapping",
    "Verif.Props.C101_absent_violated",
    "Verif.Props.C101_class_violated",
    "Verif.Props.C101_secret_violated"
   ],
   "note": "Proved: what Python prints for a dump determines the dump (C101_repr, C101_fingerprint), and the four functions of a mapping agree (C101_mapping). Not so: names that are no keys are looked up in the class or raise AttributeError (C101_absent_violated), the hash depends neither on the class (C101_class_violated) nor on secrets (C101_secret_violated)."
  },
  {
   "property": "C102",
   "status": "partial",
   "theorems": [
    "Verif.Props.C102_last",
    "Verif.Props.C102_others",
    "Verif.Props.C102_class",
    "Verif.Props.C102_paths",
    "Verif.Props.C102_name_violated",
    "Verif.Props.C102_collide_violated",
    "Verif.Props.C102_interrupted_violated",
    "Verif.Props.C102_cut_violated"
   ],
   "note": "Proved for all histories: the last complete write to a path is what is read (C102_last), other paths are untouched (C102_others), classes do not mix (C102_class), names without dots do not collide (C102_paths). Not so: the given name is not found (C102_name_violated), what follows the last dot is dropped so that models replace each other (C102_collide_violated), an interrupted write destroys the previous model (C102_interrupted_violated) or is read as another one (C102_cut_violated)."
  },
  {
   "property": "C103",
   "status": "partial",
   "theorems": [
    "Verif.Props.C103_balance_partial",
    "Verif.Props.C103_cycle_violated",
    "Verif.Props.C103_collapse_violated",
    "Verif.Props.C103_balance_double_partial",
    "Verif.Props.C103_powers_partial",
    "Verif.Props.C103_counters_partial",
    "Verif.Props.C103_cycle_binary64_violated",
    "Verif.Props.C103_collapse_binary64_violated"
   ],
   "note": "Proved for runs of any length, in exact arithmetic (C103_balance_partial) and in doubles with an error of 2^-47 of what flowed and, per sample, of the full capacitor (C103_balance_double_partial), with the extra term 1/2*C*sum of squared changes of the capacitor's voltage, for runs that do not collapse to the lowest voltage. The same for the powers and the energy counters the virtual source reports, whatever harvester and converters do (C103_powers_partial, C103_counters_partial). Not so without the term: a lossless converter delivers twice what it is offered, cycle after cycle (C103_cycle_violated). Not so for runs that collapse: one sample delivers two hundred times what was stored (C103_collapse_violated). Both deviations also in binary64 (C103_*_binary64_violated)."
  },
  {
   "property": "C104",
   "status": "partial",
   "theorems": [
    "Verif.Props.C104_matrix",
    "Verif.Props.C104_title",
    "Verif.Props.C104_shape",
    "Verif.Props.C104_no_matrix",
    "Verif.Props.C104_links",
    "Verif.Props.C104_symmetric",
    "Verif.Props.C104_width",
    "Verif.Props.C104_weak_violated",
    "Verif.Props.C104_unknown_violated",
    "Verif.Props.C104_after_image",
    "Verif.Props.C104_after_svg",
    "Verif.Props.C104_script",
    "Verif.Props.C104_script_nodes",
    "Verif.Props.C104_line_text",
    "Verif.Props.C104_group",
    "Verif.Props.C104_nodes",
    "Verif.Props.C104_multiline_violated",
    "Verif.Props.C104_oneline_violated"
   ],
   "note": "Proved: reading (C104_matrix), one line per pair and its width (C104_links, C104_symmetric), 1 to 10 and monotone from -104 dBm on (C104_width), the place of the group (C104_after_image, C104_after_svg), the whole script (C104_script). Not so: weak one-way links get negative widths (C104_weak_violated), a node without a spot loses all links (C104_unknown_violated), a tag over several lines or behind a declaration on the same line breaks the picture (C104_multiline_violated, C104_oneline_violated)."
  },
  {
   "property": "C105",
   "status": "partial",
   "theorems": [
    "Verif.Props.C105_reported",
    "Verif.Props.C105_missed_violated",
    "Verif.Props.C105_invented_violated"
   ],
   "note": "Not so. The limits are in seconds but are compared with all three columns, so from 2 baud on the answer depends on the time stamps alone (C105_reported): half stop bits go unseen in every recording whose clock has passed its first second (C105_missed_violated), and any line is said to have them if one of its first states begins at one and a half ticks (C105_invented_violated)."
  },
  {
   "property": "C106",
   "status": "partial",
   "theorems": [
    "Verif.Props.C106_source_partial",
    "Verif.Props.C106_source_energy",
    "Verif.Props.C106_source_error",
    "Verif.Props.C106_short_violated",
    "Verif.Props.C106_harvester_partial",
    "Verif.Props.C106_source_read",
    "Verif.Props.C106_harvester_read"
   ],
   "note": "Proved for the samples in full buffers (C106_source_partial, C106_harvester_partial), exceptions included (C106_source_error), with what a reader sees to half a step (C106_source_read, C106_harvester_read). Not so for the rest: what follows the last full buffer of 10000 samples is left out, a recording shorter than that gives an empty file and no energy (C106_short_violated)."
  },
  {
   "property": "C107",
   "status": "partial",
   "theorems": [
    "Verif.Props.C107_rows",
    "Verif.Props.C107_100kHz_partial",
    "Verif.Props.C107_rate_violated",
    "Verif.Props.C107_values"
   ],
   "note": "Proved whenever there are rows enough (C107_rows), which is so at 100 kHz (C107_100kHz_partial). Not so in general: the number of rows comes from a truncated duration, at 33333 Hz it is too small and the monitored simulation raises IndexError where the plain one works (C107_rate_violated)."
  },
  {
   "property": "C108",
   "status": "partial",
   "theorems": [
    "Verif.Props.C108_rows_partial",
    "Verif.Props.C108_cells_partial",
    "Verif.Props.C108_header",
    "Verif.Props.C108_description_violated",
    "Verif.Props.C108_capeless_violated",
    "Verif.Props.C108_values",
    "Verif.Props.C108_lines_partial",
    "Verif.Props.C108_newline_violated"
   ],
   "note": "Proved for testbeds whose observers in use have capes (C108_rows_partial) and values without the separator (C108_cells_partial); with valid names and such a description all cells are read back and the coordinates are exact (C108_values); lines are found if no text has a line end (C108_lines_partial). Not so: a description may contain the separator (C108_description_violated), a name may contain a line end (C108_newline_violated), an observer in use without cape ends the script (C108_capeless_violated)."
  },
  {
   "property": "C109",
   "status": "partial",
   "theorems": [
    "Verif.Props.C109_times",
    "Verif.Props.C109_refused",
    "Verif.Props.C109_again",
    "Verif.Props.C109_stable",
    "Verif.Props.C109_untouched_violated"
   ],
   "note": "Proved: times are kept (C109_times), refused tables are kept whole (C109_refused), a second decoding with any parameters gives the same symbols (C109_again), a second decoding changes nothing more (C109_stable). Not so: the voltages of the caller are overwritten by 0 and 1 (C109_untouched_violated). Decoding of files is not concerned. Assumed: some value reaches the computed mean, and not more than 2^53 rows."
  },
  {
   "property": "C110",
   "status": "partial",
   "theorems": [
    "Verif.Props.C110_content",
    "Verif.Props.C110_fresh",
    "Verif.Props.C110_untouched",
    "Verif.Props.C110_history",
    "Verif.Props.C110_query_violated",
    "Verif.Props.C110_task_partial",
    "Verif.Props.C110_task_violated",
    "Verif.Props.C110_user_violated",
    "Verif.Props.C110_keywords",
    "Verif.Props.C110_tokens"
   ],
   "note": "Proved for all models of the data base (C110_untouched, C110_history, C110_fresh), together with the agreement of the model with objects and the model with values (C110_content). Not so: a query hands out the entry itself, so that writes of the caller reach later instances (C110_query_violated); tasks and users write into the dictionary they are validated from (C110_task_violated, C110_user_violated: two users share a token), but not when made with keywords (C110_keywords, C110_tokens). Nested dictionaries are values in this model."
  },
  {
   "property": "C111",
   "status": "partial",
   "theorems": [
    "Verif.Props.C111_level",
    "Verif.Props.C111_never_quieter",
    "Verif.Props.C111_readers",
    "Verif.Props.C111_numbers",
    "Verif.Props.C111_shared_violated",
    "Verif.Props.C111_option_violated",
    "Verif.Props.C111_option_partial",
    "Verif.Props.C111_sources_violated",
    "Verif.Props.C111_negative_violated"
   ],
   "note": "Proved for every program: the level of the library (C111_level, C111_never_quieter), what readers show (C111_readers), the numbers (C111_numbers), messages of the commands themselves (C111_option_partial). Not so: readers share a logger, a quiet one silences all (C111_shared_violated); the option -v has no effect on readers and library (C111_option_violated); sources of records never come back (C111_sources_violated); negative numbers set nothing (C111_negative_violated). Handlers and formats are not modelled."
  },
  {
   "property": "C112",
   "status": "partial",
   "theorems": [
    "Verif.Props.C112_calendar",
    "Verif.Props.C112_sorted",
    "Verif.Props.C112_digits",
    "Verif.Props.C112_text",
    "Verif.Props.C112_samples",
    "Verif.Props.C112_table",
    "Verif.Props.C112_directory",
    "Verif.Props.C112_directory_violated",
    "Verif.Props.C112_spread_violated",
    "Verif.Props.C112_together",
    "Verif.Props.C112_iso"
   ],
   "note": "Proved: the calendar day by day (C112_calendar), the text (C112_text, C112_digits), its order (C112_sorted), samples 10 us apart (C112_samples), sorted tables (C112_table), dates of calibrations (C112_iso), when two experiments share a directory (C112_directory), one directory with a given start (C112_together). Not so: starts in the same second, or an hour apart around the end of daylight saving time, share a directory (C112_directory_violated); without a start one experiment is spread over several directories (C112_spread_violated)."
  },
  {
   "property": "C113",
   "status": "partial",
   "theorems": [
    "Verif.Props.C113_readback",
    "Verif.Props.C113_columns",
    "Verif.Props.C113_recording",
    "Verif.Props.C113_export",
    "Verif.Props.C113_tab_violated",
    "Verif.Props.C113_columns_violated"
   ],
   "note": "Proved for every separator whose first character is not in the words and numbers (C113_readback), for recordings by the writer with ; and , (C113_recording, C113_export), and when all lines have the columns of the header (C113_columns). Not so: tabulators become two blanks (C113_tab_violated); datasets with more values than words in their description (C113_columns_violated)."
  },
  {
   "property": "C114",
   "status": "partial",
   "theorems": [
    "Verif.Props.C114_machine",
    "Verif.Props.C114_shared",
    "Verif.Props.C114_recovers",
    "Verif.Props.C114_cut_violated"
   ],
   "note": "Proved for histories on one kind of machine (C114_machine), described exactly for observers and other machines with the same home directory (C114_shared), and that reset, observers and a day later all recover (C114_recovers). Violated with a shared home: a cache that was cut off makes all other machines fail for a day (C114_cut_violated). pickle is a parameter that reads what it wrote and refuses what was cut off."
  },
  {
   "property": "C115",
   "status": "partial",
   "theorems": [
    "Verif.Props.C115_earlier",
    "Verif.Props.C115_apart",
    "Verif.Props.C115_beginnings",
    "Verif.Props.C115_prompt",
    "Verif.Props.C115_race_violated",
    "Verif.Props.C115_alone"
   ],
   "note": "For every schedule: earlier files are never touched (C115_earlier); programs whose paths are apart run as if alone (C115_apart, C115_beginnings). All of the claim holds if nothing comes between finding a free path and opening it (C115_prompt). Violated otherwise, with or without locks on open files: a closed recording is overwritten (C115_race_violated). Alone, the path is that of C38 (C115_alone)."
  },
  {
   "property": "C116",
   "status": "partial",
   "theorems": [
    "Verif.Props.C116_ip",
    "Verif.Props.C116_uuid",
    "Verif.Props.C116_path",
    "Verif.Props.C116_span",
    "Verif.Props.C116_written",
    "Verif.Props.C116_untouched",
    "Verif.Props.C116_classes",
    "Verif.Props.C116_observer",
    "Verif.Props.C116_testbed",
    "Verif.Props.C116_user_violated",
    "Verif.Props.C116_url_violated"
   ],
   "note": "A value can be dumped exactly if it has no IPv6 address, URL or secret in it (C116_written); to_file writes all of it or leaves everything as it was (C116_untouched). Holds for every class but three (C116_classes), for observers with IPv4 addresses and testbeds without URL (C116_observer, C116_testbed). Violated: no User can be written or printed (C116_user_violated), nor a testbed with a URL or IPv6 observer (C116_url_violated). Texts are read back (C116_ip, C116_uuid, C116_path, C116_span)."
  },
  {
   "property": "C117",
   "status": "proved",
   "theorems": [
    "Verif.Props.C117_number",
    "Verif.Props.C117_sign",
    "Verif.Props.C117_chars",
    "Verif.Props.C117_yaml",
    "Verif.Props.C117_scalar",
    "Verif.Props.C117_table",
    "Verif.Props.C117_shortest",
    "Verif.Props.C117_closest"
   ],
   "note": "str of a float and represent_float of PyYAML are modelled by what they compute (shortest decimal that reads back, closest of these), with both notations, and not by their algorithms; that model was compared with Python on random floats. Proved on it: reading back for every binary64 (C117_number), for the tables of recordings (C117_table) and for YAML (C117_yaml, C117_scalar), at most 17 digits and no shorter decimal (C117_shortest), the closest of these (C117_closest). Negative zero, infinities and NaN are not modelled."
  },
  {
   "property": "C118",
   "status": "partial",
   "theorems": [
    "Verif.Props.C118_same",
    "Verif.Props.C118_parts",
    "Verif.Props.C118_earlier",
    "Verif.Props.C118_prompt",
    "Verif.Props.C118_ends",
    "Verif.Props.C118_mixed_violated",
    "Verif.Props.C118_killed_violated",
    "Verif.Props.C118_table"
   ],
   "note": "Proved for every schedule: every program ends (C118_ends); earlier files are never changed (C118_earlier); programs with the same options that are not killed leave the complete text (C118_same, C118_table); even if some are killed there is nothing but characters of the text at their places and gaps (C118_parts); with any options if nothing comes between the look for the file and opening it (C118_prompt). Violated otherwise: different options give a mixture (C118_mixed_violated), a killed program leaves a gap in the file of another one (C118_killed_violated). Files are those of POSIX."
  },
  {
   "property": "C119",
   "status": "partial",
   "theorems": [
    "Verif.Props.C119_loop",
    "Verif.Props.C119_ends",
    "Verif.Props.C119_nested_violated",
    "Verif.Props.C119_endless_violated",
    "Verif.Props.C119_member_violated",
    "Verif.Props.C119_test_violated"
   ],
   "note": "Proved for bodies that do anything but iterate: every entry once, insertions included (C119_loop), the end and the order (C119_ends). Violated, for every collection: nested loops see the pairs with the first entry only (C119_nested_violated) or never end (C119_endless_violated), a test by 'in' ends the loop around it (C119_test_violated) and never finds a name (C119_member_violated)."
  },
  {
   "property": "C120",
   "status": "partial",
   "theorems": [
    "Verif.Props.C120_untouched",
    "Verif.Props.C120_samples_violated",
    "Verif.Props.C120_time_partial",
    "Verif.Props.C120_start_violated",
    "Verif.Props.C120_border_violated",
    "Verif.Props.C120_error_violated"
   ],
   "note": "The function logs that it is under construction. Proved: curves and empty ranges change nothing (C120_untouched); times of one block from the start of a recording are exactly the new grid, at any rate (C120_time_partial). Violated: samples are always lost (C120_samples_violated), ranges in the second half have no times (C120_start_violated), the grid starts anew with each block (C120_border_violated), and for every block length some recordings fail with an error (C120_error_violated)."
  },
  {
   "property": "C121",
   "status": "partial",
   "theorems": [
    "Verif.Props.C121_rows",
    "Verif.Props.C121_optimal",
    "Verif.Props.C121_stamped",
    "Verif.Props.C121_lines",
    "Verif.Props.C121_limits_violated",
    "Verif.Props.C121_duration_violated",
    "Verif.Props.C121_curves",
    "Verif.Props.C121_curves_violated"
   ],
   "note": "Values at rows are proved for every tracker, factor and part and for any interpolation (C121_rows, C121_optimal), with as many time stamps as samples and the same exceptions as in C76 (C121_stamped); for curves, too, which never have a negative current (C121_curves); lines are continued exactly, up to the error of the interpolation (C121_lines), which rests on existence and uniqueness of the not-a-knot spline (spline_exists, spline_zero). Not so: after dark rows all samples before the second row have a negative voltage and those between two rows at v_max exceed it (C121_limits_violated, for every factor, cell and limit); curves between rows exceed the short circuit current of all rows (C121_curves_violated); asking for a row more changes samples at the very start (C121_duration_violated). Real numbers; the error of scipy is a parameter. Values as handed to the writer."
  },
  {
   "property": "C122",
   "status": "partial",
   "theorems": [
    "Verif.Props.C122_read_partial",
    "Verif.Props.C122_seconds_violated",
    "Verif.Props.C122_different",
    "Verif.Props.C122_instants",
    "Verif.Props.C122_ordinal",
    "Verif.Props.C122_moment",
    "Verif.Props.C122_days",
    "Verif.Props.C122_fractions"
   ],
   "note": "Proved for dates, times without offset and times whose offset is a number of minutes (C122_read_partial, C122_different, C122_instants); the moment named is kept (C122_moment); days and fractions written by hand (C122_days, C122_fractions). Not so for offsets with seconds, as local times before about 1900 have in zoneinfo: they are written, and the file cannot be read (C122_seconds_violated). The text is that of the node; the layout of the file is not modelled."
  },
  {
   "property": "C123",
   "status": "proved",
   "theorems": [
    "Verif.Props.C123_text"
   ],
   "note": "Plain, single quoted and double quoted texts with folding and escapes, as PyYAML writes and scans them as values in block style. Surrogates are no characters in the model; keys are not included."
  },
  {
   "property": "C124",
   "status": "proved",
   "theorems": [
    "Verif.Props.C124_values",
    "Verif.Props.C124_different"
   ],
   "note": "The resolver of PyYAML for YAML 1.1 as functions on characters, the constructors of flags and integers; floats are read as in C117, dates as in C122, the layout in the file is C123."
  },
  {
   "property": "C125",
   "status": "proved",
   "theorems": [
    "Verif.Props.C125_file",
    "Verif.Props.C125_different",
    "Verif.Props.C125_bytes",
    "Verif.Props.C125_model",
    "Verif.Props.C125_roundtrip",
    "Verif.Props.C125_classes"
   ],
   "note": "Block style of PyYAML: emitter with its indentation rules, reader by columns. Keys are names of fields (letters, digits, underscores, not like a number or a flag); nesting below 39 levels, where the folding of PyYAML at column 80 still works; no anchors (the same object twice), comments, tags other than that of bytes, and filled flow collections. C125_classes holds for all classes but User, Observer and Testbed, which cannot always be written (C116); bytes in fields are not empty; from_file is modelled up to the validation of the fields. The recursion of the reader has a budget: the theorem holds for every large enough one."
  }
 ]
}