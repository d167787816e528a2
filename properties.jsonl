{"id": "C01", "title": "Raw ADC/DAC codes survive the trip through SI units", "statement": "Converting a raw value to SI and back with the same calibration pair returns the same raw value (with the default of allowing negative SI values); when negative SI values are clamped this still holds for every code at or above the SI zero point. It also holds in IEEE-754 double arithmetic for all 32-bit raw codes as long as the offset is not absurdly large compared to the gain.", "quantifier": "every gain > 0, every offset, every non-negative raw integer, every rounding behaviour of the float unit that is accurate to one part in 2^52", "why_tests_cant": "gain, offset and raw code range over unbounded sets; a test only picks a few default calibrations", "anchors": ["shepherd_core/shepherd_core/data_models/base/calibration.py:CalibrationPair.raw_to_si", "shepherd_core/shepherd_core/data_models/base/calibration.py:CalibrationPair.si_to_raw"]}
{"id": "C02", "title": "SI values are quantised by at most half a raw step", "statement": "Storing an SI value and reading it back is off by at most half a gain step, for every SI value that is not below the SI value of raw code 0; smaller values are stored as raw 0.", "quantifier": "every gain > 0, offset and SI value", "why_tests_cant": "continuous domain", "anchors": ["shepherd_core/shepherd_core/data_models/base/calibration.py:CalibrationPair.raw_to_si", "shepherd_core/shepherd_core/data_models/base/calibration.py:CalibrationPair.si_to_raw"]}
{"id": "C03", "title": "Conversions are monotone, never negative and element-wise", "statement": "si_to_raw never returns a negative number, raw_to_si only does so for a negative offset and never when negative values are disallowed; neither swaps the order of two values, and converting an array is the same as converting each element on its own.", "quantifier": "every calibration pair and every pair of values / every array of every length, for every monotone rounding behaviour of the float unit", "why_tests_cant": "continuous domain, unbounded array length", "anchors": ["shepherd_core/shepherd_core/data_models/base/calibration.py:CalibrationPair.raw_to_si", "shepherd_core/shepherd_core/data_models/base/calibration.py:CalibrationPair.si_to_raw"]}
{"id": "C04", "title": "Cape calibration survives EEPROM serialisation", "statement": "Writing a cape calibration to its byte string and decoding it gives back exactly the same 16 gains and offsets, bit for bit; every accepted byte string is reproduced by encoding the decoded calibration; byte strings of the wrong length are rejected. Fields that are not floats (units, cape meta data) are not carried.", "quantifier": "every calibration (any 64-bit float patterns that pass validation), every byte string", "why_tests_cant": "2^64 values per field, all lengths", "anchors": ["shepherd_core/shepherd_core/data_models/base/calibration.py:CalibrationCape.to_bytestr", "shepherd_core/shepherd_core/data_models/base/calibration.py:CalibrationCape.from_bytestr", "shepherd_core/shepherd_core/data_models/base/calibration.py:dict_generator"]}
{"id": "C05", "title": "sysfs export either fits the PRU word sizes or is refused", "statement": "Exporting a calibration for the kernel module either raises or yields gains in [0, 2^32-1] and offsets in [-2^31, 2^31-1] for all four channels; it is refused exactly when one of them does not fit.", "quantifier": "every calibration", "why_tests_cant": "continuous domain and boundary conditions of 16-bit/32-bit limits", "anchors": ["shepherd_core/shepherd_core/data_models/base/calibration.py:CalibrationHarvester.export_for_sysfs", "shepherd_core/shepherd_core/data_models/base/calibration.py:CalibrationEmulator.export_for_sysfs"]}
{"id": "C06", "title": "Calibration from exact measurements recovers the true line", "statement": "When all measured points lie on one straight line with positive slope, the calibration computed from them is exactly this line (in exact arithmetic); the quality gate then passes. For arbitrary points the quality value never exceeds 1, the fit is the unique least-squares optimum, and it is refused exactly if its slope is not positive or its squared error exceeds a thousandth of the variation. Every channel is calibrated with its own measurements.", "quantifier": "every set of at least two points with two different raw values", "why_tests_cant": "infinitely many measurement sets", "anchors": ["shepherd_core/shepherd_core/data_models/base/cal_measurement.py:meas_to_cal", "shepherd_core/shepherd_core/data_models/base/cal_measurement.py:CalMeasurementCape.to_cal"]}
{"id": "C07", "title": "Default calibration agrees with the hardware formulas", "statement": "The default calibration converts codes exactly like the hardware conversion functions, and converting a code to its physical value and back with the hardware functions gives the same code.", "quantifier": "every raw code in range, every channel", "why_tests_cant": "full code range times float rounding; tests check end points", "anchors": ["shepherd_core/shepherd_core/calibration_hw_def.py:*", "shepherd_core/shepherd_core/data_models/base/calibration.py:CalibrationPair.from_fn", "shepherd_core/shepherd_core/data_models/base/calibration.py:CalibrationHarvester", "shepherd_core/shepherd_core/data_models/base/calibration.py:CalibrationEmulator"]}
{"id": "C08", "title": "Storage capacitor voltage stays within its limits", "statement": "After every processed sample the emulated storage voltage is between 0 and the larger of 1 uV and the configured maximum, and right after each capacitor update it is at least 1 uV. Reading back the intermediate voltage never leaves this range.", "quantifier": "every valid converter configuration, every sequence of input voltages/currents and output currents of any length, every monotone rounding behaviour of the float unit", "why_tests_cant": "unbounded sequences of samples, arbitrary configurations", "anchors": ["shepherd_core/shepherd_core/vsource/virtual_converter_model.py:VirtualConverterModel"]}
{"id": "C09", "title": "Output voltage never exceeds target and storage", "statement": "After each update the output voltage is never negative, never above the storage voltage minus the buck drop (or zero), and with the buck converter enabled never above the configured output voltage.", "quantifier": "every configuration, every history of samples", "why_tests_cant": "unbounded histories", "anchors": ["shepherd_core/shepherd_core/vsource/virtual_converter_model.py:VirtualConverterModel.update_states_and_output"]}
{"id": "C10", "title": "The DAC code is always a valid 16-bit code and 0 when the output is off", "statement": "Every DAC code the converter returns is within 0..65535. When the output is disabled and the start-up phase is over the code and the voltage are 0.", "quantifier": "every configuration, calibration and history of samples", "why_tests_cant": "unbounded histories, arbitrary calibration", "anchors": ["shepherd_core/shepherd_core/vsource/virtual_converter_model.py:PruCalibration.conv_uV_to_dac_raw", "shepherd_core/shepherd_core/vsource/virtual_converter_model.py:VirtualConverterModel.update_states_and_output"]}
{"id": "C11", "title": "Output switching obeys the hysteresis and the check interval", "statement": "The output is switched on only when the storage is at or above the enable threshold, off only when it is below the disable threshold, both only in samples in which the thresholds are checked; the first sample always checks and from then on exactly every max(1,n)-th sample does. Between thresholds the output state is kept.", "quantifier": "every configuration and every history of samples of any length", "why_tests_cant": "schedule of checks relative to voltage history is unbounded", "anchors": ["shepherd_core/shepherd_core/vsource/virtual_converter_model.py:VirtualConverterModel.update_states_and_output"]}
{"id": "C12", "title": "Start-up phase: no drain for exactly n samples", "statement": "During the first n samples (n = configured start-up delay) the storage is not drained at all, and the output is driven as long as further start-up samples remain; from sample n+1 on the drain is computed normally and the start-up phase never comes back.", "quantifier": "every n, every history of samples", "why_tests_cant": "n and the history are unbounded", "anchors": ["shepherd_core/shepherd_core/vsource/virtual_converter_model.py:VirtualConverterModel.calc_out_power", "shepherd_core/shepherd_core/vsource/virtual_converter_model.py:VirtualConverterModel.update_states_and_output"]}
{"id": "C13", "title": "The converter never takes in more power than the source delivers", "statement": "The input power credited to the storage is never negative and never more than input voltage times input current of that sample.", "quantifier": "every configuration, state, input voltage and current", "why_tests_cant": "continuous domain, arbitrary state", "anchors": ["shepherd_core/shepherd_core/vsource/virtual_converter_model.py:VirtualConverterModel.calc_inp_power"]}
{"id": "C14", "title": "The drain on the storage covers the delivered power", "statement": "After start-up the power drawn from the storage is at least output voltage times output current (plus leakage), and never negative; conversion never yields more than it consumes.", "quantifier": "every configuration produced from a virtual source, every state and ADC code", "why_tests_cant": "continuous domain, arbitrary state", "anchors": ["shepherd_core/shepherd_core/vsource/virtual_converter_model.py:VirtualConverterModel.calc_out_power", "shepherd_core/shepherd_core/vsource/virtual_converter_model.py:VirtualConverterModel.get_output_inv_efficiency"]}
{"id": "C15", "title": "Power-good is consistent with the output", "statement": "The power-good flag is only raised while the output is enabled and the storage is at or above the power-good enable threshold, is dropped at the next evaluation when the storage is at or below the disable threshold, and is not signalled while the output is disabled.", "quantifier": "every configuration and every history of samples", "why_tests_cant": "unbounded histories", "anchors": ["shepherd_core/shepherd_core/vsource/virtual_converter_model.py:VirtualConverterModel.update_states_and_output", "shepherd_core/shepherd_core/vsource/virtual_converter_model.py:VirtualConverterModel.get_power_good"]}
{"id": "C16", "title": "Storage update follows the sign of the net power and conserves energy up to the step error", "statement": "With net positive (negative) power the storage voltage does not fall (rise) unless a limit is hit; in exact arithmetic and away from the limits the change of 0.5*C*V^2 per sample equals the net energy of the sample plus the known quadratic step error.", "quantifier": "every configuration, state and power pair", "why_tests_cant": "continuous domain", "anchors": ["shepherd_core/shepherd_core/vsource/virtual_converter_model.py:VirtualConverterModel.update_cap_storage"]}
{"id": "C17", "title": "Efficiency look-up never leaves the table", "statement": "For every input voltage, input current and output current (any non-negative number) the efficiency look-ups return an entry of the configured table: the voltage axis is linear, the current axis logarithmic, both saturating at the last column; no index error is possible.", "quantifier": "every table of the configured size and every operating point", "why_tests_cant": "continuous domain including values beyond the table", "anchors": ["shepherd_core/shepherd_core/vsource/virtual_converter_model.py:VirtualConverterModel.get_input_efficiency", "shepherd_core/shepherd_core/vsource/virtual_converter_model.py:VirtualConverterModel.get_output_inv_efficiency"]}
{"id": "C18", "title": "Noise residue compensation is bounded and conserves charge", "statement": "The converted ADC current is never negative, the residue stays within 0..60000 nA, and samples below zero (noise around zero with a negative offset) are compensated by later samples so that the mean stays unbiased.", "quantifier": "every sequence of ADC codes and every calibration", "why_tests_cant": "unbounded sequences", "anchors": ["shepherd_core/shepherd_core/vsource/virtual_converter_model.py:PruCalibration.conv_adc_raw_to_nA"]}
{"id": "C19", "title": "Constant-voltage harvesting returns measured points near the set-point", "statement": "Without extrapolation every returned voltage/current pair is either the initial (0,0) or one of the samples fed in so far (both components from the same sample) and when it was taken over its voltage was closer than four steps to the set-point. Returned currents are never negative.", "quantifier": "every harvester configuration and every ivcurve stream of any length", "why_tests_cant": "unbounded streams", "anchors": ["shepherd_core/shepherd_core/vsource/virtual_harvester_model.py:VirtualHarvesterModel.ivcurve_2_cv"]}
{"id": "C20", "title": "Optimal MPPT returns a fresh, in-range, locally best sample", "statement": "Every pair returned by mppt_opt is (0,0) or a sample that was fed in at most two windows ago and lies within the configured voltage limits; its power is at least the power of every in-range sample seen since it was recorded, including the current one.", "quantifier": "every configuration and stream of any length", "why_tests_cant": "unbounded streams, ageing logic over arbitrary windows", "anchors": ["shepherd_core/shepherd_core/vsource/virtual_harvester_model.py:VirtualHarvesterModel.ivcurve_2_mppt_opt"]}
{"id": "C21", "title": "Open-circuit MPPT keeps its set-point within limits", "statement": "The open-circuit estimate stays within the configured bounds and the set-point never exceeds setpoint-ratio times the estimate.", "quantifier": "every configuration and stream of any length", "why_tests_cant": "unbounded streams", "anchors": ["shepherd_core/shepherd_core/vsource/virtual_harvester_model.py:VirtualHarvesterModel.ivcurve_2_mppt_voc"]}
{"id": "C22", "title": "Perturb-and-observe keeps its set-point within limits", "statement": "After each adaptation the perturb-and-observe set-point lies within the configured voltage limits, and the perturbation step never becomes smaller than the configured step.", "quantifier": "every configuration and stream of any length", "why_tests_cant": "unbounded streams; exponential step growth", "anchors": ["shepherd_core/shepherd_core/vsource/virtual_harvester_model.py:VirtualHarvesterModel.ivcurve_2_mppt_po"]}
{"id": "C23", "title": "Harvester dispatch is total and neutral for samples", "statement": "With a window of at most one sample the harvester returns its input unchanged and keeps no state; otherwise exactly one algorithm, chosen by the configured algorithm number, processes the sample.", "quantifier": "every configuration, state and sample", "why_tests_cant": "all algorithm numbers", "anchors": ["shepherd_core/shepherd_core/vsource/virtual_harvester_model.py:VirtualHarvesterModel.ivcurve_sample"]}
{"id": "C24", "title": "Simulation results do not depend on buffering; energy counters are running sums", "statement": "Feeding a stream in one piece or cut into buffers of any size gives the same outputs and the same final state; the input/output energy counters are the sums of the per-sample powers (exactly while below 2^53, beyond that up to the rounding of the float additions), and never decrease.", "quantifier": "every stream and every way to cut it", "why_tests_cant": "all segmentations", "anchors": ["shepherd_core/shepherd_core/vsource/virtual_source_model.py:VirtualSourceModel.iterate_sampling", "shepherd_core/shepherd_core/vsource/virtual_source_simulation.py:simulate_source", "shepherd_core/shepherd_core/vsource/virtual_harvester_simulation.py:simulate_harvester"]}
{"id": "C25", "title": "Target models accept every voltage the virtual source can output", "statement": "For each target model, stepping it with any voltage the virtual source can output (including 0 while the output is off) returns a non-negative finite current and does not raise.", "quantifier": "every parameter set, every voltage >= 0, pwr-good in both states", "why_tests_cant": "reachable operating points depend on the whole run", "anchors": ["shepherd_core/shepherd_core/vsource/target_model.py"]}
{"id": "C26", "title": "Every valid virtual source can be translated for the PRU", "statement": "The translation of any virtual source that passes validation succeeds and every resulting register value fits its unsigned 8/32-bit word.", "quantifier": "every field combination within the documented ranges", "why_tests_cant": "product of continuous ranges", "anchors": ["shepherd_core/shepherd_core/data_models/content/virtual_source.py:VirtualSourceConfig", "shepherd_core/shepherd_core/data_models/content/virtual_source.py:ConverterPRUConfig.from_vsrc"]}
{"id": "C27", "title": "The converter mode word is decoded to the configured features", "statement": "The feature flags the converter model derives from the mode word are exactly those of the virtual source: storage iff a capacitor is configured, boost iff it is enabled and there is a storage, buck, logging of the intermediate voltage, feedback; feedback is only active for ivcurve input with storage and without boost. The same holds for the harvester mode word.", "quantifier": "every virtual source / harvester configuration", "why_tests_cant": "all flag combinations and capacitor values", "anchors": ["shepherd_core/shepherd_core/data_models/content/virtual_source.py:VirtualSourceConfig.calc_converter_mode", "shepherd_core/shepherd_core/data_models/content/virtual_harvester.py:VirtualHarvesterConfig.calc_hrv_mode", "shepherd_core/shepherd_core/vsource/virtual_converter_model.py:VirtualConverterModel.__init__", "shepherd_core/shepherd_core/vsource/virtual_harvester_model.py:VirtualHarvesterModel.__init__"]}
{"id": "C28", "title": "Translated thresholds keep their order", "statement": "If the user's output-enable threshold is not below the disable threshold, the same holds for the translated hysteresis (also after rounding to micro-volts), and switching on the output lowers the storage voltage by exactly the charge that fills the output capacitor, but not below the disable threshold.", "quantifier": "every valid virtual source", "why_tests_cant": "continuous ranges", "anchors": ["shepherd_core/shepherd_core/data_models/content/virtual_source.py:VirtualSourceConfig.calc_internal_states", "shepherd_core/shepherd_core/data_models/content/virtual_source.py:ConverterPRUConfig.from_vsrc"]}
{"id": "C29", "title": "Harvester timing and voltage parameters are consistent after translation", "statement": "For every valid harvester the translated measuring duration is at most the interval, both are at least the sampling time of the front-end, min <= set-point <= max for voltages, and all register values fit 32 bit.", "quantifier": "every valid harvester configuration with any front-end harvester", "why_tests_cant": "product of continuous ranges", "anchors": ["shepherd_core/shepherd_core/data_models/content/virtual_harvester.py:VirtualHarvesterConfig", "shepherd_core/shepherd_core/data_models/content/virtual_harvester.py:HarvesterPRUConfig.from_vhrv"]}
{"id": "C30", "title": "Invalid virtual harvester settings are rejected with a validation error", "statement": "A voltage order violation, or an unsuitable dtype, is rejected with a ValueError; no field combination inside the declared ranges makes validation fail with another exception.", "quantifier": "every raw field combination within the declared ranges", "why_tests_cant": "product of ranges", "anchors": ["shepherd_core/shepherd_core/data_models/content/virtual_harvester.py:VirtualHarvesterConfig.query_database", "shepherd_core/shepherd_core/data_models/content/virtual_harvester.py:VirtualHarvesterConfig.post_validation"]}
{"id": "C31", "title": "Time, voltage and current always have the same number of samples; appends are concatenation", "statement": "After any sequence of raw/SI appends the three datasets have equal length and equal the concatenation, in order, of the appended data, each append cut to its shortest array.", "quantifier": "every sequence of appends with arrays of any (also different) lengths", "why_tests_cant": "unbounded histories", "anchors": ["shepherd_core/shepherd_core/writer.py:Writer.append_iv_data_raw", "shepherd_core/shepherd_core/writer.py:Writer.append_iv_data_si"]}
{"id": "C32", "title": "An interrupted append never harms earlier samples", "statement": "If the process stops between any two dataset operations of an append, all samples of earlier appends are still there, unchanged and in place.", "quantifier": "every history, every append and every crash point inside it", "why_tests_cant": "crash points", "anchors": ["shepherd_core/shepherd_core/writer.py:Writer.append_iv_data_raw"]}
{"id": "C33", "title": "Closing a recording only cuts an incomplete last buffer", "statement": "Closing a 100 kHz recording keeps the longest prefix that is a multiple of the 10000-sample buffer, loses less than one buffer, keeps all three datasets equally long; closing again (after re-opening) changes nothing more. Recordings with other sample rates are not touched.", "quantifier": "every file length and content", "why_tests_cant": "all sizes; float division in the code", "anchors": ["shepherd_core/shepherd_core/writer.py:Writer._align", "shepherd_core/shepherd_core/writer.py:Writer.__exit__"]}
{"id": "C34", "title": "Reading buffers returns the stored data in order without gaps or repeats", "statement": "The concatenation of all buffers returned for a range equals the stored samples of this range, for any buffer size; every buffer has exactly the requested size; raw reading returns stored values unchanged.", "quantifier": "every file content, buffer size, start and end", "why_tests_cant": "all sizes", "anchors": ["shepherd_core/shepherd_core/reader.py:Reader.read_buffers"]}
{"id": "C35", "title": "Samples appended with a scalar timestamp are spaced by the sampling interval", "statement": "When data is appended with a single start timestamp, the stored timestamps start there and are spaced by exactly 10 us, no matter whether the file was just created or re-opened for appending.", "quantifier": "every history of appends, re-opens and metadata queries", "why_tests_cant": "histories with re-opening", "anchors": ["shepherd_core/shepherd_core/writer.py:Writer.append_iv_data_raw", "shepherd_core/shepherd_core/reader.py:Reader._refresh_file_stats"]}
{"id": "C36", "title": "Files opened or produced by the writer are valid", "statement": "Whenever the writer accepts its arguments, the file it leaves behind passes the reader's validity check (mode, datatype, window, calibration attributes, equal length).", "quantifier": "every combination of mode, datatype, window, calibration; new or existing file; any sequence of appends", "why_tests_cant": "all combinations and histories", "anchors": ["shepherd_core/shepherd_core/writer.py:Writer.__init__", "shepherd_core/shepherd_core/reader.py:Reader.is_valid"]}
{"id": "C37", "title": "Metadata reads back as stored", "statement": "Mode, datatype, window size, calibration, host name and configuration stored by the writer are returned unchanged by the reader; storing one does not affect the others.", "quantifier": "every value and order of store operations", "why_tests_cant": "all histories", "anchors": ["shepherd_core/shepherd_core/writer.py:Writer.store_config", "shepherd_core/shepherd_core/writer.py:Writer.store_hostname", "shepherd_core/shepherd_core/reader.py:Reader.get_config", "shepherd_core/shepherd_core/reader.py:Reader.get_hostname", "shepherd_core/shepherd_core/reader.py:Reader.get_mode", "shepherd_core/shepherd_core/reader.py:Reader.get_datatype", "shepherd_core/shepherd_core/reader.py:Reader.get_window_samples", "shepherd_core/shepherd_core/reader.py:Reader.get_calibration_data"]}
{"id": "C38", "title": "Opening a writer never destroys an existing file by default", "statement": "Unless overwriting or modifying is requested, the writer picks a path that does not exist yet, for every directory content; the search terminates, keeps directory and suffix, and picks the smallest free counter.", "quantifier": "every set of existing files", "why_tests_cant": "unbounded directory contents", "anchors": ["shepherd_core/shepherd_core/writer.py:unique_path", "shepherd_core/shepherd_core/writer.py:Writer.__init__"]}
{"id": "C39", "title": "Recorded energy is the sum of V*I*dt, independent of chunking", "statement": "The reported energy equals the sum of voltage times current times the sampling interval over all samples, no matter how the data is cut into chunks.", "quantifier": "every recording and chunk size", "why_tests_cant": "all contents and sizes", "anchors": ["shepherd_core/shepherd_core/reader.py:Reader.energy", "shepherd_core/shepherd_core/reader.py:Reader._refresh_file_stats"]}
{"id": "C40", "title": "Dataset statistics describe the whole dataset", "statement": "Minimum, maximum, mean and standard deviation reported for a dataset are those of the whole dataset, for every dataset length and chunk size.", "quantifier": "every dataset and chunk size", "why_tests_cant": "all contents and sizes", "anchors": ["shepherd_core/shepherd_core/reader.py:Reader._dset_statistics"]}
{"id": "C41", "title": "Time-jump check finds every irregular buffer start", "statement": "The time-difference check succeeds exactly when all buffers of the recording start one buffer duration after the previous one, for recordings of any length.", "quantifier": "every recording and chunk size", "why_tests_cant": "all contents and sizes", "anchors": ["shepherd_core/shepherd_core/reader.py:Reader._data_timediffs", "shepherd_core/shepherd_core/reader.py:Reader.check_timediffs"]}
{"id": "C42", "title": "Error counting in logs counts exactly the entries at or above the level", "statement": "The number of reported errors equals the number of log entries with at least the given level; absent groups count as zero.", "quantifier": "every log content and level", "why_tests_cant": "all contents", "anchors": ["shepherd_core/shepherd_core/reader.py:Reader.count_errors_in_log"]}
{"id": "C43", "title": "The reported voltage step is the smallest voltage increment in volts", "statement": "The voltage step returned for an ivcurve recording without configuration is the smallest positive increment between neighbouring voltages, in volts according to the calibration.", "quantifier": "every recording", "why_tests_cant": "all contents", "anchors": ["shepherd_core/shepherd_core/reader.py:Reader.get_voltage_step"]}
{"id": "C44", "title": "Filtering redundant GPIO states loses no information", "statement": "The filtered waveform determines the state at every original time stamp; the first entry is kept, neighbouring kept entries differ, nothing is invented, filtering again changes nothing.", "quantifier": "every event list of every length", "why_tests_cant": "all sequences", "anchors": ["shepherd_core/shepherd_core/reader.py:Reader.get_filter_for_redundant_states", "shepherd_core/shepherd_core/reader.py:Reader.gpio_to_waveforms"]}
{"id": "C45", "title": "SI data written and read back agrees within resolution", "statement": "Appending SI samples and reading them back as SI returns voltage and current within half a calibration step each (for non-negative values above the offset) and timestamps within half a nano-second, in order.", "quantifier": "every SI sample sequence and calibration", "why_tests_cant": "continuous domain, unbounded length", "anchors": ["shepherd_core/shepherd_core/writer.py:Writer.append_iv_data_si", "shepherd_core/shepherd_core/reader.py:Reader.read_buffers"]}
{"id": "C46", "title": "UART text is decoded to the bytes that were sent", "statement": "Decoding the ideal 8N1 waveform of a byte sequence gives exactly these bytes in order.", "quantifier": "every byte sequence of any length with any idle gaps", "why_tests_cant": "unbounded messages", "anchors": ["shepherd_core/shepherd_core/decoder_waveform/uart.py:Uart.get_symbols"]}
{"id": "C47", "title": "UART decoding tolerates jitter and arbitrary idle gaps", "statement": "The decoding result does not change if every edge distance deviates by less than a tenth of a bit time and idle phases between bytes have arbitrary length of at least one stop bit. This also holds for inverted lines, if the inversion is given or can be seen from a long pause.", "quantifier": "every message, every jitter pattern within the limit, all gaps", "why_tests_cant": "continuous domain, unbounded messages", "anchors": ["shepherd_core/shepherd_core/decoder_waveform/uart.py:Uart.get_symbols"]}
{"id": "C48", "title": "Splitting UART symbols into lines loses nothing", "statement": "The concatenation of the lines (or the text) returned by the decoder equals the sequence of decoded symbols.", "quantifier": "every symbol sequence", "why_tests_cant": "unbounded sequences", "anchors": ["shepherd_core/shepherd_core/decoder_waveform/uart.py:Uart.get_lines", "shepherd_core/shepherd_core/decoder_waveform/uart.py:Uart.get_text"]}
{"id": "C49", "title": "Fixture lookup returns the element inserted last, ignoring letter case", "statement": "After any sequence of insertions, looking up a name (in any letter case) or an id returns the data inserted last under it, unknown keys raise, and lookup by name and by id agree.", "quantifier": "every sequence of insertions and every key", "why_tests_cant": "all histories", "anchors": ["shepherd_core/shepherd_core/testbed_client/fixtures.py:Fixture.insert", "shepherd_core/shepherd_core/testbed_client/fixtures.py:Fixture.__getitem__", "shepherd_core/shepherd_core/testbed_client/fixtures.py:Fixture.query_id", "shepherd_core/shepherd_core/testbed_client/fixtures.py:Fixture.query_name"]}
{"id": "C50", "title": "Inheritance: own values always win, nearest ancestor next", "statement": "For every element that inherits, each field of the result is the one given explicitly, else that of the nearest ancestor defining it; the inherit link itself is removed, and the name stays the given one.", "quantifier": "every fixture data base and inheritance chain of any depth", "why_tests_cant": "unbounded chains", "anchors": ["shepherd_core/shepherd_core/testbed_client/fixtures.py:Fixture.inheritance"]}
{"id": "C51", "title": "Inheritance always terminates; circular references are reported", "statement": "Resolving inheritance terminates for every data base; if the chain of references is circular a ValueError is raised.", "quantifier": "every data base", "why_tests_cant": "unbounded cycles", "anchors": ["shepherd_core/shepherd_core/testbed_client/fixtures.py:Fixture.inheritance"]}
{"id": "C52", "title": "A valid experiment uses each target, observer and custom ID at most once", "statement": "In every experiment that passes validation no target id appears twice, no two targets share an observer, custom ids are pairwise different, and looking up the target config of any used target finds exactly the one that lists it.", "quantifier": "every list of target configs", "why_tests_cant": "all combinations", "anchors": ["shepherd_core/shepherd_core/data_models/experiment/experiment.py", "shepherd_core/shepherd_core/data_models/experiment/target_config.py"]}
{"id": "C53", "title": "Node IDs flashed to the targets of one experiment are pairwise different", "statement": "The node ids that the firmware modification tasks of a valid experiment write are pairwise different.", "quantifier": "every valid experiment and testbed", "why_tests_cant": "all id combinations", "anchors": ["shepherd_core/shepherd_core/data_models/task/firmware_mod.py:FirmwareModTask.from_xp", "shepherd_core/shepherd_core/data_models/testbed/target.py", "shepherd_core/shepherd_core/data_models/experiment/experiment.py:Experiment._validate_targets"]}
{"id": "C54", "title": "Exactly one task set per target, in the right order", "statement": "The task sets created from an experiment correspond one-to-one and in order to its target ids; within a set modification precedes programming which precedes emulation, programming of a port exists iff firmware for it is configured.", "quantifier": "every valid experiment", "why_tests_cant": "all combinations", "anchors": ["shepherd_core/shepherd_core/data_models/task/testbed_tasks.py", "shepherd_core/shepherd_core/data_models/task/observer_tasks.py"]}
{"id": "C55", "title": "Result files of an experiment never collide", "statement": "The output paths reported for an experiment contain one entry per observer with an emulation output, and no two entries point to the same file.", "quantifier": "every valid experiment and testbed", "why_tests_cant": "all combinations", "anchors": ["shepherd_core/shepherd_core/data_models/task/testbed_tasks.py:TestbedTasks.get_output_paths", "shepherd_core/shepherd_core/data_models/task/emulation.py:EmulationTask.from_xp"]}
{"id": "C56", "title": "Firmware always matches the MCU it is meant for", "statement": "In a valid target config the firmware for port n is built for exactly the MCU on port n of every listed target; there is never firmware for a port without an MCU.", "quantifier": "every target config", "why_tests_cant": "all combinations", "anchors": ["shepherd_core/shepherd_core/data_models/experiment/target_config.py:TargetConfig.post_validation"]}
{"id": "C57", "title": "The testbed finds the one observer of every active target", "statement": "For every valid testbed and target id: looking up the observer returns an active observer with an active cape that carries this active target, raises a ValueError if none exists, and never raises anything else.", "quantifier": "every testbed", "why_tests_cant": "all topologies", "anchors": ["shepherd_core/shepherd_core/data_models/testbed/testbed.py:Testbed.get_observer", "shepherd_core/shepherd_core/data_models/testbed/observer.py"]}
{"id": "C58", "title": "GPIO actuation produces exactly the requested number of events", "statement": "A GPIO event specification with count n yields exactly n event times, starting at the delay and spaced by the period.", "quantifier": "every delay, period and count", "why_tests_cant": "float step accumulation over continuous ranges", "anchors": ["shepherd_core/shepherd_core/data_models/experiment/observer_features.py:GpioEvent.get_events"]}
{"id": "C59", "title": "Writing a model to file and reading it back preserves durations", "statement": "Time spans in configuration files written by the library are read back unchanged.", "quantifier": "every time span", "why_tests_cant": "all micro-second values", "anchors": ["shepherd_core/shepherd_core/data_models/base/shepherd.py:time2int"]}
{"id": "C60", "title": "Patching a firmware symbol changes this symbol and nothing else", "statement": "After writing a symbol's value, reading the symbol returns the value; all other bytes of the image are unchanged; writing twice is the same as writing the last value; the original value is reported correctly.", "quantifier": "every image, symbol address, endianness and value that fits", "why_tests_cant": "all images", "anchors": ["shepherd_core/shepherd_core/fw_tools/patcher.py:modify_symbol_value", "shepherd_core/shepherd_core/fw_tools/patcher.py:read_symbol"]}
{"id": "C61", "title": "Embedded firmware decodes to the original file", "statement": "Embedding a firmware file (compress, base64) and extracting it gives back the identical bytes; the stored hash accepts exactly unmodified data up to hash collisions.", "quantifier": "every byte string of any length, every lossless compressor", "why_tests_cant": "unbounded data", "anchors": ["shepherd_core/shepherd_core/fw_tools/converter.py:file_to_base64", "shepherd_core/shepherd_core/fw_tools/converter.py:base64_to_file", "shepherd_core/shepherd_core/data_models/content/firmware.py"]}
{"id": "C62", "title": "Hex files for MSP430 with a wild reset vector are rejected", "statement": "A hex image is accepted as MSP430 firmware only if its reset vector points into FRAM.", "quantifier": "every hex image", "why_tests_cant": "all images", "anchors": ["shepherd_core/shepherd_core/fw_tools/validation.py:is_hex_msp430"]}
{"id": "C63", "title": "Downsampling keeps an equidistant grid", "statement": "Downsampling by factor n yields floor(len/n) samples; for time stamps sample i of the result is sample i*n of the selected range, no matter how the data is cut into blocks.", "quantifier": "every dataset, range, factor and block size", "why_tests_cant": "all sizes", "anchors": ["shepherd_data/shepherd_data/reader.py:Reader.downsample"]}
{"id": "C64", "title": "Cutting never destroys or exceeds the source", "statement": "Cutting/downsampling to a file only accepts ranges inside the recording, never changes the source file, never overwrites an existing file, and yields exactly the selected samples in order.", "quantifier": "every recording, range and factor", "why_tests_cant": "all sizes", "anchors": ["shepherd_data/shepherd_data/reader.py:Reader.cut_and_downsample_to_file"]}
{"id": "C65", "title": "CSV export reports SI values", "statement": "Each value exported to CSV equals raw value times gain plus offset of its dataset; datasets without calibration are exported unscaled. There is one row for each time stamp, existing files are not touched and groups without descriptions are refused before a file is made.", "quantifier": "every dataset content", "why_tests_cant": "all contents", "anchors": ["shepherd_data/shepherd_data/reader.py:Reader.save_csv"]}
{"id": "C66", "title": "The optimal tracker finds the maximum power point of the curve", "statement": "For every IV-curve the reported operating point lies on the curve grid and no grid point has more power; the open-circuit voltage of the model is the zero of the current and currents are never negative.", "quantifier": "every coefficient set and grid", "why_tests_cant": "continuous domain", "anchors": ["shepherd_data/shepherd_data/mppt.py:OptimalTracker.process", "shepherd_data/shepherd_data/mppt.py:iv_model", "shepherd_data/shepherd_data/ivonne.py:get_voc"]}
{"id": "C67", "title": "Validation on the command line fails if any file is invalid", "statement": "The validate command exits with 0 exactly if every selected file could be read and is valid.", "quantifier": "every list of files", "why_tests_cant": "all lists", "anchors": ["shepherd_data/shepherd_data/cli.py:validate"]}
{"id": "C68", "title": "Files processed in one command do not influence each other", "statement": "Downsampling several files in one command gives for each file the same result as processing it alone.", "quantifier": "every list of files with any sample rates", "why_tests_cant": "all lists and orders", "anchors": ["shepherd_data/shepherd_data/cli.py:downsample"]}
{"id": "C69", "title": "Reading the current out of the storage never fails", "statement": "After any non-empty sequence of samples the current drawn from the storage (drain power divided by storage voltage) can be read without an exception.", "quantifier": "every valid configuration and every history of samples", "why_tests_cant": "unbounded histories", "anchors": ["shepherd_core/shepherd_core/vsource/virtual_converter_model.py:VirtualConverterModel.get_I_mid_out_nA"]}
{"id": "C70", "title": "Registers hold the configured quantities", "statement": "Every register of a translated virtual source or harvester holds the configured quantity in the unit of the PRU (\u00b5V, nA, samples, 1/256, 1/16), off by at most half a unit (plus one millionth; one unit for the capacitor constant, which is truncated), or the documented saturation value; the efficiency tables entry by entry.", "quantifier": "every valid configuration", "why_tests_cant": "product of continuous ranges", "anchors": ["shepherd_core/shepherd_core/data_models/content/virtual_source.py:ConverterPRUConfig.from_vsrc", "shepherd_core/shepherd_core/data_models/content/virtual_harvester.py:HarvesterPRUConfig.from_vhrv"]}
{"id": "C71", "title": "A rejected open leaves an existing file as it was", "statement": "Opening an existing recording for modification with arguments that are rejected by an exception leaves every dataset and every metadata entry of the file as it was before.", "quantifier": "every existing file and every argument combination", "why_tests_cant": "product of file states and arguments", "anchors": ["shepherd_core/shepherd_core/writer.py:Writer.__init__"]}
{"id": "C72", "title": "Every valid experiment can be translated into tasks", "statement": "For every valid testbed and every experiment that is valid on it, the translation into tasks succeeds without an exception.", "quantifier": "every valid testbed and experiment, every state of the clock", "why_tests_cant": "product of all fields of all parts", "anchors": ["shepherd_core/shepherd_core/data_models/task/testbed_tasks.py:TestbedTasks.from_xp", "shepherd_core/shepherd_core/data_models/task/observer_tasks.py:ObserverTasks.from_xp"]}
{"id": "C73", "title": "A model written to a file is read back as it was", "statement": "For every configuration class and every instance, nested to any depth: reading the file written by the library gives an instance with the same values; the file of another class is refused.", "quantifier": "every class, every instance, every state of the default factories", "why_tests_cant": "unbounded nesting and values", "anchors": ["shepherd_core/shepherd_core/data_models/base/shepherd.py:ShpModel.to_file", "shepherd_core/shepherd_core/data_models/base/shepherd.py:ShpModel.from_file"]}
{"id": "C74", "title": "The exported log has one line for each entry", "statement": "Exporting a log writes exactly one line for each entry, in order, with the message of every dataset and the time stamp to the microsecond; unreadable elements are marked and do not affect the others; an existing log is never touched.", "quantifier": "every group of logs", "why_tests_cant": "unbounded logs and any damage", "anchors": ["shepherd_data/shepherd_data/reader.py:Reader.save_log"]}
{"id": "C75", "title": "Warnings shown are the first ones of the log", "statement": "Showing warnings of a recording's log shows the first entries at or above the level, in order and at most as many as asked for, and returns the number of all such entries.", "quantifier": "every log, level and limit", "why_tests_cant": "unbounded logs", "anchors": ["shepherd_data/shepherd_data/reader.py:Reader.warn_logs"]}
{"id": "C76", "title": "Up-sampled recordings have neither gaps nor overlaps", "statement": "A converter of IVonne recordings writes exactly one sample for every interval from the start up to the last row wanted, wherever the borders of the blocks are; an existing output is never changed.", "quantifier": "every length, duration, rate and block size", "why_tests_cant": "unbounded lengths and all alignments of blocks", "anchors": ["shepherd_data/shepherd_data/ivonne.py:Reader.convert_2_ivsamples", "shepherd_data/shepherd_data/ivonne.py:Reader.upsample_2_isc_voc"]}
{"id": "C77", "title": "Names of cut files tell requests apart", "statement": "The file made by cutting or down-sampling a recording is named after the recording, the marks (to the millisecond) and the factor, so that requests that differ get different files and only the whole recording in full resolution keeps its name.", "quantifier": "every recording, every pair of marks and factors", "why_tests_cant": "pairs of requests from infinite sets", "anchors": ["shepherd_data/shepherd_data/reader.py:Reader.cut_and_downsample_to_file"]}
{"id": "C78", "title": "Plots show the recording in physical units", "statement": "The data for a plot of a range consists of time, voltage and current of equal length that show the samples of the range in SI units (every k-th one for long ranges); short ranges are shown completely, ranges below five samples are skipped, pictures have a bounded number of points, and an existing picture is never overwritten.", "quantifier": "every recording, range and calibration", "why_tests_cant": "all lengths, all ranges", "anchors": ["shepherd_data/shepherd_data/reader.py:Reader.generate_plot_data", "shepherd_data/shepherd_data/reader.py:Reader.plot_to_file"]}
{"id": "C79", "title": "The baud rate of a line is found", "statement": "Without a given baud rate the decoder detects the rate of the line from the distances of the edges, up to the jitter of the edges, and decodes the message as with the given rate.", "quantifier": "every message with enough single bit times, every rate up to 1 GBaud, every jitter pattern within the limit", "why_tests_cant": "continuous domain, unbounded messages", "anchors": ["shepherd_core/shepherd_core/decoder_waveform/uart.py:Uart.detect_baud_rate", "shepherd_core/shepherd_core/decoder_waveform/uart.py:Uart.__init__"]}
{"id": "C80", "title": "Text sent by UART is recovered from a GPIO trace", "statement": "If a recording holds a trace of the pins, one of which shows lines of text sent by UART, then extracting the UART gives exactly these lines, each with the time of its first byte; the command writes them to a log for each recording, never touches an existing log, and one recording does not affect the others.", "quantifier": "every text, baud rate, jitter, start time and activity of other pins; every list of files", "why_tests_cant": "unbounded texts, continuous times", "anchors": ["shepherd_core/shepherd_core/reader.py:Reader.gpio_to_uart", "shepherd_core/shepherd_core/reader.py:Reader.gpio_to_waveforms", "shepherd_data/shepherd_data/cli.py:extract_uart"]}
{"id": "C81", "title": "Every pin of a GPIO trace can be exported", "statement": "For each pin of the description there is one waveform under its name with the state of the pin at every time; the command writes each to a file with times in seconds and the chosen separator, never touches an existing file, and one recording does not affect the others. A pin is found by its name.", "quantifier": "every trace, description and list of files", "why_tests_cant": "unbounded traces", "anchors": ["shepherd_core/shepherd_core/reader.py:Reader.gpio_to_waveforms", "shepherd_core/shepherd_core/reader.py:Reader.waveform_to_csv", "shepherd_core/shepherd_core/reader.py:Reader.get_gpio_pin_num", "shepherd_data/shepherd_data/cli.py:extract_gpio"]}
{"id": "C82", "title": "The inventory names differing devices", "statement": "Collecting the inventory of a machine works on every machine and reports its packages and interfaces; for every list of collected inventories the warnings name the devices that run too long, those with a late clock, and for each package and property the groups of hosts that differ.", "quantifier": "every machine, every list of inventories", "why_tests_cant": "any number of devices, any combination of missing packages", "anchors": ["shepherd_core/shepherd_core/inventory/__init__.py:Inventory.collect", "shepherd_core/shepherd_core/inventory/__init__.py:InventoryList.warn", "shepherd_core/shepherd_core/inventory/python.py:PythonInventory.collect", "shepherd_core/shepherd_core/inventory/system.py:SystemInventory.collect"]}
{"id": "C83", "title": "The table of inventories has one aligned row per device", "statement": "The CSV file of a list of inventories has a header and one row per device, in order; the cells of each row, split at the separator, are the values of the columns of the header.", "quantifier": "every list of inventories", "why_tests_cant": "unbounded lists with arbitrary texts", "anchors": ["shepherd_core/shepherd_core/inventory/__init__.py:InventoryList.to_csv"]}
{"id": "C84", "title": "Times are shown and read as local time", "statement": "A time stamp is shown as the wall clock time of the machine at that moment, differences are kept; a start time given as number, with or without time zone means the moment it names; the age of a file does not depend on the time zone.", "quantifier": "every zone with daylight saving, every moment", "why_tests_cant": "all moments, both sides of the switch of the clock", "anchors": ["shepherd_core/shepherd_core/data_models/base/timezone.py:local_tz", "shepherd_core/shepherd_core/data_models/base/timezone.py:local_now", "shepherd_core/shepherd_core/data_models/task/emulation.py:EmulationTask.pre_correction", "shepherd_core/shepherd_core/data_models/task/harvest.py:HarvestTask.pre_correction", "shepherd_core/shepherd_core/testbed_client/fixtures.py:file_older_than", "shepherd_data/shepherd_data/reader.py:Reader.save_csv"]}
{"id": "C85", "title": "Clients ask the right server as the right user", "statement": "After connecting to a server, models are looked up there with the token of the user; owner and group that are not given are those of the user and all other values are kept; nothing is requested with a missing token file.", "quantifier": "every program (sequence of imports and clients), every answer of the server, every token", "why_tests_cant": "unbounded sequences, any server", "anchors": ["shepherd_core/shepherd_core/testbed_client/client_web.py:WebClient.connect", "shepherd_core/shepherd_core/testbed_client/client_web.py:WebClient.fill_in_user_data", "shepherd_core/shepherd_core/testbed_client/client_abc_fix.py:AbcClient", "shepherd_core/shepherd_core/testbed_client/__init__.py"]}
{"id": "C86", "title": "Fixtures are read from the files given", "statement": "The collection of fixtures holds for each data type exactly the models of this type in the files of the given path, the last of equal ones; unknown types are refused; in every history of use, changes of the files are seen.", "quantifier": "every set of files, every history of collections, cache ages and paths", "why_tests_cant": "unbounded files and histories", "anchors": ["shepherd_core/shepherd_core/testbed_client/fixtures.py:Fixtures", "shepherd_core/shepherd_core/testbed_client/fixtures.py:file_older_than"]}
{"id": "C87", "title": "Observers get exactly their own tasks, in order and in time", "statement": "From a task, the tasks of one observer or those of a testbed, given as model or as file, an observer extracts exactly the tasks made for it, in the order changes of firmware, programming, emulation or harvest; what cannot be done or should have begun before is refused with a ValueError, and everything made from a valid experiment is accepted until its start.", "quantifier": "every task and set of tasks, every observer, every clock, every valid experiment", "why_tests_cant": "unbounded sets of tasks and all moments", "anchors": ["shepherd_core/shepherd_core/data_models/task/__init__.py:prepare_task", "shepherd_core/shepherd_core/data_models/task/__init__.py:extract_tasks", "shepherd_core/shepherd_core/data_models/task/observer_tasks.py:ObserverTasks.get_tasks", "shepherd_core/shepherd_core/data_models/task/testbed_tasks.py:TestbedTasks", "shepherd_core/shepherd_core/data_models/task/programming.py:ProgrammingTask.post_validation"]}
{"id": "C88", "title": "Accepted settings of traces, pins, actuation and emulation can be carried out", "statement": "Settings of power and pin traces, pins, pin events and emulation tasks are accepted exactly if each value is in its documented limits, the pins exist and may be switched, and something is recorded; everything else is refused with a ValueError.", "quantifier": "every combination of settings", "why_tests_cant": "the product of all fields is infinite", "anchors": ["shepherd_core/shepherd_core/data_models/experiment/observer_features.py:PowerTracing", "shepherd_core/shepherd_core/data_models/experiment/observer_features.py:GpioTracing", "shepherd_core/shepherd_core/data_models/experiment/observer_features.py:GpioActuation", "shepherd_core/shepherd_core/data_models/testbed/gpio.py:GPIO", "shepherd_core/shepherd_core/data_models/task/emulation.py:EmulationTask.post_validation"]}
{"id": "C89", "title": "Verbosity is the highest asked for", "statement": "After any sequence of calls the verbosity is the highest one asked for, within its limits, and asking for more never hides messages.", "quantifier": "every sequence of calls", "why_tests_cant": "unbounded sequences", "anchors": ["shepherd_core/shepherd_core/logger.py:increase_verbose_level", "shepherd_core/shepherd_core/logger.py:set_log_verbose_level"]}
{"id": "C90", "title": "Visible contents are described and named for files", "statement": "Content is accepted exactly if its texts are in their limits and, when visible to others, it has a description; accepted names can be used as names of files.", "quantifier": "every content", "why_tests_cant": "all texts", "anchors": ["shepherd_core/shepherd_core/data_models/base/content.py:ContentModel", "shepherd_core/shepherd_core/data_models/base/content.py:id_default"]}
{"id": "C91", "title": "Metadata shows the whole file", "statement": "The metadata of a file has at the path of every node an entry for each attribute with its value, one for each member, the facts the reader computes, and nothing else; exporting it never changes an existing export and leaves nothing behind if it fails.", "quantifier": "every tree of groups, datasets and attributes", "why_tests_cant": "trees are unbounded", "anchors": ["shepherd_core/shepherd_core/reader.py:Reader.get_metadata", "shepherd_core/shepherd_core/reader.py:Reader.save_metadata", "shepherd_core/shepherd_core/reader.py:Reader._dset_statistics"]}
{"id": "C92", "title": "Commands treat each file by itself", "statement": "On several files the commands extract, extract-meta and plot do for each file what they do for it alone, skip files that are no recordings, and never change a recording or export that exists; extract gives one row for each sample of the reduced recording, with its time, current and voltage, and a multi-plot shows the traces of all recordings that can be plotted, in order.", "quantifier": "every list of files, every state of the directory, every range and factor", "why_tests_cant": "unbounded sets of files and all their interactions", "anchors": ["shepherd_data/shepherd_data/cli.py:extract", "shepherd_data/shepherd_data/cli.py:extract_meta", "shepherd_data/shepherd_data/cli.py:plot", "shepherd_data/shepherd_data/reader.py:Reader.plot_to_file", "shepherd_data/shepherd_data/reader.py:Reader.multiplot_to_file", "shepherd_data/shepherd_data/reader.py:Reader.save_csv"]}
{"id": "C93", "title": "Firmware made from a file fits the file", "statement": "from_firmware accepts a file exactly if it is an image for one of the MCUs of the testbed, and gives the firmware the MCU of the image, the name and the hash of the file; extracting it to a path or into a directory writes the bytes of the file and nothing else, and a task made from it carries the same data.", "quantifier": "every file, every set of arguments, every state of the file system", "why_tests_cant": "contents of files are unbounded, arguments combine freely", "anchors": ["shepherd_core/shepherd_core/data_models/content/firmware.py:Firmware.from_firmware", "shepherd_core/shepherd_core/data_models/content/firmware.py:Firmware.extract_firmware", "shepherd_core/shepherd_core/data_models/task/firmware_mod.py:FirmwareModTask.from_firmware", "shepherd_core/shepherd_core/fw_tools/patcher.py:read_arch"]}
{"id": "C94", "title": "The kind of a firmware file is found by its content", "statement": "determine_type and determine_arch name the format and the MCU of a file by its content alone and agree with the firmware made from the same file; firmware_to_hex returns a hex file with the image of the program and changes no other file.", "quantifier": "every file and file system", "why_tests_cant": "contents of files are unbounded", "anchors": ["shepherd_core/shepherd_core/fw_tools/validation.py:determine_type", "shepherd_core/shepherd_core/fw_tools/validation.py:determine_arch", "shepherd_core/shepherd_core/fw_tools/converter.py:firmware_to_hex", "shepherd_core/shepherd_core/fw_tools/converter_elf.py:elf_to_hex"]}
{"id": "C95", "title": "The testbed that comes with the library can be used", "statement": "Testbed() without arguments gives a valid testbed; get_observer finds exactly the targets 1 to 11 and 1001, each on its own observer except 1 and 1001 that share one, and raises a ValueError for every other id. An experiment is valid exactly if its targets are among these, none twice and not 1 with 1001, with firmware for the nRF52 (and for the MSP430 as second), fitting ids and a duration that is not negative. Tasks made from it write distinct node ids and distinct output files, and every observer gets its own tasks.", "quantifier": "every target id and every experiment on the shipped testbed", "why_tests_cant": "experiments combine targets, configs, ids and firmware freely; tests try a few", "anchors": ["shepherd_core/shepherd_core/data_models/testbed/testbed.py:Testbed", "shepherd_core/shepherd_core/data_models/testbed/target.py:Target", "shepherd_core/shepherd_core/data_models/testbed/observer.py:Observer", "shepherd_core/shepherd_core/data_models/experiment/experiment.py:Experiment", "shepherd_core/shepherd_core/data_models/testbed/testbed_fixture.yaml"]}
{"id": "C96", "title": "The virtual sources and harvesters that come with the library can be used", "statement": "Every name of a virtual source or harvester in the shipped files can be loaded, regardless of upper or lower case, and gives a valid config with exactly the listed settings, inherited from its parent where not listed; every other name or id raises. Every shipped harvester of samples can be used in emulation and every one but 'direct' for recording. Every shipped source runs on every sequence of inputs without exception, its storage stays between 0 V and its maximum, the output never exceeds the storage (nor 2.2 V behind the buck converter), power good implies that the output is on, and the storage is never credited more power than was offered.", "quantifier": "every shipped config, name, id, calibration, kind of input and sequence of samples", "why_tests_cant": "a run of a source has unbounded length and free inputs; tests take short ramps with one or two configs", "anchors": ["shepherd_core/shepherd_core/data_models/content/virtual_source.py:VirtualSourceConfig", "shepherd_core/shepherd_core/data_models/content/virtual_harvester.py:VirtualHarvesterConfig", "shepherd_core/shepherd_core/data_models/content/virtual_source_fixture.yaml", "shepherd_core/shepherd_core/data_models/content/virtual_harvester_fixture.yaml", "shepherd_core/shepherd_core/vsource/virtual_converter_model.py:VirtualConverterModel"]}
{"id": "C97", "title": "Perturb-and-observe follows the power", "statement": "At every adaptation the perturb-and-observe tracker compares the power with that of the adaptation before: if it grew, the set-point goes on in the same direction, twice as far if it had grown before as well; if it did not grow, it turns round with the configured step; without any power it goes down by four steps. With a constant source it therefore comes back to the voltage with the most power.", "quantifier": "every configuration and stream of any length, every pair of adaptations that follow each other", "why_tests_cant": "adaptations depend on the whole history; a tracker that stays at a limit looks right in short tests", "anchors": ["shepherd_core/shepherd_core/vsource/virtual_harvester_model.py:VirtualHarvesterModel.ivcurve_2_mppt_po"]}
{"id": "C98", "title": "Repairing recordings", "statement": "The script that repairs recordings leaves every recording of a directory valid, with equally long datasets that hold the samples they held, up to whole buffers; it keeps known labels, present windows, host names, calibrations and all other attributes, and does not touch good recordings.", "quantifier": "every file (any samples, lengths, labels and attributes), every point an append was interrupted at, every directory", "why_tests_cant": "defects come in combinations, and each step reopens the file with a writer that checks everything again", "anchors": ["shepherd_data/examples/repair_recordings.py", "shepherd_core/shepherd_core/writer.py:Writer", "shepherd_core/shepherd_core/reader.py:Reader"]}
{"id": "C99", "title": "Generated recordings and static environments", "statement": "The scripts that generate recordings produce valid files with exactly 100000 samples per second of every repetition, timestamps exactly 10 us apart without gap or overlap between repetitions, the requested constant or linear ramp within half a step of the calibration, nothing lost on close; the metadata state the true duration and energy, also if an earlier run was interrupted.", "quantifier": "every duration and number of repetitions up to 500000 s, every pair of start and end values, every rounding of floats, every point of interruption", "why_tests_cant": "timestamps come from a sum and product of rounded floats, errors grow with length; generating long recordings takes hours", "anchors": ["extra/gen_energy_envs.py", "shepherd_core/examples/eenv_generator.py", "shepherd_data/examples/generate_sawtooth.py", "shepherd_core/shepherd_core/writer.py:Writer.append_iv_data_si", "shepherd_core/shepherd_core/data_models/content/energy_environment.py:EnergyEnvironment"]}
{"id": "C100", "title": "Priming the data base of the library", "statement": "The script that primes the data base writes one fixture for every firmware and energy environment found, in order; a path below a directory 'content' becomes the path below /var/shepherd/content/ with the same remainder, different files of one directory stay different, all other fields are kept, priming again changes nothing, and a failure leaves the data base as it was.", "quantifier": "every list of files with every content, every path, every directory", "why_tests_cant": "paths of a developer's machine and of the server cannot both be present in a test; the first of several directories with this name counts", "anchors": ["extra/prime_database.py", "extra/prime_database.py:load_model", "shepherd_core/shepherd_core/data_models/content/firmware.py:Firmware", "shepherd_core/shepherd_core/data_models/content/energy_environment.py:EnergyEnvironment"]}
{"id": "C101", "title": "Models as mappings and their fingerprint", "statement": "Every model behaves as a read-only mapping over its fields: keys() are the fields in order, 'in' agrees with keys(), model[key] and items() give the values; get_hash() stands for all fields: unless SHA3 collides, two models have the same hash exactly if all fields, at every depth, are the same.", "quantifier": "every model with every nesting of texts, numbers, lists, nested models, dates and durations; every text, including quotes, backslashes and characters that are not printable", "why_tests_cant": "no test can compare all pairs of models; two different models that print the same would only show by chance", "anchors": ["shepherd_core/shepherd_core/data_models/base/shepherd.py:ShpModel.__getitem__", "shepherd_core/shepherd_core/data_models/base/shepherd.py:ShpModel.__contains__", "shepherd_core/shepherd_core/data_models/base/shepherd.py:ShpModel.keys", "shepherd_core/shepherd_core/data_models/base/shepherd.py:ShpModel.items", "shepherd_core/shepherd_core/data_models/base/shepherd.py:ShpModel.get_hash", "shepherd_core/shepherd_core/testbed_client/user_model.py:User"]}
{"id": "C102", "title": "Files of models over a history of calls", "statement": "to_file returns the path it wrote; from_file of that path gives the model of the last to_file to it, whatever else was written before and after; different names do not interfere, a file is only read as the class that wrote it, and an interrupted write leaves the previous model or none.", "quantifier": "every history of writes of models of every class under every name, every point of interruption", "why_tests_cant": "histories and points of interruption are unbounded; names with dots and crashes are rarely tested", "anchors": ["shepherd_core/shepherd_core/data_models/base/shepherd.py:ShpModel.to_file", "shepherd_core/shepherd_core/data_models/base/shepherd.py:ShpModel.from_file", "shepherd_core/shepherd_core/data_models/base/wrapper.py:Wrapper"]}
{"id": "C103", "title": "The energy balance of a whole run", "statement": "Over every run of a converter with a storage capacitor, what is stored at the end plus what the target took and what leaked is at most what was stored at the beginning plus what the recording offered.", "quantifier": "every valid configuration with storage, every calibration, every sequence of samples of any length", "why_tests_cant": "an account over runs of any length; a surplus of one sample shows only when summed up", "anchors": ["shepherd_core/shepherd_core/vsource/virtual_converter_model.py:VirtualConverterModel.calc_inp_power", "shepherd_core/shepherd_core/vsource/virtual_converter_model.py:VirtualConverterModel.calc_out_power", "shepherd_core/shepherd_core/vsource/virtual_converter_model.py:VirtualConverterModel.update_cap_storage"]}
{"id": "C104", "title": "Link matrices and their picture", "statement": "Every link matrix printed in a log is read entry by entry; the picture gets exactly one line per pair of nodes that hear each other, as wide as the mean of both directions says and never outside 1 to 10, below the nodes and right after the floor plan; nothing else of the picture changes.", "quantifier": "every matrix over every set of nodes, every log around it, every dictionary of links, every picture", "why_tests_cant": "matrices, gaps, column widths and pictures are unbounded; weak and one-way links are rare in samples", "anchors": ["extra/link-visualizer/create_link_svg.py:extract_rssi_data", "extra/link-visualizer/create_link_svg.py:add_links", "extra/link-visualizer/create_link_svg.py:line_width", "extra/link-visualizer/create_link_svg.py:update_svg"]}
{"id": "C105", "title": "Half stop bits are reported as they are", "statement": "When a decoder is created for a recorded line, its half_stop attribute says whether the line has states of about one and a half ticks; the time at which the recording began has no influence.", "quantifier": "every line, every baud rate, every origin of the clock of the recording", "why_tests_cant": "lines, baud rates and origins of the clock are unbounded; tests use one recording", "anchors": ["shepherd_core/shepherd_core/decoder_waveform/uart.py:Uart.detect_half_stop", "shepherd_core/shepherd_core/decoder_waveform/uart.py:Uart.__init__"]}
{"id": "C106", "title": "The recording a simulation writes", "statement": "Simulating a harvester or a virtual source from a recorded file into a new file gives a valid recording with one sample per sample of the input: same time stamps, the simulated voltage and current to half a step of the calibration of the device, its mode, datatype, host name and (for a source) configuration; the energy returned is that of the samples written, with and without an output file.", "quantifier": "every recording, every harvester, source, converter and target, every calibration", "why_tests_cant": "recordings and configurations are unbounded; tests simulate a few short files and only look at the energy", "anchors": ["shepherd_core/shepherd_core/vsource/virtual_harvester_simulation.py:simulate_harvester", "shepherd_core/shepherd_core/vsource/virtual_source_simulation.py:simulate_source"]}
{"id": "C107", "title": "Monitoring does not change a simulation", "statement": "Asking for the internals of a simulated source changes neither the energy nor the file written; the internals have one row per simulated sample, with its time stamp and the state of the source right after that sample.", "quantifier": "every recording, every sample rate, every source and target", "why_tests_cant": "rates and lengths are unbounded; tests monitor one recording at 100 kHz", "anchors": ["shepherd_core/shepherd_core/vsource/virtual_source_simulation.py:simulate_source"]}
{"id": "C108", "title": "The table of the layout of the testbeds", "statement": "The script for the layout of the testbeds writes a table with exactly one row of thirteen cells for every testbed and every target in use there; the row names the observer, cape and port of the target and gives its coordinates exactly.", "quantifier": "every set of testbeds, observers and targets, every name and description", "why_tests_cant": "testbeds are unbounded and texts arbitrary; there is no test of the script", "anchors": ["extra/gen_testbed_layout.py", "shepherd_core/shepherd_core/data_models/testbed/testbed.py:Testbed.get_observer"]}
{"id": "C109", "title": "Decoding the same recording again", "statement": "Decoding a recorded signal leaves the data of the caller as they are, and decoding the same data a second time, with the same or other parameters, gives what decoding them first would have given.", "quantifier": "every table of times and voltages, all parameters of the decoder", "why_tests_cant": "recordings are unbounded; tests decode each file once", "anchors": ["shepherd_core/shepherd_core/decoder_waveform/uart.py:Uart.__init__", "shepherd_core/shepherd_core/decoder_waveform/uart.py:Uart._convert_analog2digital"]}
{"id": "C110", "title": "Instances leave the data base and the data of the caller alone", "statement": "Making an instance of a model - by name, by id, by inheritance or from a dictionary - changes neither the entries of the data base nor the dictionary handed in, and what an instance holds does not depend on which instances were made before.", "quantifier": "every data base, every history of instances, every inheritance, all values", "why_tests_cant": "histories are unbounded and sharing of dictionaries is invisible in single results", "anchors": ["shepherd_core/shepherd_core/testbed_client/fixtures.py:Fixture.inheritance", "shepherd_core/shepherd_core/testbed_client/client_abc_fix.py:AbcClient.try_completing_model", "shepherd_core/shepherd_core/data_models/task/harvest.py:HarvestTask.pre_correction", "shepherd_core/shepherd_core/testbed_client/user_model.py:User.query_database"]}
{"id": "C111", "title": "What is logged", "statement": "Messages from info on are always shown, debug messages exactly when they were asked for, by increase_verbose_level, by the argument verbose of a reader for that reader, or by the option -v for a command; nothing that was asked for is taken back by other parts of the program.", "quantifier": "every program that opens readers and writers, raises the level or starts commands, in any order", "why_tests_cant": "programs are unbounded and loggers are global to the process", "anchors": ["shepherd_core/shepherd_core/logger.py", "shepherd_core/shepherd_core/reader.py:Reader.__init__", "shepherd_data/shepherd_data/cli.py:cli"]}
{"id": "C112", "title": "Dates as text", "statement": "The time stamps in exported tables and logs are the calendar dates and times of the samples; they sort as text like the times, and different times have different texts, so that an exported file is in order and samples can be told apart. The directory for results names the experiment and its start: different experiments have different directories and one experiment has one.", "quantifier": "every point in time of the years 1000 to 9999, every zone, every recording and every pair of experiments", "why_tests_cant": "the calendar has leap years and 400 year cycles, times are unbounded", "anchors": ["shepherd_data/shepherd_data/reader.py:Reader.save_csv", "shepherd_data/shepherd_data/reader.py:Reader.save_log", "shepherd_core/shepherd_core/data_models/task/observer_tasks.py:ObserverTasks.from_xp", "shepherd_core/shepherd_core/data_models/base/timezone.py:local_iso_date"]}
{"id": "C113", "title": "Exported tables can be read back", "statement": "The text of an exported table, split at line ends and at the separator that was asked for, gives back the words of the header and for each sample its time and its values, in order; all lines have as many columns as the header.", "quantifier": "every recording, every separator and every way to print numbers that does not use it", "why_tests_cant": "texts and tables are unbounded, the separator is the choice of the user", "anchors": ["shepherd_data/shepherd_data/reader.py:Reader.save_csv"]}
{"id": "C114", "title": "Interrupted programs do no lasting harm to the fixtures", "statement": "However programs that collected fixtures before were interrupted, also while writing the cache, a later collection holds what is in the files of its path, or what an observer read within the last day.", "quantifier": "every history of collections on observers and other machines, every point of interruption, every way to store objects", "why_tests_cant": "crash points and histories are unbounded, and tests run on one kind of machine", "anchors": ["shepherd_core/shepherd_core/testbed_client/fixtures.py:Fixtures.__init__", "shepherd_core/shepherd_core/testbed_client/fixtures.py:file_older_than"]}
{"id": "C115", "title": "Recorders that run at the same time keep their recordings apart", "statement": "Writers with default options in one directory, in several programs at the same time: files that were there before stay as they are, no two writers use the same file, and a recording that was closed stays as it is.", "quantifier": "every number of programs, every interleaving of their looks at the directory, openings, writes and closings, every path asked for", "why_tests_cant": "schedules are unbounded, and tests open writers one after the other", "anchors": ["shepherd_core/shepherd_core/writer.py:Writer.__init__", "shepherd_core/shepherd_core/writer.py:unique_path"]}
{"id": "C116", "title": "Every model can be written to a file", "statement": "Writing a model with to_file succeeds for every instance of every class; the file then names the class and has all parameters in the order of the model, with paths, addresses, identifiers and time spans as texts that are read back as the same values. If it fails, the file and its directory are left as they were. The same holds for printing a model.", "quantifier": "every model class, all values of its fields, however deep they are nested, every comment and every state of the target path", "why_tests_cant": "the values are unbounded trees, and tests write a few models only", "anchors": ["shepherd_core/shepherd_core/data_models/base/shepherd.py:ShpModel.to_file", "shepherd_core/shepherd_core/data_models/base/shepherd.py:ShpModel.__str__", "shepherd_core/shepherd_core/data_models/base/shepherd.py:generic2str"]}
{"id": "C117", "title": "Numbers in exported tables and in files are read back exactly", "statement": "Every number in an exported table is written so that reading it gives exactly the physical value of the sample: nothing is lost by the export. It has only digits, a point, a sign and an exponent, so it cannot be mistaken for a separator, and as few digits as possible. In the files of models every float has the form that YAML takes for a float and is read back as the same float.", "quantifier": "every binary64 number (normal and subnormal), every non-empty recording, every calibration, both separators and every time zone", "why_tests_cant": "there are 2^64 floats and tests print a few of them", "anchors": ["shepherd_data/shepherd_data/reader.py:Reader.save_csv", "shepherd_core/shepherd_core/data_models/base/shepherd.py:ShpModel.to_file"]}
{"id": "C118", "title": "Exports that run at the same time give a complete file", "statement": "When several programs export from the same recording to the same path at the same time (tables, logs, metadata), a file that existed before is never changed, and when all of them have ended the file is the complete export of one of them, never a mixture and never with gaps.", "quantifier": "any number of programs, every text they write, every division into pieces, every order of their steps and every moment at which one is killed", "why_tests_cant": "the interleavings of looking, opening and writing cannot be enumerated, and tests run one program", "anchors": ["shepherd_data/shepherd_data/reader.py:Reader.save_csv", "shepherd_data/shepherd_data/reader.py:Reader.save_log", "shepherd_core/shepherd_core/reader.py:Reader.save_metadata"]}
{"id": "C119", "title": "A loop over a collection of fixtures sees every entry once", "statement": "A for loop over the entries of a type goes through each entry exactly once, in the order of insertion, and ends; entries that are inserted meanwhile are seen too. Loops may be nested, left early, and combined with tests for membership, as with any other collection.", "quantifier": "every history of insertions, every loop body, every nesting of loops over collections of any size", "why_tests_cant": "loops interact through state that is hidden in the collection; tests run one loop at a time", "anchors": ["shepherd_core/shepherd_core/testbed_client/fixtures.py:Fixture.__iter__", "shepherd_core/shepherd_core/testbed_client/fixtures.py:Fixture.__next__", "shepherd_core/shepherd_core/testbed_client/fixtures.py:Fixture.insert"]}
{"id": "C120", "title": "Resampled data has the new rate and covers the range", "statement": "Resampling a range of a recording gives samples at the new rate for the whole range: times are on one grid from the first sample of the range to its last one, for every range, every rate and any number of blocks, and samples are not lost.", "quantifier": "every recording without gaps, every range and rate, any number of blocks", "why_tests_cant": "blocks have 40 s of data and ranges are arbitrary; tests use short recordings from the start", "anchors": ["shepherd_data/shepherd_data/reader.py:Reader.resample"]}
{"id": "C121", "title": "Converted solar recordings keep the values of the rows", "statement": "Converting an IVonne table: at the time of each row the output has exactly the voltage and current found for that row (or its curve), wherever the borders of the blocks are. In between, values that change evenly are continued evenly (so the time stamps are the grid), voltages stay between 0 V and v_max, currents between 0 A and those of the rows, and the samples do not depend on how much of the table is asked for.", "quantifier": "every table with rows at equal distances, every up-sampling factor, every part asked for, every tracker", "why_tests_cant": "tables and factors are unbounded, and the overshoot of a spline depends on all rows of a block", "anchors": ["shepherd_data/shepherd_data/ivonne.py:Reader.convert_2_ivcurves", "shepherd_data/shepherd_data/ivonne.py:Reader.convert_2_ivsamples", "shepherd_data/shepherd_data/ivonne.py:Reader.upsample_2_isc_voc"]}
{"id": "C122", "title": "Dates in files of models are read back exactly", "statement": "Writing a model and reading the file keeps every date and time in it (creation, last update, start, preparation, calibration): same day, time of the day, fraction of a second and offset to UTC. Different times have different texts.", "quantifier": "every date of the years 1 to 9999, every time of the day, with and without offset, every zone", "why_tests_cant": "there are 3.6 million days with 86400 million microseconds each; tests write a handful", "anchors": ["shepherd_core/shepherd_core/data_models/base/shepherd.py:ShpModel.to_file", "shepherd_core/shepherd_core/data_models/base/shepherd.py:ShpModel.from_file", "shepherd_core/shepherd_core/data_models/base/timezone.py:local_now"]}
{"id": "C123", "title": "Texts in files of models are read back exactly", "statement": "Every text in a model (any characters, any length) is written to its file so that reading gives exactly the same text: not cut at indicators or comments, not changed by the folding of long lines, not taken for a number, a date or a list, and the reader goes on with the next entry.", "quantifier": "every text of any length, at every column and every indentation below 80 columns, whatever plain texts are taken for", "why_tests_cant": "texts are unbounded; quoting, blanks, indicators and folding interact, tests write a few short names", "anchors": ["shepherd_core/shepherd_core/data_models/base/shepherd.py:ShpModel.to_file", "shepherd_core/shepherd_core/data_models/base/shepherd.py:ShpModel.from_file", "shepherd_core/shepherd_core/data_models/base/content.py:SafeStr"]}
{"id": "C124", "title": "Values in files of models keep their types", "statement": "Every flag, integer, float, date, text and missing value of a model comes back from its file with the same type and the same value: numbers, flags and dates are written without quotes and recognised as what they are, texts that look like one of them are still read as texts, and no two different values look the same in a file.", "quantifier": "all integers, binary64 floats, real dates with offsets of whole minutes, flags, texts and nothing, at every column and indentation", "why_tests_cant": "integers, floats and texts are unbounded, and the expressions that tell types apart overlap (octal, base 60, exponents, dates); tests store a few values", "anchors": ["shepherd_core/shepherd_core/data_models/base/shepherd.py:ShpModel.to_file", "shepherd_core/shepherd_core/data_models/base/shepherd.py:ShpModel.from_file"]}
{"id": "C125", "title": "Whole files of models are read back", "statement": "The file written for a model, with fields nested in lists and dictionaries, is read as the same fields: same names in the same order, same nesting, same types and values; empty lists and dictionaries stay what they are, the file is accepted by from_file of its class only, and two models with different contents never get the same file.", "quantifier": "all trees of fields up to 38 levels, with any number of entries and any texts, integers, floats, dates, durations and paths in them", "why_tests_cant": "trees are unbounded; structure comes from columns only, and long texts that are folded, lists in lists and texts like indicators all move or imitate them; tests write a few models", "anchors": ["shepherd_core/shepherd_core/data_models/base/shepherd.py:ShpModel.to_file", "shepherd_core/shepherd_core/data_models/base/shepherd.py:ShpModel.from_file"]}
