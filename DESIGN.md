# Formal model of shepherd-datalib — design

Everything here is Lean 4 (`/verif/lean`, library `Verif`). The code under study is
`/repo` (two packages: `shepherd_core`, `shepherd_data`); it is read as text only.

## 1. How the code is modelled

* Shallow, total, computable Lean functions that mirror the Python functions branch by
  branch; every definition cites file and lines. A method that mutates `self` becomes a
  function `State → Input → State × Output`. Exceptions are values (`Except Err α`).
* Layout: `Verif/Py/*` (Python numerics and string/path helpers), `Verif/Model/*` (the
  model), `Verif/Lemmas/*` (helper lemmas), `Verif/Props/*` (the small vocabulary needed
  for the statements, independent of the model's helpers, the property theorems and
  non-vacuity `example`s; counterexamples to properties the code does not have are
  theorems with the suffix `_violated`, and the provable part has the suffix `_partial`).

### Numbers

* Python `int` → `Int`/`Nat`. numpy `u4`/`u8` stores → bounded or `mod 2^32` where the
  property is about the width.
* Python `float` → a rational together with an explicit rounding function
  `fl : ℚ → ℚ` applied after **every** float operation the code performs. Theorems
  quantify over every `fl` satisfying `Rounding fl` (monotone, odd, exact on integers up to
  2^53; `AccRounding` adds relative accuracy). `Verif/Py/Binary64.lean` defines IEEE-754 binary64
  round-to-nearest-even (`b64`, gradual underflow included) and proves that it is such a
  rounding; exact arithmetic (`id`) is another. So such a theorem covers the machine arithmetic, not
  only an idealisation. Not covered: overflow to infinity, NaN, signed zero. Where a property is
  stated in exact arithmetic only, the theorem uses `fl = id` and says so.
  A deviation shown with `fl = id` (so that rounding is not its cause) is also shown in binary64 or for every accurate
  rounding, in `Props/InFloats` where it is not beside the first theorem.
* `round()` is half-to-even, `int()` truncates toward zero, both exact on the rational.

### Files

The HDF5 file is a record of datasets (lists) and attributes; `resize` truncates or
pads with zeros, slice assignment overwrites in place. Persistence, chunk caches and
compression are not modelled: an operation either happened or not.

## 2. Trusted base

* Lean's kernel (4.33.0) and the axioms `propext`, `Classical.choice`, `Quot.sound`
  (the latter two through Mathlib); no axioms of our own, no `sorry`, no `native_decide`, no `bv_decide`.
  `AXIOMS.txt` lists the axioms of every theorem of the manifest, as printed by `#print axioms`.
* The reading of the Python code into the model (cited line by line).
* The assumed behaviour of libraries: pydantic field constraints (a validated model is a
  record satisfying the declared constraints), numpy/h5py slice and resize semantics, `struct`, `base64`,
  `pathlib` suffix handling, `math.log2` truncation (only its value clamped to 11 matters), `zstandard` (abstract lossless codec),
  `hashlib` (abstract function), SciPy filters (abstract causal state machine).
* PyYAML (representers, emitter, scanner, resolver and constructors) and `datetime.isoformat` are not in `/repo` and not
  installed here: `Model/YamlDump`, `YamlText`, `YamlTypes`, `YamlTree`, `StampText` and `FloatText` follow PyYAML 6 and
  CPython as they are published, written down from knowledge of them and not compared with their source.

## 3. Plan per property

Shapes: **RT** round trip, **INV** invariant by induction over the operation list,
**REF** refinement to an abstract spec, **DEC** decision logic, **NEG** a negation with a
concrete witness is expected because reading the code shows the property does not hold in full.

| id | model | proof |
|----|-------|-------|
| C01 | `CalibrationPair.raw_to_si/si_to_raw` with `fl` | RT; exact for all naturals with `fl=id`; error analysis for accurate `fl`, raw < 2^32 |
| C02 | same | inequality over ℚ; for every accurate rounding by adding up the errors |
| C03 | same, arrays as lists | monotonicity through every rounded operation |
| C04 | calibration as 16 binary64 bit patterns, `dict_generator` over a nested dict, `struct` big-endian | RT both directions, length rejection |
| C05 | `export_for_sysfs` | DEC; distance to the exact scaling for every accurate rounding |
| C06 | `meas_to_cal` with closed-form least squares over ℚ | algebra over lists (polyfit is specified as the least-squares solution) |
| C07 | `calibration_hw_def` with `fl` | exact for the ADC in exact arithmetic, error bounds in binary64; NEG for the DAC default (13107 vs 13107.2) and for truncation in binary64 |
| C08–C12, C14–C18 | `VirtualConverterModel` as a state machine with `fl` | INV over any list of samples |
| C18, limit | the same; `Props/Residue` | induction over the samples: exact iff no stretch falls below the limit, otherwise the deviation is unbounded |
| C13 | same | DEC for boost/direct; NEG for diode+resistor+cap mode |
| C15 | same | INV for the edges; NEG for "off ⇒ not power good"; INV for the runs where it holds (threshold order, start outside the band) |
| C19–C23 | `VirtualHarvesterModel` over `Int` (feedback set-point rational) | INV over any stream with the history as ghost; NEG for extrapolated current |
| C24 | `iterate_sampling`, simulations as folds | fold/append, INV |
| C25 | target models | DEC; NEG for `ConstantPowerTarget` at 0 V |
| C26–C28 | `VirtualSourceConfig` internal states, PRU config | range arithmetic over ℚ, square root as a parameter with `0 ≤ sqrt x` (and `sqrt x ^2 = x` where needed) |
| C29, C30 | `VirtualHarvesterConfig`, `HarvesterPRUConfig` | range arithmetic; NEG for `samples_n = 1` |
| C31–C37 | h5 file record, writer/reader state machine | REF to an append-only log; INV; crash points as prefixes of the primitive-operation list; NEG for re-opened time spacing, stored config, `modify_existing` validity |
| C38 | `unique_path` on a finite directory | pigeonhole for termination, minimality |
| C39–C43 | chunked readers | induction over chunks; NEG for mean/std, timediff at chunk borders, voltage step units |
| C44 | redundant-state filter | REF: reconstruction of the waveform |
| C45 | C02 lifted through writer/reader | REF |
| C46, C47 | UART symbol decoder over rational tick counts | RT by induction over frames; NEG for bytes 0 and ≥ 128 |
| C48 | `get_lines` | REF for well-formed text; NEG |
| C49–C51 | fixture database, `inheritance` with explicit recursion depth | INV, well-founded induction; NEG for circles |
| C52–C57 | testbed/experiment/task validation | DEC/INV over lists; NEG for node ids, capeless observers, firmware for a missing MCU, equal observer names |
| C58 | `np.arange` length | exact count; NEG in binary64 |
| C59 | `time2int` | NEG, `_partial` for whole seconds |
| C60–C62 | memory image, base64, hex check | RT/frame; NEG for the vacuous reset-vector test |
| C63–C65 | `downsample`, `cut_and_downsample_to_file`, `save_csv` | index arithmetic; NEG when the factor does not divide the block, CSV offset default |
| C66 | `mppt.py`, `ivonne.py` over ℝ; `mppt.py` again in floats (`Model/MpptFl`) | argmax over lists; real analysis for the open-circuit voltage; error bounds of the grid, the current and the power; NEG without a column voc |
| C67, C68 | CLI loops over files that may be unreadable | NEG with partial theorems |
| C69 | `get_I_mid_out_nA` on top of C08 | INV that the divisor is not zero; NEG for one configuration |
| C70 | registers of `ConverterPRUConfig`, `HarvesterPRUConfig` | error bound per register; also for the resistance and capacitor constant as the converter reads them, the thresholds with a buck converter and the drop at switch-on (energy balance of the two capacitors) |
| C71 | `Writer.__init__` as a sequence of writes before each check | DEC; NEG for metadata |
| C72 | `TestbedTasks.from_xp` on top of C52–C57 | every step of the translation succeeds; NEG for actuation, start in the past, 5 V |
| C73 | schemas and values as mutually recursive trees, default factories as a source of fresh values | RT by mutual induction; NEG for generated defaults |
| C74, C75 | `save_log` and its text, `warn_logs` | REF to one line per entry / to the first entries; reading the text back; NEG |
| C76 | loops of the three converters over a table of row times; when `resample` drops a row and when the cubic interpolation raises (four rows) is taken from pandas and scipy | induction over the blocks; NEG: short last blocks, rows beside the grid, higher rates |
| C77 | names of cut files | digits of the marks determine them; RT |
| C78 | `generate_plot_data`, `plot_to_file` | on top of C63 for all three series; bounds for the factor; NEG for 360 s |
| C79 | `detect_baud_rate`, with numpy's percentile and mean by their error bounds | order statistics, error bounds, then C47; NEG without single bits |
| C80, C81 | `gpio_to_uart`, `gpio_to_waveforms`, `waveform_to_csv`, commands `extract-uart`, `extract-gpio` | error of the time stamps, then C44, C48, C79; induction over files; NEG at 460800 baud, for short messages, empty traces, names |
| C82 | `inventory/*`, the machine as a record of what its tools report | induction over devices; NEG for `warn` on every list of collected inventories |
| C83 | `InventoryList.to_csv` | the cells as a function of the values (split of a joined list); NEG for lists and the disk usage |
| C84 | `local_tz`, start times, age of files | DEC over a zone with two offsets; NEG in winter |
| C85 | module-level names as a state machine over imports and clients, `WebClient.connect` with the server as a parameter | INV over any program; NEG for the client that is asked and the token |
| C86 | `Fixtures` with its cache | REF to C49 for each type; INV over any history; NEG for a foreign cache |
| C87 | `prepare_task`, `extract_tasks`, re-validation of all tasks at a clock | exact characterisation (spec: `SetOk`, `ordered`); REF from C54 for experiments; NEG for foreign sets, late tasks of others, equal names |
| C88 | validators of `observer_features.py`, `gpio.py`, `emulation.py` | exact characterisation by a spec of limits; NEG for actuation, list of pins, empty spans |
| C89 | `increase_verbose_level`, levels | INV over any sequence of calls |
| C90 | `ContentModel`, `NameStr`, `SafeStr` | exact characterisation; NEG for '..' |
| C91 | `get_metadata` over mutually inductive trees of HDF5 nodes, `save_metadata` with its states on disk | structural induction; spec: `nodeAt`, `metaAt`, `attrsOf`; NEG for equal names, arrays, values, crashes |
| C92 | loops of `extract`, `extract-meta`, `plot` over a directory, on top of C64, C65, C74, C78, C91 | frame property of each step (`Confined`), induction over the files; end-to-end contents from C64 and C65; NEG for exceptions that escape, names |
| C93 | `from_firmware` with all checks, `extract_firmware` into paths and directories, `FirmwareModTask.from_firmware`; ELF, hex and zstd libraries and objcopy as functions | case analysis on top of C61, C62; spec: `MspImage`, `NrfImage`, `ElfImage`, `destOf`; NEG for arguments that are not checked |
| C94 | `determine_type`, `determine_arch`, `firmware_to_hex`, `elf_to_hex` | as C93; agreement with `from_firmware`; NEG for ELF files and for overwritten files |
| C95 | the fixture files of the testbed as data, the constructors of `MCU`, `Cape`, `Target`, `Observer`, `Testbed`, `Firmware` from them | evaluation in the kernel of the closed term `Testbed()`; on top of it the general theorems of C52-C57, C72 (the hypotheses of their partial forms hold here); spec: `flock`, `usable`, `shepherdOf` |
| C96 | the fixture files of virtual harvesters and sources as data, inheritance and parsing of the fields, `VirtualHarvesterConfig`, `VirtualSourceConfig` from a name or an id | spec: the tables `harvesters`, `sources` with the settings that differ from the defaults; loading evaluated in the kernel against them, then for all roundings the numbers are exact and the general theorems of C08, C09, C13, C15, C17, C26, C29, C69 apply; registers of integral settings are exact |
| C97 | `ivcurve_2_mppt_po` as for C22 | spec: `powerAt`, `LastPower` (power at the last adaptation of a stream); the state between adaptations is unchanged, one adaptation by cases; at a limit an invariant of the run |
| C98 | the script `repair_recordings.py` on the files of C31–C37 | every step keeps a relation between files (`Keeps`, samples: `Beginning`), exact conditions for exceptions; spec: `modeGuess`, `typeGuess`, `Calibrated`; NEG for single and combined defects |
| C99 | the scripts that generate recordings (`arange`, `linspace`, one append per repetition), on the writer of C31–C37 | relative error of six rounded operations below half a nanosecond step up to 500000 s, induction over the repetitions; spec: `regular`, `codeVolt`, `codeAmpere`; NEG for energy and interruptions |
| C100 | the script that primes the data base (`find`, slice, loop over files), files by what loading them comes to | induction over text for the first occurrence, over files for completeness; spec: `Occurs`, `ServerOf`, `Moved`; NEG for paths elsewhere, embedded firmware, HEX files |
| C101 | `ShpModel` as a mapping, `get_hash`; Python's `repr` for texts (quotes, escapes), integers, lists, dictionaries and objects | the printed text can be read back: per character (`readChar`), per digit, then mutual induction over values with what may follow; spec: `PlainVal`; NEG for absent names, the class, secrets |
| C102 | a directory as a map from names to files, `to_file` with every ending (done, interrupted), `from_file`; on the models of C73 and the names of C37 | induction over the history; NEG for the given name, names with dots, interruptions |
| C103 | an account (offered, delivered, leaked, squared changes of voltage) over `cnvRun`, exact arithmetic and doubles | per-sample inequality from C13, C14 and the step of the capacitor, summed by induction over the samples; for doubles the same with the error of every rounding bounded (`AccRounding`), and for the counters of `srcRun`; NEG without the quadratic term (for every number of cycles), and for runs that collapse |
| C104 | the link visualizer: scan for the header, labels, cells, the dictionary, pairs, widths, the place in the picture, the script; texts are lists of characters | induction over columns, rows, lines, entries; NEG for weak links, unknown nodes, tags over several lines |
| C105 | `detect_half_stop` over the table of events | case analysis on the three columns; NEG: missed for every recording after its first second, invented for every line with a state at one and a half ticks |
| C106 | both simulations from an opened recording to the closed output file, on top of the writer of `Model/Recorder` | induction over the buffers with the file contents as invariant, the stream theorems of C24 for the values, error bounds of the calibration for what is read back; NEG: the tail and short recordings |
| C107 | the table of internals and its number of rows | induction over the samples: row k holds the state after sample k; arithmetic of the duration in floats; NEG: 33333 Hz |
| C108 | the two loops of the script over testbeds and targets, lines as lists of characters | induction over both lists with the completeness of C57; reading a line back by its separators, coordinates by C117; NEG: descriptions with the separator, names with line ends, observers without cape |
| C109 | the array of the caller after the constructor of the decoder (`callerTable`) | digitising a digital signal gives it back, since its mean lies between 0 and 1; NEG: analog values are overwritten |
| C110 | dictionaries as objects with addresses, `copy.copy` as allocation, item assignment as write | simulation of the model with values, and a frame invariant, by induction over the nested calls and over histories; NEG: queries, tasks and users |
| C111 | the levels of the four loggers and `verbose_level`, programs as lists of steps | invariant by induction over programs; NEG: shared loggers, option -v, sources of records, negative numbers |
| C112 | the calendar of `datetime`, `strftime` of the two formats that are used, directories of experiments | the calendar against a specification that goes day by day, induction over digits for the order of texts; NEG: directories that are shared or spread |
| C113 | the text of `save_csv`: separator, header, lines; `str` of numbers is a parameter | splitting as specification, splitting undoes joining, by induction; NEG: tabulators, descriptions with too few words |
| C114 | reading and writing the file of the cache in `Fixtures.__init__`, interrupted at any byte; `pickle` is a parameter | invariant by induction over the history: the file holds what the last observer wrote, or a prefix; NEG for prefixes |
| C115 | choice of the path and opening in `Writer.__init__`, `unique_path`, as steps of several programs that interleave | invariants and non-interference by induction over the schedule; NEG: a race between look and opening |
| C116 | representers of `yaml.safe_dump`, `ShpModel.__str__`, `to_file`, field types of all 42 model classes | mutual induction over values and over annotations; readers of the texts as specification; NEG: secrets, URLs and IPv6 addresses |
| C117 | `str` of a binary64 and `represent_float` of PyYAML as the shortest and closest decimal, in both notations | a decimal within 2^-54 of a binary64 rounds to it, so 17 digits are enough; the value of the text by a reader as specification; monotonicity of rounding for minimality |
| C118 | the steps of `save_csv`, `save_log`, `save_metadata` (look, open, pieces) of any number of programs on one file, kills | invariant over all schedules: what the last program that opened the file has written is in it; NEG: mixtures, gaps |
| C119 | the iterator of `Fixture` with its one position, insertions, loops, `in` | invariant: list up to date, names of the records; induction over rounds; NEG: nested loops, tests for membership |
| C120 | `resample` on datasets with exact numbers, as it is (the part for samples is commented out in the code) | induction over the blocks; ceilings and floors; NEG: samples, ranges that do not start at 0, several blocks |
| C121 | values in the loops of the converters; the interpolation is a parameter that keeps known values and is, up to an error, the not-a-knot spline (specified piece by piece in `Props/Spline`) | induction over the blocks; uniqueness of the spline by its largest curvature, existence by linear algebra; NEG: overshoot, dependence on later rows |
| C122 | `isoformat` and the regular expression of PyYAML for time stamps, on lists of characters | the reader applied to the text, part by part; NEG: offsets with seconds |
| C123 | choice of the style, the three writers with folding and escapes and the three scanners of PyYAML, on lists of characters; the resolver of plain texts is a parameter | induction over the text, writer and scanner side by side |
| C124 | the expressions of PyYAML for flags, floats, integers, nothing and dates as functions on characters; the constructors of flags and integers | case analysis on the shape of written texts, with C117, C122, C123 |
| C125 | emitter of nested nodes with indentation (sequences in mappings at the same column, first entries on the line of the dash), reader by columns and indicators | mutual induction over nodes, sequences and mappings, with C123 for single values, and over the values of a model with C124 |

## 4. Coverage

Modelled (the comment of every definition names the lines):

| model | code |
|-------|------|
| `Py/Num`, `Py/Binary64`, `Py/Err` | `round`, `int()`, IEEE-754 binary64, exceptions |
| `Model/Calibration` | `data_models/base/calibration.py`, `calibration_hw_def.py` |
| `Model/CalBytes`, `Model/CalMeas` | `CalibrationSeries/Cape.to_bytestr/from_bytestr`, `dict_generator`; `cal_measurement.py` |
| `Model/Converter`, `Model/Harvester` | `vsource/virtual_converter_model.py`, `vsource/virtual_harvester_model.py`, all methods |
| `Model/Source` | `virtual_source_model.py`, `target_model.py`, both simulations |
| `Model/SourceConfig` | `content/virtual_source.py`, `content/virtual_harvester.py`: post-validation, internal states, PRU configs |
| `Model/Recorder` | `writer.py` (constructor, append, align, exit, attributes, `unique_path`), `reader.py` (open, refresh, metadata, validity, buffers) |
| `Model/Reports` | `reader.py`: energy, statistics, time differences, log errors, voltage step, GPIO waveforms |
| `Model/Uart`, `Model/Baud` | `decoder_waveform/uart.py` |
| `Model/GpioUart` | `reader.py`: `gpio_to_uart`, `gpio_to_waveforms`, `waveform_to_csv`, `get_gpio_pin_num`; `cli.py`: `extract_uart`, `extract_gpio` |
| `Model/Fixtures` | `testbed_client/fixtures.py`, `client_abc_fix.py` |
| `Model/Experiment` | `data_models/testbed/*`, `experiment/*`, `task/*` (validation and translation to tasks) |
| `Model/Store` | `ShpModel.to_file/from_file`, `Wrapper`, `time2int`, GPIO actuation events |
| `Model/FwTools` | `fw_tools/patcher.py`, `converter.py`, `validation.py` (hex checks), `content/firmware.py` |
| `Model/DataTools`, `CutFile`, `Plot`, `Export`, `Cli` | `shepherd_data/reader.py` (`downsample`, `cut_and_downsample_to_file`, `generate_plot_data`, `plot_to_file`, `save_csv`, `save_log`, `warn_logs`), `shepherd_data/cli.py` (`path_to_flist`, `validate`, `downsample`) |
| `Model/Mppt` | `shepherd_data/mppt.py`, loops of `shepherd_data/ivonne.py` |
| `Model/Inventory` | `inventory/python.py`, `system.py`, `__init__.py` |
| `Model/LocalTime` | `data_models/base/timezone.py`, start times of tasks (`harvest.py`, `emulation.py`), `file_older_than` |
| `Model/Tasks` | `data_models/task/__init__.py`, validators of all tasks, `base/wrapper.py`, `logger.py` |
| `Model/Features` | `experiment/observer_features.py`, `testbed/gpio.py`, `base/content.py`, settings of `task/emulation.py` |
| `Model/Meta` | `reader.py` l.581-655 (`get_metadata`, `save_metadata`) |
| `Model/Commands` | `cli.py` l.131-206, l.386-431, `reader.py` (`shepherd_data`) l.596-626 |
| `Model/Firmware` | `content/firmware.py` l.42-170, `task/firmware_mod.py` l.28-100, `fw_tools/patcher.py` l.73-83, `fw_tools/validation.py` l.86-156, `fw_tools/converter.py` l.18-30, `fw_tools/converter_elf.py` |
| `Model/Shipped` | `testbed/*.yaml`, `content/_external_fixtures.yaml` l.185-410, `testbed/mcu.py` l.46-50, `cape.py` l.42-46, `target.py` l.51-67, `observer.py` l.60-64, `testbed.py` l.44-58 |
| `Model/ShippedSrc` | `content/virtual_harvester_fixture.yaml`, `content/virtual_source_fixture.yaml`, `virtual_harvester.py` l.74-100, `virtual_source.py` l.42-126 |
| `Model/Repair` | `shepherd_data/examples/repair_recordings.py` |
| `Model/Eenv` | `extra/gen_energy_envs.py`, `shepherd_core/examples/eenv_generator.py`, `shepherd_data/examples/generate_sawtooth.py`, the constraints of `content/energy_environment.py` |
| `Model/Prime` | `extra/prime_database.py` |
| `Model/Fingerprint` | `ShpModel.__getitem__`, `__contains__`, `keys`, `items`, `get_hash` of `data_models/base/shepherd.py`, with `repr` of Python |
| `Model/ModelFiles` | paths and histories of `to_file`, `from_file` of `data_models/base/shepherd.py` |
| `Model/Links` | `extra/link-visualizer/create_link_svg.py` |
| `Model/HalfStop` | `decoder_waveform/uart.py` `detect_half_stop` |
| `Model/SimFile` | `virtual_harvester_simulation.py` and `virtual_source_simulation.py` from file to file, with monitoring |
| `Model/Layout` | `extra/gen_testbed_layout.py` |
| `Model/HeapDb` | `Fixture.inheritance`, `try_completing_model`, `query_item` with dictionaries as objects; `HarvestTask.pre_correction`, `EmulationTask.pre_correction`, `User.query_database` |
| `Model/Verbose` | `logger.py`, the loggers of `Reader`, `Writer` and `cli` |
| `Model/MpptFl` | the trackers of `mppt.py` in floating point, the exponential function is a parameter |
| `Model/Calendar` | dates as text: time stamps in `reader.py`, directories in `observer_tasks.py`, `local_iso_date` |
| `Model/CsvText` | the text of tables from `save_csv` and of logs from `save_log` |
| `Model/FixCache` | the file of the cache of `Fixtures`, interrupted programs |
| `Model/Race` | writers in several programs, step by step |
| `Model/YamlDump` | models as YAML nodes, types of the fields of all classes |
| `Model/FloatText` | floats as text |
| `Model/ExportRace` | exports to the same path at the same time |
| `Model/FixIter` | loops over `Fixture` |
| `Model/Resample` | `resample` of the reader |
| `Model/Spline` | values in `convert_2_ivcurves`, `convert_2_ivsamples`, `upsample_2_isc_voc` |
| `Model/StampText` | dates in `ShpModel.to_file`, `from_file` (library functions they call) |
| `Model/YamlText` | texts in `ShpModel.to_file`, `from_file` (library functions they call) |
| `Model/YamlTypes` | types of values in `ShpModel.to_file`, `from_file` (library functions they call) |
| `Model/YamlTree` | structure of files in `ShpModel.to_file`, `from_file` (library functions they call) |
| `Model/Client` | `Fixtures` (files, cache), `client_abc_fix.py` (names of the package), `client_web.py` (connection, user data) |

Not modelled: logging and progress bars; `inventory/target.py` (empty in the code); the contents of answers of the web server and
`user_model.py` (network, secrets); the program objcopy itself; plotting with matplotlib; how scipy computes
a cubic spline (its result is specified, C121); SciPy filter design; compression and chunking of HDF5; threads (the library starts none).
Concurrency: the library has no shared state between processes except files, so executions are sequences of calls.

## 5. Where the code does not have the property

Each item is a theorem with the suffix `_violated` (a witness, or a statement for all inputs).

* **Calibration**: ADC round trip in doubles truncates (C07); DAC default gain 13107 vs 13107.2 (C07).
* **Shipped configs**: id 2102 is given to both cv33 and cv10, so cv33 cannot be had by its id (`C96_ids_violated`); "diode+resistor+capacitor" and "dio_res_cap" credit 3 mW to the storage for
  1 mA at 0 V (`C96_energy_violated`).
* **Virtual source**: with storage, series resistor and no boost the input can be above the source (C13); power-good while the output is off (C15);
  extrapolation gives negative or never measured currents (C19); step above the upper limit (C22); the perturb-and-observe tracker never leaves a limit while the power does not grow (C97); constant-power target at 0 V divides by zero (C25);
  efficiencies below 2^-1000 overflow (C26); energy balance and landing voltage at switch-on (C28); `samples_n = 1` divides by zero (C30); reading the current out of the storage divides by zero for one configuration (C69).
* **Recorder**: short files that are re-opened get a wrong sample interval, so times and energy are wrong (C35, C39); modification with a window of 0 leaves an invalid file (C36);
  a stored configuration is never read back (C37); mean and deviation are wrong over unequal chunks (C40); time jumps at chunk borders are missed (C41); voltage step compares
  different units and misses falling ramps (C43); empty GPIO recordings raise (C44); UNIX times are off by more than half a nanosecond (C45); a rejected open changes metadata (C71).
* **Repair script**: a missing calibration alone is not repaired, an append interrupted after its second step neither, an unknown mode with unequal datasets ends with a KeyError each time, the first
  exception leaves all later files unrepaired, other HDF5 files raise (C98).
* **Generated environments**: the energy in the metadata is that of a recording shorter by one sample; an interrupted run leaves a shorter recording that the next run keeps and declares complete and
  valid; one interrupted before the first repetition makes every further run fail (C99).
* **Priming the data base**: a path that is not below a directory "content" is reduced to its last character, so that all recordings kept elsewhere share one path; embedded firmware is replaced by such
  a path and lost; a HEX file is declared to be an ELF file (C100).
* **Models as mappings**: `model[name]` gives out methods although `name in model` is false, and raises `AttributeError` instead of `KeyError` for unknown names; `get_hash` depends neither on the class nor
  on secrets such as the token of a user (C101).
* **Files of models**: `to_file` drops what follows the last dot of a name, so that `run.1` and `run.2` replace each other; `from_file` does not find the name given to `to_file`; an interrupted write destroys
  the previous model, or leaves one that is read with defaults for what is missing (C102).
* **Energy**: the capacitor is integrated with an explicit step at the old voltage. Charging and discharging it in turn creates energy without bound (C103, twice the offered energy in the witness); a load that
  empties the capacitor in one sample is served in full, from nothing.
* **Link visualizer**: a link heard in one direction below -99 dBm gets a negative line width; one node without a spot (9) loses all links with a KeyError; a `<svg` tag over several lines is cut in two (C104).
* **UART**: `half_stop` compares limits in seconds with times, states and durations in ticks; it depends on the origin of the clock alone (C105).
* **Simulation**: samples after the last full buffer are not simulated; a recording below 10000 samples gives an empty output (C106).
* **Simulation**: the table of internals is too short at rates like 33333 Hz, monitoring then raises IndexError (C107).
* **IVonne**: recordings whose last block has two or three rows (2002 rows at 50 Hz) can not be converted, and the incomplete output counts as finished (C76).
* **Layout table**: a description of an observer with "; " shifts the columns of its row, a name with a line end breaks it (C108).
* **UART**: the constructor overwrites the voltages in the array of the caller by 0 and 1 (C109).
* **Shared dictionaries**: two users validated from the same dictionary without token get the same secret token; tasks rewrite the time of start in the dictionary of the caller; queries hand out the entry of the data base itself (C110).
* **Logging**: `-v` on the command line does not reach readers and library; a reader opened with `verbose=False` silences all other readers (C111).
* **Directories**: an experiment without a start is spread over several directories when the clock passes a second while its tasks are made; experiments of the same name around the end of daylight saving time share one (C112).
* **Tables**: a table separated by tabulators can not be exported, the separator becomes two blanks (C113).
* **Cache of fixtures**: if an observer is interrupted while it writes the cache, other machines with the same home directory fail for a day (C114).
* **Writers at the same time**: two programs that record to the same path can both find it free; the second one to open it destroys the recording of the first (C115).
* **Models as files**: PyYAML has no representer for secrets, URLs and addresses of version 6; `to_file` and `str` fail for every `User`, every testbed with a URL and every observer with such an address (C116).
* **Exports at the same time**: the test for an existing file and opening it are two steps; two programs that pass the test together write into the same file. With different options the result is a mixture of both, with one killed it can begin with zero bytes, and both count as finished later (C118).
* **Loops over fixtures**: a collection is its own iterator. Of two nested loops the outer one ends after one round or, if the inner one is left early, never; there is no `__contains__`, so that names are never found by `in` and the test ends a loop around it (C119).
* **Resampling** (marked unusable in the code): samples are always lost, the end of a range is counted from the start of the recording, the grid starts anew with each block, and the destination can be one value too short (C120).
* **Cubic interpolation** of solar recordings overshoots: voltages above `v_max` and below zero between rows, and samples at the start depend on rows at the end (C121).
* **Files of models** with a time whose offset to UTC has seconds are written but cannot be read (C122).
* **UART**: NUL is dropped, the highest bit never set, the character behind a lone CR and the tail are lost (C46–C48); half the baud rate is detected if edges are never a single bit apart (C79);
  time stamps are converted to doubles in seconds since 1970, so fast lines are not decoded; messages with less than 8 edges are not; an empty trace ends the commands (C80, C81);
  pins are found by a part of their name, the header of the CSV ignores the separator (C81).
* **Clients**: all models ask the fixtures, whatever client is made, a token given as text is ignored, addresses lose upper case letters, a client of an empty address knows no user (C85);
  a cache from another machine replaces every path for a day (C86); local times in winter are an hour late (C84).
* **Inventory**: warnings never work on collected inventories, nothing is collected without psutil (C82); rows of the CSV are shifted by lists and the disk usage (C83).
* **Fixtures**: name and id can disagree (C49); integer parents raise AttributeError (C50); circles raise RecursionError (C51).
* **Experiments**: node ids collide (C53); output paths collide for equal observer names (C55); firmware for a missing MCU is accepted (C56); observers without cape
  raise AttributeError, targets are compared as objects (C57); one event too many (C58); time spans lose fractions (C59); valid experiments that can not be translated (C72);
  generated ids and dates change on re-reading (C73).
* **Tasks and settings**: sets of tasks are handed to other observers, a late task of one blocks all, the second of equal names gets none (C87); no emulation with actuation is accepted, the list of traced
  pins has no effect, durations of zero pass, one refusal is a NotImplementedError (C88); names like `..` are accepted (C90).
* **Firmware**: changed files are extracted in spite of the hash, ZstdError instead of ValueError (C61); the reset vector is never checked (C62);
  texts over 8 million characters become a path (C61); given MCUs and types are not compared with the file, object files raise TypeError, names with dots overwrite each other, referenced
  firmware can not be made a task (C93); ARM programs at 0x4000 are taken for MSP430, conversion overwrites hex files (C94).
* **Data tools**: the grid restarts at each block, some lengths can not be down-sampled by 3 or 7 (C63); the tail of recordings is lost, names collide, leftovers count as results (C64);
  uncalibrated values are exported plus one, leftovers (C65); open-circuit tracker without voc always fails (C66); unreadable files pass validation, short ones fail (C67);
  the factor of the first file is used for all (C68); subgroups end the log export, and its messages are shown as Python shows byte strings (C74); a limit below one shows one warning (C75); fast tables leave an empty output (C76); recordings of 360.1 s to 399.9 s can not be plotted (C78);
  arrays in attributes prevent all metadata, equal names hide attributes (C91); one file that fails can stop a command, power plots share names with others, outputs collide (C92).
