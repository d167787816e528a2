Verif.Props.C01_raw_si_raw: [propext, Classical.choice, Quot.sound]
Verif.Props.C01_raw_si_raw_nonneg: [propext, Classical.choice, Quot.sound]
Verif.Props.C01_raw_si_raw_float: [propext, Classical.choice, Quot.sound]
Verif.Props.C02_si_raw_si: [propext, Classical.choice, Quot.sound]
Verif.Props.C02_below_is_zero: [propext, Classical.choice, Quot.sound]
Verif.Props.C02_si_raw_si_float: [propext, Classical.choice, Quot.sound]
Verif.Props.C03_si_to_raw_nonneg: [propext, Classical.choice, Quot.sound]
Verif.Props.C03_raw_to_si_nonneg: [propext, Classical.choice, Quot.sound]
Verif.Props.C03_raw_to_si_sign: [propext, Classical.choice, Quot.sound]
Verif.Props.C03_si_to_raw_mono: [propext, Classical.choice, Quot.sound]
Verif.Props.C03_raw_to_si_mono: [propext, Classical.choice, Quot.sound]
Verif.Props.C03_raw_to_si_elementwise: [propext, Classical.choice, Quot.sound]
Verif.Props.C03_si_to_raw_elementwise: [propext, Classical.choice, Quot.sound]
Verif.Props.C04_layout: [propext, Classical.choice, Quot.sound]
Verif.Props.C04_roundtrip: [propext, Classical.choice, Quot.sound]
Verif.Props.C04_reverse: [propext, Classical.choice, Quot.sound]
Verif.Props.C04_length: [propext, Classical.choice, Quot.sound]
Verif.Props.C04_accepted: [propext, Classical.choice, Quot.sound]
Verif.Props.C04_default: [propext, Classical.choice, Quot.sound]
Verif.Props.C05_hrv_export_float: [propext, Classical.choice, Quot.sound]
Verif.Props.C05_emu_export_float: [propext, Classical.choice, Quot.sound]
Verif.Props.C05_hrv_export_fits: [propext, Classical.choice, Quot.sound]
Verif.Props.C05_emu_export_fits: [propext, Classical.choice, Quot.sound]
Verif.Props.C05_hrv_export_scaled: [propext, Classical.choice, Quot.sound]
Verif.Props.C05_emu_export_scaled: [propext, Classical.choice, Quot.sound]
Verif.Props.C05_refused_iff: [propext, Classical.choice, Quot.sound]
Verif.Props.C06_exact: [propext, Classical.choice, Quot.sound]
Verif.Props.C06_optimum: [propext, Classical.choice, Quot.sound]
Verif.Props.C06_quality: [propext, Classical.choice, Quot.sound]
Verif.Props.C06_gate: [propext, Classical.choice, Quot.sound]
Verif.Props.C06_refused: [propext, Classical.choice, Quot.sound]
Verif.Props.C06_same_accepted: [propext, Classical.choice, Quot.sound]
Verif.Props.C06_same_refused: [propext, Classical.choice, Quot.sound]
Verif.Props.C06_harvester: [propext, Classical.choice, Quot.sound]
Verif.Props.C06_emulator: [propext, Classical.choice, Quot.sound]
Verif.Props.C06_cape: [propext, Classical.choice, Quot.sound]
Verif.Props.C07_default_adc_float: [propext, Classical.choice, Quot.sound]
Verif.Props.C07_adc_current_roundtrip_float_partial: [propext, Classical.choice, Quot.sound]
Verif.Props.C07_from_fn: [propext, Classical.choice, Quot.sound]
Verif.Props.C07_adc_current_roundtrip: [propext, Classical.choice, Quot.sound]
Verif.Props.C07_adc_voltage_roundtrip: [propext, Classical.choice, Quot.sound]
Verif.Props.C07_dac_roundtrip: [propext, Classical.choice, Quot.sound]
Verif.Props.C07_adc_roundtrip_float_violated: [propext, Classical.choice, Quot.sound]
Verif.Props.C07_adc_voltage_roundtrip_float_partial: [propext, Classical.choice, Quot.sound]
Verif.Props.C07_default_adc_matches_hw: [propext, Classical.choice, Quot.sound]
Verif.Props.C07_default_dac_matches_hw_violated: [propext, Classical.choice, Quot.sound]
Verif.Props.C07_default_dac_float: [propext, Classical.choice, Quot.sound]
Verif.Props.C07_default_dac_binary64_violated: [propext, Classical.choice, Quot.sound]
Verif.Props.C08_storage_bounds: [propext, Classical.choice, Quot.sound]
Verif.Props.C08_after_cap_update: [propext, Classical.choice, Quot.sound]
Verif.Props.C09_output_voltage: [propext, Classical.choice, Quot.sound]
Verif.Props.C09_output_voltage_exact: [propext, Classical.choice, Quot.sound]
Verif.Props.C10_dac_code_range: [propext, Classical.choice, Quot.sound]
Verif.Props.C10_off_is_zero: [propext, Classical.choice, Quot.sound]
Verif.Props.C10_storage_code: [propext, Classical.choice, Quot.sound]
Verif.Props.C10_storage_code_mono: [propext, Classical.choice, Quot.sound]
Verif.Props.C11_hysteresis: [propext, Classical.choice, Quot.sound]
Verif.Props.C11_switch_on_cost: [propext, Classical.choice, Quot.sound]
Verif.Props.C12_no_drain: [propext, Classical.choice, Quot.sound]
Verif.Props.C12_driven: [propext, Classical.choice, Quot.sound]
Verif.Props.C12_over: [propext, Classical.choice, Quot.sound]
Verif.Props.C13_input_power_partial: [propext, Classical.choice, Quot.sound]
Verif.Props.C13_input_limits: [propext, Classical.choice, Quot.sound]
Verif.Props.C13_boost_threshold: [propext, Classical.choice, Quot.sound]
Verif.Props.C13_input_power_general_partial: [propext, Classical.choice, Quot.sound]
Verif.Props.C13_input_power_violated: [propext, Classical.choice, Quot.sound]
Verif.Props.C13_input_power_binary64_violated: [propext, Classical.choice, Quot.sound]
Verif.Props.C14_drain: [propext, Classical.choice, Quot.sound]
Verif.Props.C14_drain_run: [propext, Classical.choice, Quot.sound]
Verif.Props.C15_power_good_partial: [propext, Classical.choice, Quot.sound]
Verif.Props.C15_power_good_violated: [propext, Classical.choice, Quot.sound]
Verif.Props.C15_power_good_binary64_violated: [propext, Classical.choice, Quot.sound]
Verif.Props.C15_startup_binary64_violated: [propext, Classical.choice, Quot.sound]
Verif.Props.C15_means_output_partial: [propext, Classical.choice, Quot.sound]
Verif.Props.C15_from_start_partial: [propext, Classical.choice, Quot.sound]
Verif.Props.C15_startup_violated: [propext, Classical.choice, Quot.sound]
Verif.Props.C15_configuration: [propext, Classical.choice, Quot.sound]
Verif.Props.C16_sign: [propext, Classical.choice, Quot.sound]
Verif.Props.C16_energy: [propext, Classical.choice, Quot.sound]
Verif.Props.C17_input_lut_float: [propext, Classical.choice, Quot.sound]
Verif.Props.C17_output_lut_float: [propext, Classical.choice, Quot.sound]
Verif.Props.C17_input_lut: [propext, Classical.choice, Quot.sound]
Verif.Props.C17_output_lut: [propext, Classical.choice, Quot.sound]
Verif.Props.C17_no_exception: [propext, Classical.choice, Quot.sound]
Verif.Props.C18_charge_lower_float: [propext, Classical.choice, Quot.sound]
Verif.Props.C18_charge_float_partial: [propext, Classical.choice, Quot.sound]
Verif.Props.C18_bounds: [propext, Classical.choice, Quot.sound]
Verif.Props.C18_charge_lower: [propext, Classical.choice, Quot.sound]
Verif.Props.C18_charge_exact_partial: [propext, Classical.choice, Quot.sound]
Verif.Props.C18_residue_run: [propext, Classical.choice, Quot.sound]
Verif.Props.C18_exact_iff: [propext, Classical.choice, Quot.sound]
Verif.Props.C18_stretches_float_partial: [propext, Classical.choice, Quot.sound]
Verif.Props.C18_saturation_violated: [propext, Classical.choice, Quot.sound]
Verif.Props.C19_measured: [propext, Classical.choice, Quot.sound]
Verif.Props.C19_nonneg: [propext, Classical.choice, Quot.sound]
Verif.Props.C19_near: [propext, Classical.choice, Quot.sound]
Verif.Props.C19_cv_nonneg: [propext, Classical.choice, Quot.sound]
Verif.Props.C19_extrapolation_violated: [propext, Classical.choice, Quot.sound]
Verif.Props.C19_startup_violated: [propext, Classical.choice, Quot.sound]
Verif.Props.C20_best: [propext, Classical.choice, Quot.sound]
Verif.Props.C20_optimum: [propext, Classical.choice, Quot.sound]
Verif.Props.C21_start: [propext, Classical.choice, Quot.sound]
Verif.Props.C21_estimate: [propext, Classical.choice, Quot.sound]
Verif.Props.C21_bounds: [propext, Classical.choice, Quot.sound]
Verif.Props.C21_follows: [propext, Classical.choice, Quot.sound]
Verif.Props.C21_setpoint: [propext, Classical.choice, Quot.sound]
Verif.Props.C21_setpoint_run: [propext, Classical.choice, Quot.sound]
Verif.Props.C22_start: [propext, Classical.choice, Quot.sound]
Verif.Props.C22_limits_partial: [propext, Classical.choice, Quot.sound]
Verif.Props.C22_hold: [propext, Classical.choice, Quot.sound]
Verif.Props.C22_interval: [propext, Classical.choice, Quot.sound]
Verif.Props.C22_step: [propext, Classical.choice, Quot.sound]
Verif.Props.C22_setpoint_run: [propext, Classical.choice, Quot.sound]
Verif.Props.C22_limits_violated: [propext, Classical.choice, Quot.sound]
Verif.Props.C23_passthrough: [propext, Classical.choice, Quot.sound]
Verif.Props.C23_passthrough_run: [propext, Classical.choice, Quot.sound]
Verif.Props.C23_dispatch: [propext, Classical.choice, Quot.sound]
Verif.Props.C23_stream: [propext, Classical.choice, Quot.sound]
Verif.Props.C24_units: [propext, Classical.choice, Quot.sound]
Verif.Props.C24_composition: [propext, Classical.choice, Quot.sound]
Verif.Props.C24_total: [propext, Classical.choice, Quot.sound]
Verif.Props.C24_counters_exact: [propext, Classical.choice, Quot.sound]
Verif.Props.C24_counters_rounded: [propext, Classical.choice, Quot.sound]
Verif.Props.C24_counters_grow: [propext, Classical.choice, Quot.sound]
Verif.Props.C24_harvester_buffers: [propext, Classical.choice, Quot.sound]
Verif.Props.C24_harvester_stream: [propext, Classical.choice, Quot.sound]
Verif.Props.C24_source_buffers: [propext, Classical.choice, Quot.sound]
Verif.Props.C24_source_energy: [propext, Classical.choice, Quot.sound]
Verif.Props.C24_source_stream: [propext, Classical.choice, Quot.sound]
Verif.Props.C25_resistive: [propext, Classical.choice, Quot.sound]
Verif.Props.C25_diode_partial: [propext, Classical.choice, Quot.sound]
Verif.Props.C25_diode_violated: [propext, Classical.choice, Quot.sound]
Verif.Props.C25_constant_current: [propext, Classical.choice, Quot.sound]
Verif.Props.C25_power_partial: [propext, Classical.choice, Quot.sound]
Verif.Props.C25_power_violated: [propext, Classical.choice, Quot.sound]
Verif.Props.C25_power_run_violated: [propext, Classical.choice, Quot.sound]
Verif.Props.C25_source_voltage: [propext, Classical.choice, Quot.sound]
Verif.Props.C25_simulation_partial: [propext, Classical.choice, Quot.sound]
Verif.Props.C25_negative_violated: [propext, Classical.choice, Quot.sound]
Verif.Props.C26_registers_fit: [propext, Classical.choice, Quot.sound]
Verif.Props.C26_translation_partial: [propext, Classical.choice, Quot.sound]
Verif.Props.C26_overflow_violated: [propext, Classical.choice, Quot.sound]
Verif.Props.C27_converter_mode: [propext, Classical.choice, Quot.sound]
Verif.Props.C27_harvester_mode: [propext, Classical.choice, Quot.sound]
Verif.Props.C28_energy_binary64_violated: [propext, Classical.choice, Quot.sound]
Verif.Props.C28_floor_binary64_violated: [propext, Classical.choice, Quot.sound]
Verif.Props.C28_order: [propext, Classical.choice, Quot.sound]
Verif.Props.C28_energy_partial: [propext, Classical.choice, Quot.sound]
Verif.Props.C28_energy_violated: [propext, Classical.choice, Quot.sound]
Verif.Props.C28_floor_partial: [propext, Classical.choice, Quot.sound]
Verif.Props.C28_floor_violated: [propext, Classical.choice, Quot.sound]
Verif.Props.C29_consistent: [propext, Classical.choice, Quot.sound]
Verif.Props.C29_total: [propext, Classical.choice, Quot.sound]
Verif.Props.C30_accepted_iff: [propext, Classical.choice, Quot.sound]
Verif.Props.C30_rejected_partial: [propext, Classical.choice, Quot.sound]
Verif.Props.C30_default_floors: [propext, Classical.choice, Quot.sound]
Verif.Props.C30_samples_violated: [propext, Classical.choice, Quot.sound]
Verif.Props.C30_algorithm_rejected: [propext, Classical.choice, Quot.sound]
Verif.Props.C30_front_end_rejected: [propext, Classical.choice, Quot.sound]
Verif.Props.C30_dtype_violated: [propext, Classical.choice, Quot.sound]
Verif.Props.C31_concatenation: [propext, Classical.choice, Quot.sound]
Verif.Props.C31_new_file: [propext, Classical.choice, Quot.sound]
Verif.Props.C31_total: [propext, Classical.choice, Quot.sound]
Verif.Props.C32_interrupted_append: [propext, Classical.choice, Quot.sound]
Verif.Props.C32_history: [propext, Classical.choice, Quot.sound]
Verif.Props.C33_close: [propext, Classical.choice, Quot.sound]
Verif.Props.C33_close_100kHz: [propext, Classical.choice, Quot.sound]
Verif.Props.C33_aligned_untouched: [propext, Classical.choice, Quot.sound]
Verif.Props.C33_other_rate: [propext, Classical.choice, Quot.sound]
Verif.Props.C34_read_buffers: [propext, Classical.choice, Quot.sound]
Verif.Props.C34_read_all: [propext, Classical.choice, Quot.sound]
Verif.Props.C34_read_si: [propext, Classical.choice, Quot.sound]
Verif.Props.C35_new_file_partial: [propext, Classical.choice, Quot.sound]
Verif.Props.C35_reopened_partial: [propext, Classical.choice, Quot.sound]
Verif.Props.C35_reopened_violated: [propext, Classical.choice, Quot.sound]
Verif.Props.C36_new_file_valid: [propext, Classical.choice, Quot.sound]
Verif.Props.C36_modify_partial: [propext, Classical.choice, Quot.sound]
Verif.Props.C36_modify_violated: [propext, Classical.choice, Quot.sound]
Verif.Props.C36_valid_meaning: [propext, Classical.choice, Quot.sound]
Verif.Props.C37_read_back: [propext, Classical.choice, Quot.sound]
Verif.Props.C37_device: [propext, Classical.choice, Quot.sound]
Verif.Props.C37_config_group: [propext]
Verif.Props.C37_config_violated: [propext, Classical.choice, Quot.sound]
Verif.Props.C38_unique_path: [propext, Classical.choice, Quot.sound]
Verif.Props.C38_never_existing: [propext, Classical.choice, Quot.sound]
Verif.Props.C38_given_path: [propext, Classical.choice, Quot.sound]
Verif.Props.C39_interval_float_violated: [propext, Classical.choice, Quot.sound]
Verif.Props.C39_energy_exact: [propext, Classical.choice, Quot.sound]
Verif.Props.C39_energy_float: [propext, Classical.choice, Quot.sound]
Verif.Props.C39_interval_violated: [propext, Classical.choice, Quot.sound]
Verif.Props.C40_mean_float_violated: [propext, Classical.choice, Quot.sound]
Verif.Props.C40_std_float_violated: [propext, Classical.choice, Quot.sound]
Verif.Props.C40_mean_error: [propext, Classical.choice, Quot.sound]
Verif.Props.C40_mean_bound: [propext, Classical.choice, Quot.sound]
Verif.Props.C40_std_below: [propext, Classical.choice, Quot.sound]
Verif.Props.C40_min_max: [propext, Classical.choice, Quot.sound]
Verif.Props.C40_empty: [propext, Classical.choice, Quot.sound]
Verif.Props.C40_one_chunk_partial: [propext, Classical.choice, Quot.sound]
Verif.Props.C40_mean_partial: [propext, Classical.choice, Quot.sound]
Verif.Props.C40_mean_violated: [propext, Classical.choice, Quot.sound]
Verif.Props.C40_std_violated: [propext, Classical.choice, Quot.sound]
Verif.Props.C41_check_partial: [propext, Classical.choice, Quot.sound]
Verif.Props.C41_regular: [propext, Classical.choice, Quot.sound]
Verif.Props.C41_border_violated: [propext, Classical.choice, Quot.sound]
Verif.Props.C41_tolerance_violated: [propext, Classical.choice, Quot.sound]
Verif.Props.C41_short_violated: [propext, Classical.choice, Quot.sound]
Verif.Props.C42_count: [propext, Quot.sound]
Verif.Props.C42_history: [propext, Classical.choice, Quot.sound]
Verif.Props.C43_unit_float_violated: [propext, Classical.choice, Quot.sound]
Verif.Props.C43_falling_float_violated: [propext, Classical.choice, Quot.sound]
Verif.Props.C43_raw_partial: [propext, Classical.choice, Quot.sound]
Verif.Props.C43_static: [propext, Classical.choice, Quot.sound]
Verif.Props.C43_unit_violated: [propext, Classical.choice, Quot.sound]
Verif.Props.C43_falling_violated: [propext, Classical.choice, Quot.sound]
Verif.Props.C43_configured: [propext, Classical.choice, Quot.sound]
Verif.Props.C44_filter: [propext, Classical.choice, Quot.sound]
Verif.Props.C44_empty_violated: [propext]
Verif.Props.C44_waveform: [propext, Classical.choice, Quot.sound]
Verif.Props.C45_si_roundtrip: [propext, Classical.choice, Quot.sound]
Verif.Props.C45_time_partial: [propext, Classical.choice, Quot.sound]
Verif.Props.C45_time_exact: [propext, Classical.choice, Quot.sound]
Verif.Props.C45_time_violated: [propext, Classical.choice, Quot.sound]
Verif.Props.C46_ascii_partial: [propext, Classical.choice, Quot.sound]
Verif.Props.C46_nul_violated: [propext, Classical.choice, Quot.sound]
Verif.Props.C46_high_violated: [propext, Classical.choice, Quot.sound]
Verif.Props.C47_jitter_partial: [propext, Classical.choice, Quot.sound]
Verif.Props.C47_table_partial: [propext, Classical.choice, Quot.sound]
Verif.Props.C47_inverted_partial: [propext, Classical.choice, Quot.sound]
Verif.Props.C47_tick_violated: [propext, Classical.choice, Quot.sound]
Verif.Props.C48_lines_partial: [propext, Quot.sound]
Verif.Props.C48_subsequence: [propext]
Verif.Props.C48_cr_violated: [propext]
Verif.Props.C48_tail_violated: [propext]
Verif.Props.C49_latest: [propext, Classical.choice, Quot.sound]
Verif.Props.C49_case: [propext, Quot.sound]
Verif.Props.C49_getItem: [propext]
Verif.Props.C49_item: []
Verif.Props.C49_agree_partial: [propext, Classical.choice, Quot.sound]
Verif.Props.C49_agree_violated: [propext]
Verif.Props.C50_inherit: [propext, Classical.choice, Quot.sound]
Verif.Props.C50_complete: [propext, Classical.choice, Quot.sound]
Verif.Props.C50_query: [propext, Classical.choice, Quot.sound]
Verif.Props.C50_query_id: [propext, Classical.choice, Quot.sound]
Verif.Props.C50_int_violated: [propext, Classical.choice, Quot.sound]
Verif.Props.C51_bound: [propext, Quot.sound]
Verif.Props.C51_cases: [propext, Classical.choice, Quot.sound]
Verif.Props.C51_endless_circle: [propext, Classical.choice, Quot.sound]
Verif.Props.C51_circle_violated: [propext, Classical.choice, Quot.sound]
Verif.Props.C51_unknown_partial: [propext, Classical.choice, Quot.sound]
Verif.Props.C52_ids: [propext, Classical.choice, Quot.sound]
Verif.Props.C52_observers: [propext, Classical.choice, Quot.sound]
Verif.Props.C52_config: [propext, Quot.sound]
Verif.Props.C52_exactly: [propext, Classical.choice, Quot.sound]
Verif.Props.C53_distinct_partial: [propext, Classical.choice, Quot.sound]
Verif.Props.C53_tasks_partial: [propext, Classical.choice, Quot.sound]
Verif.Props.C53_distinct_violated: [propext, Classical.choice, Quot.sound]
Verif.Props.C53_custom_violated: [propext, Classical.choice, Quot.sound]
Verif.Props.C54_sets: [propext, Classical.choice, Quot.sound]
Verif.Props.C54_preparation: [propext, Classical.choice, Quot.sound]
Verif.Props.C55_paths_partial: [propext, Classical.choice, Quot.sound]
Verif.Props.C55_paths_violated: [propext, Classical.choice, Quot.sound]
Verif.Props.C55_directory_violated: [propext, Classical.choice, Quot.sound]
Verif.Props.C56_exactly: [propext, Classical.choice, Quot.sound]
Verif.Props.C56_match_partial: [propext, Classical.choice, Quot.sound]
Verif.Props.C56_nomcu_violated: [propext, Classical.choice, Quot.sound]
Verif.Props.C57_found: [propext, Classical.choice, Quot.sound]
Verif.Props.C57_complete_partial: [propext, Classical.choice, Quot.sound]
Verif.Props.C57_capeless_violated: [propext, Classical.choice, Quot.sound]
Verif.Props.C57_distinct: [propext, Quot.sound]
Verif.Props.C57_unique_partial: [propext, Classical.choice, Quot.sound]
Verif.Props.C57_port: [propext, Classical.choice, Quot.sound]
Verif.Props.C57_unique_violated: [propext, Quot.sound]
Verif.Props.C58_binary_partial: [propext, Classical.choice, Quot.sound]
Verif.Props.C58_count_partial: [propext, Classical.choice, Quot.sound]
Verif.Props.C58_times_partial: [propext, Classical.choice, Quot.sound]
Verif.Props.C58_resolution_partial: [propext, Classical.choice, Quot.sound]
Verif.Props.C58_count_violated: [propext, Classical.choice, Quot.sound]
Verif.Props.C59_whole_partial: [propext, Classical.choice, Quot.sound]
Verif.Props.C59_fraction_violated: [propext, Classical.choice, Quot.sound]
Verif.Props.C59_loss_partial: [propext, Classical.choice, Quot.sound]
Verif.Props.C60_modify: [propext, Classical.choice, Quot.sound]
Verif.Props.C60_last: [propext, Classical.choice, Quot.sound]
Verif.Props.C60_absent: [propext, Quot.sound]
Verif.Props.C60_names: [propext, Classical.choice, Quot.sound]
Verif.Props.C61_base64: [propext, Classical.choice, Quot.sound]
Verif.Props.C61_embed_partial: [propext, Classical.choice, Quot.sound]
Verif.Props.C61_large_violated: [propext, Classical.choice, Quot.sound]
Verif.Props.C61_reference: [propext, Classical.choice, Quot.sound]
Verif.Props.C61_hash: [propext]
Verif.Props.C61_reference_violated: [propext, Classical.choice, Quot.sound]
Verif.Props.C61_faulty_violated: [propext, Classical.choice, Quot.sound]
Verif.Props.C61_type: [propext, Quot.sound]
Verif.Props.C62_vector_violated: [propext, Classical.choice, Quot.sound]
Verif.Props.C62_checks_partial: [propext, Classical.choice, Quot.sound]
Verif.Props.C62_half_violated: [propext, Classical.choice, Quot.sound]
Verif.Props.C62_nrf52: [propext]
Verif.Props.C62_nrf52_check: [propext, Quot.sound]
Verif.Props.C63_downsample_partial: [propext, Classical.choice, Quot.sound]
Verif.Props.C63_empty: [propext, Classical.choice, Quot.sound]
Verif.Props.C63_grid_violated: [propext, Classical.choice, Quot.sound]
Verif.Props.C63_fails_violated: [propext, Classical.choice, Quot.sound]
Verif.Props.C63_any_factor: [propext, Classical.choice, Quot.sound]
Verif.Props.C63_drift: [propext, Classical.choice, Quot.sound]
Verif.Props.C63_short_violated: [propext, Classical.choice, Quot.sound]
Verif.Props.C63_overrun: [propext, Classical.choice, Quot.sound]
Verif.Props.C63_late: [propext, Classical.choice, Quot.sound]
Verif.Props.C63_late_violated: [propext, Classical.choice, Quot.sound]
Verif.Props.C64_untouched: [propext, Classical.choice, Quot.sound]
Verif.Props.C64_one_output: [propext, Classical.choice, Quot.sound]
Verif.Props.C64_refused: [propext, Classical.choice, Quot.sound]
Verif.Props.C64_range: [propext, Classical.choice, Quot.sound]
Verif.Props.C64_content_partial: [propext, Classical.choice, Quot.sound]
Verif.Props.C64_meta: [propext, Classical.choice, Quot.sound]
Verif.Props.C64_created: [propext, Classical.choice, Quot.sound]
Verif.Props.C64_whole: [propext, Classical.choice, Quot.sound]
Verif.Props.C64_tail_violated: [propext, Classical.choice, Quot.sound]
Verif.Props.C64_collision_violated: [propext, Classical.choice, Quot.sound]
Verif.Props.C64_leftover_violated: [propext, Classical.choice, Quot.sound]
Verif.Props.C65_time: [propext, Classical.choice, Quot.sound]
Verif.Props.C65_time_mono: [propext, Classical.choice, Quot.sound]
Verif.Props.C65_rows: [propext, Classical.choice, Quot.sound]
Verif.Props.C65_raw: [propext, Classical.choice, Quot.sound]
Verif.Props.C65_calibrated_partial: [propext, Classical.choice, Quot.sound]
Verif.Props.C65_uncalibrated_violated: [propext, Classical.choice, Quot.sound]
Verif.Props.C65_existing: [propext, Classical.choice, Quot.sound]
Verif.Props.C65_undescribed: [propext, Classical.choice, Quot.sound]
Verif.Props.C65_leftover_violated: [propext, Classical.choice, Quot.sound]
Verif.Props.C66_table_error: [propext, Classical.choice, Quot.sound]
Verif.Props.C66_curve: [propext, Classical.choice, Quot.sound]
Verif.Props.C66_optimal: [propext, Classical.choice, Quot.sound]
Verif.Props.C66_loss: [propext, Classical.choice, Quot.sound]
Verif.Props.C66_loss_all: [propext, Classical.choice, Quot.sound]
Verif.Props.C66_oc: [propext, Classical.choice, Quot.sound]
Verif.Props.C66_oc_current: [propext, Classical.choice, Quot.sound]
Verif.Props.C66_oc_missing_violated: [propext, Classical.choice, Quot.sound]
Verif.Props.C66_find_oc_partial: [propext, Classical.choice, Quot.sound]
Verif.Props.C66_find_oc_violated: [propext, Classical.choice, Quot.sound]
Verif.Props.C66_table: [propext, Classical.choice, Quot.sound]
Verif.Props.C66_optimal_float: [propext, Classical.choice, Quot.sound]
Verif.Props.C66_empty_float: [propext, Classical.choice, Quot.sound]
Verif.Props.C66_grid_float: [propext, Classical.choice, Quot.sound]
Verif.Props.C66_current_float: [propext, Classical.choice, Quot.sound]
Verif.Props.C66_loss_float: [propext, Classical.choice, Quot.sound]
Verif.Props.C66_loss_good_exp: [propext, Classical.choice, Quot.sound]
Verif.Props.C66_oc_float: [propext, Classical.choice, Quot.sound]
Verif.Props.C67_selected: [propext, Classical.choice, Quot.sound]
Verif.Props.C67_selected_once: [propext]
Verif.Props.C67_case_violated: [propext, Classical.choice, Quot.sound]
Verif.Props.C67_exit_partial: [propext, Classical.choice, Quot.sound]
Verif.Props.C67_order: [propext, Classical.choice, Quot.sound]
Verif.Props.C67_regular: [propext, Classical.choice, Quot.sound]
Verif.Props.C67_unreadable_violated: [propext, Classical.choice, Quot.sound]
Verif.Props.C67_short_violated: [propext, Classical.choice, Quot.sound]
Verif.Props.C68_independent_partial: [propext, Classical.choice, Quot.sound]
Verif.Props.C68_given: [propext, Classical.choice, Quot.sound]
Verif.Props.C68_rate_violated: [propext, Classical.choice, Quot.sound]
Verif.Props.C68_abort_violated: [propext, Classical.choice, Quot.sound]
Verif.Props.C68_untouched: [propext, Classical.choice, Quot.sound]
Verif.Props.C68_unreadable: [propext, Classical.choice, Quot.sound]
Verif.Props.C69_I_mid_out_partial: [propext, Classical.choice, Quot.sound]
Verif.Props.C69_I_mid_out_violated: [propext, Classical.choice, Quot.sound]
Verif.Props.C70_constants: [propext, Classical.choice, Quot.sound]
Verif.Props.C70_buck_thresholds: [propext, Classical.choice, Quot.sound]
Verif.Props.C70_switch_on: [propext, Classical.choice, Quot.sound]
Verif.Props.C70_in_use: [propext, Classical.choice, Quot.sound]
Verif.Props.C70_source_registers: [propext, Classical.choice, Quot.sound]
Verif.Props.C70_efficiency_tables: [propext, Classical.choice, Quot.sound]
Verif.Props.C70_harvester_registers: [propext, Classical.choice, Quot.sound]
Verif.Props.C71_samples_partial: [propext, Classical.choice, Quot.sound]
Verif.Props.C71_mode_partial: [propext, Classical.choice, Quot.sound]
Verif.Props.C71_rejected_violated: [propext, Classical.choice, Quot.sound]
Verif.Props.C72_translate_partial: [propext, Classical.choice, Quot.sound]
Verif.Props.C72_translate_violated: [propext, Classical.choice, Quot.sound]
Verif.Props.C73_missing: [propext, Classical.choice, Quot.sound]
Verif.Props.C73_roundtrip_partial: [propext, Classical.choice, Quot.sound]
Verif.Props.C73_full_partial: [propext, Classical.choice, Quot.sound]
Verif.Props.C73_class: [propext, Classical.choice, Quot.sound]
Verif.Props.C73_generated_violated: [propext, Classical.choice, Quot.sound]
Verif.Props.C74_text: [propext, Classical.choice, Quot.sound]
Verif.Props.C74_readback: [propext, Classical.choice, Quot.sound]
Verif.Props.C74_message: [propext, Classical.choice, Quot.sound]
Verif.Props.C74_log: [propext, Classical.choice, Quot.sound]
Verif.Props.C74_verbatim_violated: [propext, Classical.choice, Quot.sound]
Verif.Props.C74_lines: [propext, Classical.choice, Quot.sound]
Verif.Props.C74_time: [propext, Classical.choice, Quot.sound]
Verif.Props.C74_existing: [propext, Classical.choice, Quot.sound]
Verif.Props.C74_subgroup_violated: [propext, Classical.choice, Quot.sound]
Verif.Props.C75_shown: [propext, Quot.sound]
Verif.Props.C75_silent: [propext]
Verif.Props.C75_limit_violated: [propext, Classical.choice, Quot.sound]
Verif.Props.C76_gapless_partial: [propext, Quot.sound]
Verif.Props.C76_curves_partial: [propext, Quot.sound]
Verif.Props.C76_rest_violated: [propext, Quot.sound]
Verif.Props.C76_grid_violated: [propext, Classical.choice, Quot.sound]
Verif.Props.C76_rows: [propext, Classical.choice, Quot.sound]
Verif.Props.C76_wanted: [propext, Classical.choice, Quot.sound]
Verif.Props.C76_existing: []
Verif.Props.C76_rate_violated: [propext]
Verif.Props.C77_names: [propext, Classical.choice, Quot.sound]
Verif.Props.C77_readable: [propext, Classical.choice, Quot.sound]
Verif.Props.C77_source: [propext, Classical.choice, Quot.sound]
Verif.Props.C78_plot_partial: [propext, Classical.choice, Quot.sound]
Verif.Props.C78_small: [propext, Classical.choice, Quot.sound]
Verif.Props.C78_complete: [propext, Classical.choice, Quot.sound]
Verif.Props.C78_size: [propext, Classical.choice, Quot.sound]
Verif.Props.C78_360s_violated: [propext, Classical.choice, Quot.sound]
Verif.Props.C78_files: [propext, Classical.choice, Quot.sound]
Verif.Props.C78_whole: [propext, Classical.choice, Quot.sound]
Verif.Props.C79_detect: [propext, Classical.choice, Quot.sound]
Verif.Props.C79_exact: [propext, Classical.choice, Quot.sound]
Verif.Props.C79_decode_partial: [propext, Classical.choice, Quot.sound]
Verif.Props.C79_half_violated: [propext, Classical.choice, Quot.sound]
Verif.Props.C80_text_partial: [propext, Classical.choice, Quot.sound]
Verif.Props.C80_short_violated: [propext, Classical.choice, Quot.sound]
Verif.Props.C80_missing: [propext, Classical.choice, Quot.sound]
Verif.Props.C80_kept: [propext, Classical.choice, Quot.sound]
Verif.Props.C80_logs: [propext, Classical.choice, Quot.sound]
Verif.Props.C80_abort_violated: [propext, Classical.choice, Quot.sound]
Verif.Props.C80_precision_violated: [propext, Classical.choice, Quot.sound]
Verif.Props.C81_waveforms: [propext, Classical.choice, Quot.sound]
Verif.Props.C81_names_violated: [propext]
Verif.Props.C81_pin: [propext, Classical.choice, Quot.sound]
Verif.Props.C81_pin_violated: [propext, Classical.choice, Quot.sound]
Verif.Props.C81_kept: [propext, Classical.choice, Quot.sound]
Verif.Props.C81_untouched: [propext, Classical.choice, Quot.sound]
Verif.Props.C81_complete: [propext, Classical.choice, Quot.sound]
Verif.Props.C81_files: [propext, Classical.choice, Quot.sound]
Verif.Props.C81_header_violated: [propext, Classical.choice, Quot.sound]
Verif.Props.C81_abort_violated: [propext, Classical.choice, Quot.sound]
Verif.Props.C82_restart_violated: [propext, Classical.choice, Quot.sound]
Verif.Props.C82_clock_violated: [propext, Classical.choice, Quot.sound]
Verif.Props.C82_collected_violated: [propext, Classical.choice, Quot.sound]
Verif.Props.C82_missing_violated: [propext, Classical.choice, Quot.sound]
Verif.Props.C82_versions_partial: [propext, Classical.choice, Quot.sound]
Verif.Props.C82_psutil_violated: [propext, Classical.choice, Quot.sound]
Verif.Props.C82_collect: [propext, Classical.choice, Quot.sound]
Verif.Props.C83_cells: [propext, Classical.choice, Quot.sound]
Verif.Props.C83_values: [propext, Classical.choice, Quot.sound]
Verif.Props.C83_rows_partial: [propext, Classical.choice, Quot.sound]
Verif.Props.C83_lists_violated: [propext, Classical.choice, Quot.sound]
Verif.Props.C83_df_violated: [propext, Classical.choice, Quot.sound]
Verif.Props.C84_shown_partial: [propext]
Verif.Props.C84_spacing: [propext]
Verif.Props.C84_winter_violated: [propext, Quot.sound]
Verif.Props.C84_date_violated: [propext]
Verif.Props.C84_age: [propext, Classical.choice, Quot.sound]
Verif.Props.C84_start_number: [propext, Classical.choice, Quot.sound]
Verif.Props.C84_start_aware: [propext, Classical.choice, Quot.sound]
Verif.Props.C84_start_naive: [propext, Classical.choice, Quot.sound]
Verif.Props.C85_online_violated: [propext, Quot.sound]
Verif.Props.C85_token_violated: [propext]
Verif.Props.C85_token_file_partial: [propext, Quot.sound]
Verif.Props.C85_no_file: [propext]
Verif.Props.C85_address_violated: [propext]
Verif.Props.C85_owner: [propext, Classical.choice, Quot.sound]
Verif.Props.C85_owner_offline: [propext, Classical.choice, Quot.sound]
Verif.Props.C85_empty_violated: [propext, Quot.sound]
Verif.Props.C86_types: [propext, Classical.choice, Quot.sound]
Verif.Props.C86_fresh: [propext]
Verif.Props.C86_history: [propext, Classical.choice, Quot.sound]
Verif.Props.C86_cache_violated: [propext]
Verif.Props.C86_expired: [propext]
Verif.Props.C87_prepare_partial: [propext, Quot.sound]
Verif.Props.C87_errors: [propext, Classical.choice, Quot.sound]
Verif.Props.C87_testbed: [propext, Classical.choice, Quot.sound]
Verif.Props.C87_only_own: [propext, Classical.choice, Quot.sound]
Verif.Props.C87_without_name: [propext, Classical.choice, Quot.sound]
Verif.Props.C87_set: [propext, Classical.choice, Quot.sound]
Verif.Props.C87_single: [propext, Classical.choice, Quot.sound]
Verif.Props.C87_file: [propext, Classical.choice, Quot.sound]
Verif.Props.C87_in_time: [propext, Classical.choice, Quot.sound]
Verif.Props.C87_experiment_partial: [propext, Classical.choice, Quot.sound]
Verif.Props.C87_foreign_violated: [propext, Classical.choice, Quot.sound]
Verif.Props.C87_others_violated: [propext, Classical.choice, Quot.sound]
Verif.Props.C87_names_violated: [propext, Classical.choice, Quot.sound]
Verif.Props.C88_power: [propext, Quot.sound]
Verif.Props.C88_power_errors: [propext]
Verif.Props.C88_pin: [propext]
Verif.Props.C88_switchable: [propext, Classical.choice, Quot.sound]
Verif.Props.C88_gpio: [propext, Classical.choice, Quot.sound]
Verif.Props.C88_actuation: [propext, Classical.choice, Quot.sound]
Verif.Props.C88_actuation_pins: [propext, Classical.choice, Quot.sound]
Verif.Props.C88_emulation_partial: [propext, Classical.choice, Quot.sound]
Verif.Props.C88_aux: [propext, Classical.choice, Quot.sound]
Verif.Props.C88_actuation_violated: [propext, Classical.choice, Quot.sound]
Verif.Props.C88_pins_violated: [propext, Quot.sound]
Verif.Props.C88_empty_violated: [propext, Classical.choice, Quot.sound]
Verif.Props.C88_refusal_violated: [propext, Classical.choice, Quot.sound]
Verif.Props.C89_verbosity: [propext, Classical.choice, Quot.sound]
Verif.Props.C89_levels: [propext, Classical.choice, Quot.sound]
Verif.Props.C90_content_partial: [propext, Classical.choice, Quot.sound]
Verif.Props.C90_names: [propext, Classical.choice, Quot.sound]
Verif.Props.C90_names_violated: [propext, Classical.choice, Quot.sound]
Verif.Props.C91_parts_partial: [propext, Classical.choice, Quot.sound]
Verif.Props.C91_mirror_partial: [propext, Classical.choice, Quot.sound]
Verif.Props.C91_facts_partial: [propext, Classical.choice, Quot.sound]
Verif.Props.C91_success: [propext, Classical.choice, Quot.sound]
Verif.Props.C91_minimal: [propext, Classical.choice, Quot.sound]
Verif.Props.C91_names_violated: [propext, Classical.choice, Quot.sound]
Verif.Props.C91_array_violated: [propext, Classical.choice, Quot.sound]
Verif.Props.C91_values_violated: [propext, Classical.choice, Quot.sound]
Verif.Props.C91_export: [propext, Quot.sound]
Verif.Props.C91_crash_violated: [propext]
Verif.Props.C92_plot: [propext, Classical.choice, Quot.sound]
Verif.Props.C92_plot_kept: [propext, Classical.choice, Quot.sound]
Verif.Props.C92_plot_unreadable: [propext, Classical.choice, Quot.sound]
Verif.Props.C92_multi: [propext, Classical.choice, Quot.sound]
Verif.Props.C92_plot_abort_violated: [propext, Classical.choice, Quot.sound]
Verif.Props.C92_multi_empty_violated: [propext, Classical.choice, Quot.sound]
Verif.Props.C92_power_violated: [propext, Classical.choice, Quot.sound]
Verif.Props.C92_meta: [propext, Classical.choice, Quot.sound]
Verif.Props.C92_meta_kept: [propext, Classical.choice, Quot.sound]
Verif.Props.C92_meta_unreadable: [propext, Classical.choice, Quot.sound]
Verif.Props.C92_meta_abort_violated: [propext, Classical.choice, Quot.sound]
Verif.Props.C92_extract: [propext, Classical.choice, Quot.sound]
Verif.Props.C92_extract_kept: [propext, Classical.choice, Quot.sound]
Verif.Props.C92_extract_unreadable: [propext, Classical.choice, Quot.sound]
Verif.Props.C92_rows: [propext, Classical.choice, Quot.sound]
Verif.Props.C92_extract_abort_violated: [propext, Classical.choice, Quot.sound]
Verif.Props.C92_collision_violated: [propext, Classical.choice, Quot.sound]
Verif.Props.C93_hex: [propext, Classical.choice, Quot.sound]
Verif.Props.C93_elf: [propext, Classical.choice, Quot.sound]
Verif.Props.C93_content: [propext, Classical.choice, Quot.sound]
Verif.Props.C93_directory_partial: [propext, Classical.choice, Quot.sound]
Verif.Props.C93_directory_violated: [propext, Classical.choice, Quot.sound]
Verif.Props.C93_mcu_violated: [propext, Classical.choice, Quot.sound]
Verif.Props.C93_arch_violated: [propext, Classical.choice, Quot.sound]
Verif.Props.C93_exec_violated: [propext, Classical.choice, Quot.sound]
Verif.Props.C93_type_violated: [propext, Classical.choice, Quot.sound]
Verif.Props.C93_name_violated: [propext, Classical.choice, Quot.sound]
Verif.Props.C93_task_violated: [propext, Classical.choice, Quot.sound]
Verif.Props.C94_type: [propext, Quot.sound]
Verif.Props.C94_arch_hex: [propext, Classical.choice, Quot.sound]
Verif.Props.C94_arch_elf_partial: [propext, Classical.choice, Quot.sound]
Verif.Props.C94_arch_elf_violated: [propext, Classical.choice, Quot.sound]
Verif.Props.C94_convert: [propext, Quot.sound]
Verif.Props.C94_convert_violated: [propext]
Verif.Props.C95_testbed: [propext, Classical.choice, Quot.sound]
Verif.Props.C95_targets: [propext, Classical.choice, Quot.sound]
Verif.Props.C95_database: [propext, Classical.choice, Quot.sound]
Verif.Props.C95_experiments: [propext, Classical.choice, Quot.sound]
Verif.Props.C95_valid_iff: [propext, Classical.choice, Quot.sound]
Verif.Props.C95_tasks: [propext, Classical.choice, Quot.sound]
Verif.Props.C96_names: [propext, Classical.choice, Quot.sound]
Verif.Props.C96_ids_partial: [propext, Classical.choice, Quot.sound]
Verif.Props.C96_ids_violated: [propext, Classical.choice, Quot.sound]
Verif.Props.C96_harvesters: [propext, Classical.choice, Quot.sound]
Verif.Props.C96_harvester_use: [propext, Classical.choice, Quot.sound]
Verif.Props.C96_sources: [propext, Classical.choice, Quot.sound]
Verif.Props.C96_runs: [propext, Classical.choice, Quot.sound]
Verif.Props.C96_power_good: [propext, Classical.choice, Quot.sound]
Verif.Props.C96_input_partial: [propext, Classical.choice, Quot.sound]
Verif.Props.C96_energy_violated: [propext, Classical.choice, Quot.sound]
Verif.Props.C97_direction: [propext, Classical.choice, Quot.sound]
Verif.Props.C97_limit_violated: [propext, Classical.choice, Quot.sound]
Verif.Props.C97_constant_violated: [propext, Classical.choice, Quot.sound]
Verif.Props.C98_samples: [propext, Classical.choice, Quot.sound]
Verif.Props.C98_interrupted_violated: [propext, Classical.choice, Quot.sound]
Verif.Props.C98_labels: [propext, Classical.choice, Quot.sound]
Verif.Props.C98_valid_partial: [propext, Classical.choice, Quot.sound]
Verif.Props.C98_finishes: [propext, Classical.choice, Quot.sound]
Verif.Props.C98_untouched: [propext, Classical.choice, Quot.sound]
Verif.Props.C98_calibration_violated: [propext, Classical.choice, Quot.sound]
Verif.Props.C98_mode_violated: [propext, Classical.choice, Quot.sound]
Verif.Props.C98_all: [propext, Classical.choice, Quot.sound]
Verif.Props.C98_stop_violated: [propext, Classical.choice, Quot.sound]
Verif.Props.C98_foreign_violated: [propext, Classical.choice, Quot.sound]
Verif.Props.C99_recording: [propext, Classical.choice, Quot.sound]
Verif.Props.C99_static: [propext, Classical.choice, Quot.sound]
Verif.Props.C99_ramp: [propext, Classical.choice, Quot.sound]
Verif.Props.C99_environment: [propext, Classical.choice, Quot.sound]
Verif.Props.C99_energy_violated: [propext, Classical.choice, Quot.sound]
Verif.Props.C99_interrupted_violated: [propext, Classical.choice, Quot.sound]
Verif.Props.C99_stuck_violated: [propext, Classical.choice, Quot.sound]
Verif.Props.C99_ramp_float: [propext, Classical.choice, Quot.sound]
Verif.Props.C99_environment_float: [propext, Classical.choice, Quot.sound]
Verif.Props.C99_interrupted_float_violated: [propext, Classical.choice, Quot.sound]
Verif.Props.C99_stuck_float_violated: [propext, Classical.choice, Quot.sound]
Verif.Props.C100_path: [propext, Classical.choice, Quot.sound]
Verif.Props.C100_fixed: [propext, Classical.choice, Quot.sound]
Verif.Props.C100_distinct: [propext, Classical.choice, Quot.sound]
Verif.Props.C100_complete: [propext, Classical.choice, Quot.sound]
Verif.Props.C100_stopped: [propext, Classical.choice, Quot.sound]
Verif.Props.C100_again: [propext, Classical.choice, Quot.sound]
Verif.Props.C100_elsewhere_violated: [propext, Classical.choice, Quot.sound]
Verif.Props.C100_embedded_violated: [propext, Classical.choice, Quot.sound]
Verif.Props.C100_hex_violated: [propext, Classical.choice, Quot.sound]
Verif.Props.C101_fingerprint: [propext, Classical.choice, Quot.sound]
Verif.Props.C101_repr: [propext, Classical.choice, Quot.sound]
Verif.Props.C101_mapping: [propext, Classical.choice, Quot.sound]
Verif.Props.C101_absent_violated: [propext, Quot.sound]
Verif.Props.C101_class_violated: [propext, Classical.choice, Quot.sound]
Verif.Props.C101_secret_violated: [propext, Classical.choice, Quot.sound]
Verif.Props.C102_last: [propext, Classical.choice, Quot.sound]
Verif.Props.C102_others: [propext, Classical.choice, Quot.sound]
Verif.Props.C102_class: [propext, Classical.choice, Quot.sound]
Verif.Props.C102_paths: [propext, Classical.choice, Quot.sound]
Verif.Props.C102_name_violated: [propext, Classical.choice, Quot.sound]
Verif.Props.C102_collide_violated: [propext, Classical.choice, Quot.sound]
Verif.Props.C102_interrupted_violated: [propext, Classical.choice, Quot.sound]
Verif.Props.C102_cut_violated: [propext, Classical.choice, Quot.sound]
Verif.Props.C103_balance_partial: [propext, Classical.choice, Quot.sound]
Verif.Props.C103_cycle_violated: [propext, Classical.choice, Quot.sound]
Verif.Props.C103_collapse_violated: [propext, Classical.choice, Quot.sound]
Verif.Props.C103_balance_double_partial: [propext, Classical.choice, Quot.sound]
Verif.Props.C103_powers_partial: [propext, Classical.choice, Quot.sound]
Verif.Props.C103_counters_partial: [propext, Classical.choice, Quot.sound]
Verif.Props.C103_cycle_binary64_violated: [propext, Classical.choice, Quot.sound]
Verif.Props.C103_collapse_binary64_violated: [propext, Classical.choice, Quot.sound]
Verif.Props.C104_matrix: [propext, Classical.choice, Quot.sound]
Verif.Props.C104_title: [propext, Classical.choice, Quot.sound]
Verif.Props.C104_shape: [propext, Classical.choice, Quot.sound]
Verif.Props.C104_no_matrix: [propext, Classical.choice, Quot.sound]
Verif.Props.C104_links: [propext, Classical.choice, Quot.sound]
Verif.Props.C104_symmetric: [propext, Classical.choice, Quot.sound]
Verif.Props.C104_width: [propext, Classical.choice, Quot.sound]
Verif.Props.C104_weak_violated: [propext, Classical.choice, Quot.sound]
Verif.Props.C104_unknown_violated: [propext, Classical.choice, Quot.sound]
Verif.Props.C104_after_image: [propext, Classical.choice, Quot.sound]
Verif.Props.C104_after_svg: [propext, Classical.choice, Quot.sound]
Verif.Props.C104_script: [propext, Classical.choice, Quot.sound]
Verif.Props.C104_script_nodes: [propext, Classical.choice, Quot.sound]
Verif.Props.C104_line_text: [propext, Classical.choice, Quot.sound]
Verif.Props.C104_group: [propext, Classical.choice, Quot.sound]
Verif.Props.C104_nodes: [propext, Classical.choice, Quot.sound]
Verif.Props.C104_multiline_violated: [propext, Classical.choice, Quot.sound]
Verif.Props.C104_oneline_violated: [propext, Classical.choice, Quot.sound]
Verif.Props.C105_reported: [propext, Classical.choice, Quot.sound]
Verif.Props.C105_missed_violated: [propext, Classical.choice, Quot.sound]
Verif.Props.C105_invented_violated: [propext, Classical.choice, Quot.sound]
Verif.Props.C106_source_partial: [propext, Classical.choice, Quot.sound]
Verif.Props.C106_source_energy: [propext, Classical.choice, Quot.sound]
Verif.Props.C106_source_error: [propext, Classical.choice, Quot.sound]
Verif.Props.C106_short_violated: [propext, Classical.choice, Quot.sound]
Verif.Props.C106_harvester_partial: [propext, Classical.choice, Quot.sound]
Verif.Props.C106_source_read: [propext, Classical.choice, Quot.sound]
Verif.Props.C106_harvester_read: [propext, Classical.choice, Quot.sound]
Verif.Props.C107_rows: [propext, Classical.choice, Quot.sound]
Verif.Props.C107_100kHz_partial: [propext, Classical.choice, Quot.sound]
Verif.Props.C107_rate_violated: [propext, Classical.choice, Quot.sound]
Verif.Props.C107_values: [propext, Classical.choice, Quot.sound]
Verif.Props.C108_rows_partial: [propext, Classical.choice, Quot.sound]
Verif.Props.C108_cells_partial: [propext, Quot.sound]
Verif.Props.C108_header: [propext, Classical.choice, Quot.sound]
Verif.Props.C108_description_violated: [propext, Classical.choice, Quot.sound]
Verif.Props.C108_capeless_violated: [propext, Classical.choice, Quot.sound]
Verif.Props.C108_values: [propext, Classical.choice, Quot.sound]
Verif.Props.C108_lines_partial: [propext, Quot.sound]
Verif.Props.C108_newline_violated: [propext, Classical.choice, Quot.sound]
Verif.Props.C109_times: [propext, Classical.choice, Quot.sound]
Verif.Props.C109_refused: [propext, Classical.choice, Quot.sound]
Verif.Props.C109_again: [propext, Classical.choice, Quot.sound]
Verif.Props.C109_stable: [propext, Classical.choice, Quot.sound]
Verif.Props.C109_untouched_violated: [propext, Classical.choice, Quot.sound]
Verif.Props.C110_content: [propext, Quot.sound]
Verif.Props.C110_fresh: [propext, Quot.sound]
Verif.Props.C110_untouched: [propext, Quot.sound]
Verif.Props.C110_history: [propext, Quot.sound]
Verif.Props.C110_query_violated: [propext, Quot.sound]
Verif.Props.C110_task_partial: [propext]
Verif.Props.C110_task_violated: [propext]
Verif.Props.C110_user_violated: [propext]
Verif.Props.C110_keywords: [propext, Quot.sound]
Verif.Props.C110_tokens: [propext, Quot.sound]
Verif.Props.C111_level: [propext, Classical.choice, Quot.sound]
Verif.Props.C111_never_quieter: [propext, Classical.choice, Quot.sound]
Verif.Props.C111_readers: [propext, Classical.choice, Quot.sound]
Verif.Props.C111_numbers: [propext, Quot.sound]
Verif.Props.C111_shared_violated: [propext, Quot.sound]
Verif.Props.C111_option_violated: [propext, Classical.choice, Quot.sound]
Verif.Props.C111_option_partial: [propext, Quot.sound]
Verif.Props.C111_sources_violated: [propext, Classical.choice, Quot.sound]
Verif.Props.C111_negative_violated: [propext, Quot.sound]
Verif.Props.C112_calendar: [propext, Classical.choice, Quot.sound]
Verif.Props.C112_sorted: [propext, Classical.choice, Quot.sound]
Verif.Props.C112_digits: [propext, Classical.choice, Quot.sound]
Verif.Props.C112_text: [propext, Classical.choice, Quot.sound]
Verif.Props.C112_samples: [propext, Classical.choice, Quot.sound]
Verif.Props.C112_table: [propext, Classical.choice, Quot.sound]
Verif.Props.C112_directory: [propext, Classical.choice, Quot.sound]
Verif.Props.C112_directory_violated: [propext, Quot.sound]
Verif.Props.C112_spread_violated: [propext, Classical.choice, Quot.sound]
Verif.Props.C112_together: [propext]
Verif.Props.C112_iso: [propext, Classical.choice, Quot.sound]
Verif.Props.C113_readback: [propext, Classical.choice, Quot.sound]
Verif.Props.C113_columns: [propext, Classical.choice, Quot.sound]
Verif.Props.C113_recording: [propext, Classical.choice, Quot.sound]
Verif.Props.C113_export: [propext, Classical.choice, Quot.sound]
Verif.Props.C113_tab_violated: [propext]
Verif.Props.C113_columns_violated: [propext, Classical.choice, Quot.sound]
Verif.Props.C114_machine: [propext, Quot.sound]
Verif.Props.C114_shared: [propext, Quot.sound]
Verif.Props.C114_recovers: [propext, Quot.sound]
Verif.Props.C114_cut_violated: [propext, Quot.sound]
Verif.Props.C115_earlier: [propext, Classical.choice, Quot.sound]
Verif.Props.C115_apart: [propext, Classical.choice, Quot.sound]
Verif.Props.C115_beginnings: [propext, Classical.choice, Quot.sound]
Verif.Props.C115_prompt: [propext, Classical.choice, Quot.sound]
Verif.Props.C115_race_violated: [propext, Classical.choice, Quot.sound]
Verif.Props.C115_alone: [propext, Classical.choice, Quot.sound]
Verif.Props.C116_ip: [propext, Classical.choice, Quot.sound]
Verif.Props.C116_uuid: [propext, Classical.choice, Quot.sound]
Verif.Props.C116_path: [propext, Classical.choice, Quot.sound]
Verif.Props.C116_span: [propext, Classical.choice, Quot.sound]
Verif.Props.C116_written: [propext, Classical.choice, Quot.sound]
Verif.Props.C116_untouched: [propext, Classical.choice, Quot.sound]
Verif.Props.C116_classes: [propext, Classical.choice, Quot.sound]
Verif.Props.C116_observer: [propext, Classical.choice, Quot.sound]
Verif.Props.C116_testbed: [propext, Classical.choice, Quot.sound]
Verif.Props.C116_user_violated: [propext, Classical.choice, Quot.sound]
Verif.Props.C116_url_violated: [propext, Classical.choice, Quot.sound]
Verif.Props.C117_number: [propext, Classical.choice, Quot.sound]
Verif.Props.C117_sign: [propext, Classical.choice, Quot.sound]
Verif.Props.C117_chars: [propext, Classical.choice, Quot.sound]
Verif.Props.C117_yaml: [propext, Classical.choice, Quot.sound]
Verif.Props.C117_scalar: [propext, Classical.choice, Quot.sound]
Verif.Props.C117_table: [propext, Classical.choice, Quot.sound]
Verif.Props.C117_shortest: [propext, Classical.choice, Quot.sound]
Verif.Props.C117_closest: [propext, Classical.choice, Quot.sound]
Verif.Props.C118_same: [propext, Quot.sound]
Verif.Props.C118_parts: [propext, Quot.sound]
Verif.Props.C118_earlier: [propext, Quot.sound]
Verif.Props.C118_prompt: [propext, Classical.choice, Quot.sound]
Verif.Props.C118_ends: [propext, Classical.choice, Quot.sound]
Verif.Props.C118_mixed_violated: [propext, Classical.choice, Quot.sound]
Verif.Props.C118_killed_violated: [propext, Classical.choice, Quot.sound]
Verif.Props.C118_table: [propext, Classical.choice, Quot.sound]
Verif.Props.C119_loop: [propext, Classical.choice, Quot.sound]
Verif.Props.C119_ends: [propext, Classical.choice, Quot.sound]
Verif.Props.C119_nested_violated: [propext, Classical.choice, Quot.sound]
Verif.Props.C119_endless_violated: [propext, Classical.choice, Quot.sound]
Verif.Props.C119_member_violated: [propext, Quot.sound]
Verif.Props.C119_test_violated: [propext, Classical.choice, Quot.sound]
Verif.Props.C120_untouched: [propext, Classical.choice, Quot.sound]
Verif.Props.C120_samples_violated: [propext, Classical.choice, Quot.sound]
Verif.Props.C120_time_partial: [propext, Classical.choice, Quot.sound]
Verif.Props.C120_start_violated: [propext, Classical.choice, Quot.sound]
Verif.Props.C120_border_violated: [propext, Classical.choice, Quot.sound]
Verif.Props.C120_error_violated: [propext, Classical.choice, Quot.sound]
Verif.Props.C121_rows: [propext, Classical.choice, Quot.sound]
Verif.Props.C121_optimal: [propext, Classical.choice, Quot.sound]
Verif.Props.C121_stamped: [propext, Classical.choice, Quot.sound]
Verif.Props.C121_lines: [propext, Classical.choice, Quot.sound]
Verif.Props.C121_limits_violated: [propext, Classical.choice, Quot.sound]
Verif.Props.C121_duration_violated: [propext, Classical.choice, Quot.sound]
Verif.Props.C121_curves: [propext, Classical.choice, Quot.sound]
Verif.Props.C121_curves_violated: [propext, Classical.choice, Quot.sound]
Verif.Props.C122_read_partial: [propext, Classical.choice, Quot.sound]
Verif.Props.C122_seconds_violated: [propext, Classical.choice, Quot.sound]
Verif.Props.C122_different: [propext, Classical.choice, Quot.sound]
Verif.Props.C122_instants: [propext, Classical.choice, Quot.sound]
Verif.Props.C122_ordinal: [propext, Classical.choice, Quot.sound]
Verif.Props.C122_moment: [propext, Classical.choice, Quot.sound]
Verif.Props.C122_days: [propext, Classical.choice, Quot.sound]
Verif.Props.C122_fractions: [propext, Classical.choice, Quot.sound]
Verif.Props.C123_text: [propext, Classical.choice, Quot.sound]
Verif.Props.C124_values: [propext, Classical.choice, Quot.sound]
Verif.Props.C124_different: [propext, Classical.choice, Quot.sound]
Verif.Props.C125_file: [propext, Classical.choice, Quot.sound]
Verif.Props.C125_different: [propext, Classical.choice, Quot.sound]
Verif.Props.C125_bytes: [propext, Classical.choice, Quot.sound]
Verif.Props.C125_model: [propext, Classical.choice, Quot.sound]
Verif.Props.C125_roundtrip: [propext, Classical.choice, Quot.sound]
Verif.Props.C125_classes: [propext, Classical.choice, Quot.sound]
