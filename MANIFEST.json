{
 "claims": [
  {
   "property": "C01",
   "status": "proved",
   "theorems": [
    "Verif.Props.C01_ecc_round_trip"
   ],
   "note": ""
  },
  {
   "property": "C02",
   "status": "proved",
   "theorems": [
    "Verif.Props.C02_single_bit_corrected"
   ],
   "note": ""
  },
  {
   "property": "C03",
   "status": "proved",
   "theorems": [
    "Verif.Props.C03_double_bit_detected"
   ],
   "note": ""
  },
  {
   "property": "C04",
   "status": "proved",
   "theorems": [
    "Verif.Props.C04_blank_rejected"
   ],
   "note": ""
  },
  {
   "property": "C05",
   "status": "proved",
   "theorems": [
    "Verif.Props.C05_record_round_trip"
   ],
   "note": ""
  },
  {
   "property": "C06",
   "status": "proved",
   "theorems": [
    "Verif.Props.C06_fourfold_redundancy"
   ],
   "note": ""
  },
  {
   "property": "C07",
   "status": "proved",
   "theorems": [
    "Verif.Props.C07_write_read",
    "Verif.Props.C07_write_read_direct",
    "Verif.Props.C10_closed_content"
   ],
   "note": "Call-level model of the file system; the two ways of creating a file. CRC is a parameter (any function)."
  },
  {
   "property": "C08",
   "status": "proved",
   "theorems": [
    "Verif.Props.C08_flushed_survives",
    "Verif.Props.C08_power_loss_write",
    "Verif.Props.C08_restart",
    "Verif.Props.C08_power_loss_directory",
    "Verif.Props.C08_power_loss_open"
   ],
   "note": "Power loss during every call of a writer and during create, remove and the two ways of opening a new file, torn pages and erases included (directories of at most 2517 of 2518 files for the latter). Power loss while opening for append is C67."
  },
  {
   "property": "C09",
   "status": "proved",
   "theorems": [
    "Verif.Props.returned_bytes_from_good_pages",
    "Verif.Props.reads_deliver_stream"
   ],
   "note": "CRC function is a parameter; (a) any chip content, (b) exact stream for a file whose sector chain can be followed"
  },
  {
   "property": "C10",
   "status": "proved",
   "theorems": [
    "Verif.Props.C10_reopen_appends",
    "Verif.Props.C10_closed_content"
   ],
   "note": "Every reachable state, every way of writing and flushing."
  },
  {
   "property": "C100",
   "status": "proved",
   "theorems": [
    "Verif.Props.C100_read",
    "Verif.Props.C100_read_simulated",
    "Verif.Props.C100_read_long",
    "Verif.Props.C100_read_long_wrong",
    "Verif.Props.C100_read_small",
    "Verif.Props.C100_write",
    "Verif.Props.C100_write_read",
    "Verif.Props.C100_write_odd"
   ],
   "note": "driver of the real chip is a parameter: what it does with the scratch bytes"
  },
  {
   "property": "C101",
   "status": "proved",
   "theorems": [
    "Verif.Props.C101_in_order",
    "Verif.Props.C101_none_lost",
    "Verif.Props.C101_plays",
    "Verif.Props.C101_eleven",
    "Verif.Props.C101_too_early",
    "Verif.Props.C101_arming",
    "Verif.Props.C101_arming_start",
    "Verif.Props.C101_arming_last"
   ],
   "note": "embassy PubSubChannel and Signal as documented"
  },
  {
   "property": "C102",
   "status": "proved",
   "theorems": [
    "Verif.Props.C102_order",
    "Verif.Props.C102_complete",
    "Verif.Props.C102_progress",
    "Verif.Props.C102_slow",
    "Verif.Props.C102_panic",
    "Verif.Props.C102_signal"
   ],
   "note": "embassy PubSubChannel as documented; file and logger are C07/C63/C88"
  },
  {
   "property": "C103",
   "status": "proved",
   "theorems": [
    "Verif.Props.C103_deque",
    "Verif.Props.C103_bounded",
    "Verif.Props.C103_new"
   ],
   "note": "calls answer as a bounded deque"
  },
  {
   "property": "C104",
   "status": "proved",
   "theorems": [
    "Verif.Props.C104_samples",
    "Verif.Props.C104_early",
    "Verif.Props.C104_negative",
    "Verif.Props.C104_within"
   ],
   "note": "exact arithmetic; any filter"
  },
  {
   "property": "C105",
   "status": "proved",
   "theorems": [
    "Verif.Props.C105_stream",
    "Verif.Props.C105_delivery",
    "Verif.Props.C105_complete",
    "Verif.Props.C105_times"
   ],
   "note": "exact arithmetic; any filter; settling loop with fuel"
  },
  {
   "property": "C106",
   "status": "proved",
   "theorems": [
    "Verif.Props.C106_rows",
    "Verif.Props.C106_stored",
    "Verif.Props.C106_kept",
    "Verif.Props.C106_feed",
    "Verif.Props.C106_order",
    "Verif.Props.C106_all",
    "Verif.Props.C106_lost",
    "Verif.Props.C106_lost_demo",
    "Verif.Props.C106_repeated"
   ],
   "note": "IndexedDB from its documentation"
  },
  {
   "property": "C107",
   "status": "proved",
   "theorems": [
    "Verif.Props.C107_distinct",
    "Verif.Props.C107_received",
    "Verif.Props.C107_effect",
    "Verif.Props.C107_retries",
    "Verif.Props.C107_retries_manual",
    "Verif.Props.C107_manual_late",
    "Verif.Props.C107_ground_test"
   ],
   "note": "two findings: manual deployment before set-up is acknowledged and dropped; the tool cannot fire a ground test"
  },
  {
   "property": "C108",
   "status": "proved",
   "theorems": [
    "Verif.Props.C108_vector",
    "Verif.Props.C108_assign",
    "Verif.Props.C108_short",
    "Verif.Props.C108_long",
    "Verif.Props.C108_panic",
    "Verif.Props.C108_panic_witness",
    "Verif.Props.C108_ascii",
    "Verif.Props.C108_none"
   ],
   "note": "finding: names longer than 64 bytes cut inside a character crash the host tool"
  },
  {
   "property": "C109",
   "status": "proved",
   "theorems": [
    "Verif.Props.C109_text",
    "Verif.Props.C109_values",
    "Verif.Props.C109_distinct"
   ],
   "note": "JSON grammar restricted to arrays of natural numbers; serde_json is trusted to accept exactly the grammar"
  },
  {
   "property": "C11",
   "status": "proved",
   "theorems": [
    "Verif.Props.C11_file_size",
    "Verif.Props.C11_file_size_open",
    "Verif.Props.C11_file_size_missing"
   ],
   "note": ""
  },
  {
   "property": "C110",
   "status": "proved",
   "theorems": [
    "Verif.Props.C110_numbers",
    "Verif.Props.C110_any"
   ],
   "note": ""
  },
  {
   "property": "C111",
   "status": "proved",
   "theorems": [
    "Verif.Props.C111_axis",
    "Verif.Props.C111_shift",
    "Verif.Props.C111_nan",
    "Verif.Props.C111_returns"
   ],
   "note": "exact numbers; findings: one band early, NaN cells"
  },
  {
   "property": "C112",
   "status": "proved",
   "theorems": [
    "Verif.Props.C112_column",
    "Verif.Props.C112_nearest",
    "Verif.Props.C112_returns"
   ],
   "note": "exact numbers; finding: one source period late"
  },
  {
   "property": "C113",
   "status": "proved",
   "theorems": [
    "Verif.Props.C113_players",
    "Verif.Props.C113_settles",
    "Verif.Props.C113_hidden",
    "Verif.Props.C113_zoom_after_dispose"
   ],
   "note": "findings: hidden graph loses channel, zoom after dispose"
  },
  {
   "property": "C114",
   "status": "proved",
   "theorems": [
    "Verif.Props.C114_lines",
    "Verif.Props.C114_columns",
    "Verif.Props.C114_window"
   ],
   "note": "exact numbers"
  },
  {
   "property": "C115",
   "status": "proved",
   "theorems": [
    "Verif.Props.C115_readings",
    "Verif.Props.C115_ffts",
    "Verif.Props.C115_proper",
    "Verif.Props.C115_ffts_proper",
    "Verif.Props.C115_disconnect",
    "Verif.Props.C115_disconnect_early",
    "Verif.Props.C115_clock_back",
    "Verif.Props.C115_mic",
    "Verif.Props.C115_mic_stream",
    "Verif.Props.C115_ids",
    "Verif.Props.C115_lookup",
    "Verif.Props.C115_active",
    "Verif.Props.C115_remove",
    "Verif.Props.C115_deliver_mock",
    "Verif.Props.C115_deliver_mic",
    "Verif.Props.C115_terminated",
    "Verif.Props.C115_stored",
    "Verif.Props.C115_channels",
    "Verif.Props.C115_channels_kept",
    "Verif.Props.C115_off",
    "Verif.Props.C115_mic_disconnect"
   ],
   "note": "findings: C115_disconnect_early, C115_clock_back"
  },
  {
   "property": "C116",
   "status": "proved",
   "theorems": [
    "Verif.Props.C116_now",
    "Verif.Props.C116_ready",
    "Verif.Props.C116_woke",
    "Verif.Props.C116_prompt",
    "Verif.Props.C116_order",
    "Verif.Props.C116_once"
   ],
   "note": "f64 times are rationals"
  },
  {
   "property": "C117",
   "status": "proved",
   "theorems": [
    "Verif.Props.C117_sensor",
    "Verif.Props.C117_sensor_order",
    "Verif.Props.C117_sensor_overwrite",
    "Verif.Props.C117_switch_read",
    "Verif.Props.C117_switch_follow",
    "Verif.Props.C117_switch_changes",
    "Verif.Props.C117_switch_stutter",
    "Verif.Props.C117_output"
   ],
   "note": "finding: C117_switch_stutter"
  },
  {
   "property": "C118",
   "status": "proved",
   "theorems": [
    "Verif.Props.C118_link_prefix",
    "Verif.Props.C118_link_complete",
    "Verif.Props.C118_link_progress",
    "Verif.Props.C118_link_drain",
    "Verif.Props.C118_link_empty_write",
    "Verif.Props.C118_link_resplit",
    "Verif.Props.C118_msg",
    "Verif.Props.C118_msg_panic",
    "Verif.Props.C118_air_newest",
    "Verif.Props.C118_air_count",
    "Verif.Props.C118_air_deliver",
    "Verif.Props.C118_air_twice",
    "Verif.Props.C118_air_gone"
   ],
   "note": "findings: C118_link_empty_write, C118_link_resplit, C118_msg_panic, C118_air_twice, C118_air_gone"
  },
  {
   "property": "C119",
   "status": "proved",
   "theorems": [
    "Verif.Props.C119_rows",
    "Verif.Props.C119_kept",
    "Verif.Props.C119_feed",
    "Verif.Props.C119_order",
    "Verif.Props.C119_all",
    "Verif.Props.C119_lost"
   ],
   "note": "for every history"
  },
  {
   "property": "C12",
   "status": "proved",
   "theorems": [
    "Verif.Props.C12_directory_atomic"
   ],
   "note": "every history, call and crash point incl. torn page programs and partial erases; directories up to 2517 files and types < 0x4000"
  },
  {
   "property": "C120",
   "status": "proved",
   "theorems": [
    "Verif.Props.C120_stream",
    "Verif.Props.C120_delivery",
    "Verif.Props.C120_complete",
    "Verif.Props.C120_times",
    "Verif.Props.C120_returns"
   ],
   "note": "for every filter, axis, width and history; C120_returns for the noop filter"
  },
  {
   "property": "C121",
   "status": "proved",
   "theorems": [
    "Verif.Props.C121_accepting",
    "Verif.Props.C121_write_refused_close",
    "Verif.Props.C121_write_again",
    "Verif.Props.C121_flush_refused_close",
    "Verif.Props.C121_close_panics",
    "Verif.Props.C121_next_write_panics",
    "Verif.Props.C121_flush_refused_write_corrupts"
   ],
   "note": "Refusals of page programs of the writer; erases and directory writes that fail are not modelled."
  },
  {
   "property": "C122",
   "status": "proved",
   "theorems": [
    "Verif.Props.C122_returns",
    "Verif.Props.C122_create_refused",
    "Verif.Props.C122_remove_refused",
    "Verif.Props.C122_create_open_refused",
    "Verif.Props.C122_full_panics",
    "Verif.Props.C122_first_refused"
   ],
   "note": "The restart theorems are for directories of at most 2517 of 2518 files. Reads that fail and open_file_for_write are not modelled."
  },
  {
   "property": "C123",
   "status": "proved",
   "theorems": [
    "Verif.Props.C123_transparent",
    "Verif.Props.C123_statistics",
    "Verif.Props.C123_read_counted",
    "Verif.Props.C123_write_counted"
   ],
   "note": "times over an abstract arithmetic; counters unbounded; dropped futures not modelled"
  },
  {
   "property": "C124",
   "status": "proved",
   "theorems": [
    "Verif.Props.C124_survives",
    "Verif.Props.C124_flushed",
    "Verif.Props.C124_write",
    "Verif.Props.C124_download",
    "Verif.Props.C124_end_to_end",
    "Verif.Props.C124_case"
   ],
   "note": "the printing of records and the files of the host are not modelled; f64 timestamps are rationals in the conversion"
  },
  {
   "property": "C125",
   "status": "proved",
   "theorems": [
    "Verif.Props.C125_shows",
    "Verif.Props.C125_keyframe",
    "Verif.Props.C125_finished",
    "Verif.Props.C125_run",
    "Verif.Props.C125_built",
    "Verif.Props.C125_absolute",
    "Verif.Props.C125_single",
    "Verif.Props.C125_lerp_num"
   ],
   "note": "f32 replaced by an ordered field; the slerp of orientations is any interpolation exact at its ends"
  },
  {
   "property": "C126",
   "status": "proved",
   "theorems": [
    "Verif.Props.C126_joined",
    "Verif.Props.C126_unambiguous",
    "Verif.Props.C126_rest",
    "Verif.Props.C126_spin",
    "Verif.Props.C126_measured",
    "Verif.Props.C126_seconds"
   ],
   "note": "orientations as integer matrices (all are products of quarter turns); the physics and joint of the simulation, which make the device follow, are not modelled"
  },
  {
   "property": "C127",
   "status": "proved",
   "theorems": [
    "Verif.Props.C127_upload",
    "Verif.Props.C127_host",
    "Verif.Props.C127_parts",
    "Verif.Props.C127_demo"
   ],
   "note": "serial errors are not modelled; errors of the file system end the program with a panic (outcome fsError)"
  },
  {
   "property": "C128",
   "status": "proved",
   "theorems": [
    "Verif.Props.C128_any_file",
    "Verif.Props.C128_messages",
    "Verif.Props.C128_empty_message_looks_like_the_end",
    "Verif.Props.C128_demo"
   ],
   "note": "finding: an empty message looks like the end of the file"
  },
  {
   "property": "C129",
   "status": "proved",
   "theorems": [
    "Verif.Props.C129_thrust",
    "Verif.Props.C129_thrust_remains",
    "Verif.Props.C129_mounts",
    "Verif.Props.C129_ignition_panics",
    "Verif.Props.C129_set_up_twice_held"
   ],
   "note": "findings: residual thrust after burn-out; ignition without mount panics; set up twice stays held"
  },
  {
   "property": "C13",
   "status": "proved",
   "theorems": [
    "Verif.Props.C13_newest_copy_wins",
    "Verif.Props.C13_update_advances"
   ],
   "note": ""
  },
  {
   "property": "C130",
   "status": "proved",
   "theorems": [
    "Verif.Props.C130_selection",
    "Verif.Props.C130_colour_throws",
    "Verif.Props.C130_scale_positive",
    "Verif.Props.C130_scale_lost",
    "Verif.Props.C130_wheel_drifts"
   ],
   "note": "findings: colour of an unchecked channel throws; zoom can become zero or negative; wheel there and back drifts"
  },
  {
   "property": "C131",
   "status": "proved",
   "theorems": [
    "Verif.Props.C131_lamp",
    "Verif.Props.C131_lamp_follows",
    "Verif.Props.C131_battery_syncs",
    "Verif.Props.C131_no_repeats",
    "Verif.Props.C131_health",
    "Verif.Props.C131_can_never_runs",
    "Verif.Props.C131_started_errors"
   ],
   "note": "finding: the CAN bus tasks are never started"
  },
  {
   "property": "C132",
   "status": "proved",
   "theorems": [
    "Verif.Props.C132_reading",
    "Verif.Props.C132_at_rest",
    "Verif.Props.C132_velocity",
    "Verif.Props.C132_not_ready",
    "Verif.Props.C132_altitude_too_low"
   ],
   "note": "noise given from outside; reals for floats; two updates at the same clock reading are excluded (division by zero)"
  },
  {
   "property": "C133",
   "status": "proved",
   "theorems": [
    "Verif.Props.C133_orders",
    "Verif.Props.C133_all_ejected",
    "Verif.Props.C133_no_rocket_panics",
    "Verif.Props.C133_parts",
    "Verif.Props.C133_momentum",
    "Verif.Props.C133_together",
    "Verif.Props.C133_twice"
   ],
   "note": "one rocket or none; bevy replaces a component that is inserted again; physics takes impulses once per frame"
  },
  {
   "property": "C134",
   "status": "proved",
   "theorems": [
    "Verif.Props.C134_program",
    "Verif.Props.C134_heard",
    "Verif.Props.C134_pause"
   ],
   "note": "readings, buzzer and serial line do not fail; no reading while a sound is played"
  },
  {
   "property": "C135",
   "status": "proved",
   "theorems": [
    "Verif.Props.C135_settles",
    "Verif.Props.C135_no_inventions",
    "Verif.Props.C135_lost_event",
    "Verif.Props.C135_first_request",
    "Verif.Props.C135_old_change"
   ],
   "note": "the bus is abstracted to answered and lost polls (its own model: C55-C57, C82)"
  },
  {
   "property": "C136",
   "status": "proved",
   "theorems": [
    "Verif.Props.C136_devices",
    "Verif.Props.C136_kept",
    "Verif.Props.C136_lost"
   ],
   "note": "sizes and splits of the layout are not modelled; the layout library is assumed to ask onAllowDrop and to honour enableClose"
  },
  {
   "property": "C137",
   "status": "proved",
   "theorems": [
    "Verif.Props.DebugFlashUi.C137_preview",
    "Verif.Props.DebugFlashUi.C137_read_back",
    "Verif.Props.DebugFlashUi.C137_answered",
    "Verif.Props.DebugFlashUi.C137_replaced",
    "Verif.Props.DebugFlashUi.C137_wedged",
    "Verif.Props.DebugFlashUi.C137_not_nor"
   ],
   "note": "chip contents, previews and histories; the page's rendering and React's scheduling are not modelled (a request and a click are atomic)"
  },
  {
   "property": "C14",
   "status": "proved",
   "theorems": [
    "Verif.Props.C14_ids_never_reused"
   ],
   "note": "over histories with restarts and with power losses whose footer does not cross a page; see C66 for the rest"
  },
  {
   "property": "C15",
   "status": "proved",
   "theorems": [
    "Verif.Props.C15_lookup_exact",
    "Verif.Props.C15_find_first"
   ],
   "note": ""
  },
  {
   "property": "C16",
   "status": "proved",
   "theorems": [
    "Verif.Props.C16_remove_files",
    "Verif.Props.C16_remove_file"
   ],
   "note": ""
  },
  {
   "property": "C17",
   "status": "proved",
   "theorems": [
    "Verif.Props.C17_marked_open_protected",
    "Verif.Props.C17_open_marks",
    "Verif.Props.C17_open_until_closed",
    "Verif.Props.C17_writer_protected",
    "Verif.Props.C17_open_limit",
    "Verif.Props.C17_reader_closed_reopens",
    "Verif.Props.C17_writer_closed_reopens",
    "Verif.Props.C17_created_open_unprotected",
    "Verif.Props.C17_device_full_leaves_marked"
   ],
   "note": "what holds, plus the two proved violations"
  },
  {
   "property": "C18",
   "status": "proved",
   "theorems": [
    "Verif.Props.C18_sector_map_levels"
   ],
   "note": ""
  },
  {
   "property": "C19",
   "status": "proved",
   "theorems": [
    "Verif.Props.C19_no_double_handout"
   ],
   "note": ""
  },
  {
   "property": "C20",
   "status": "proved",
   "theorems": [
    "Verif.Props.C20_free_accounting",
    "Verif.Props.C20_write_fails_only_when_full"
   ],
   "note": ""
  },
  {
   "property": "C21",
   "status": "proved",
   "theorems": [
    "Verif.Props.C21_next",
    "Verif.Props.C21_increasing",
    "Verif.Props.C21_no_skip"
   ],
   "note": "filters that look at id and type; directory changes between next calls are the calls of Spec.Call (capacity < 2518 files)"
  },
  {
   "property": "C22",
   "status": "proved",
   "theorems": [
    "Verif.Props.C22_exclusion",
    "Verif.Props.C22_drop",
    "Verif.Props.C22_readers_share"
   ],
   "note": "every schedule of polls, drops and cancellations of any number of tasks"
  },
  {
   "property": "C23",
   "status": "proved",
   "theorems": [
    "Verif.Props.C23_writer_woken",
    "Verif.Props.C23_reader_lost",
    "Verif.Props.C23_cancelled_writer_blocks"
   ],
   "note": "writer half holds for every schedule; the reader half is violated (negations proved)"
  },
  {
   "property": "C24",
   "status": "proved",
   "theorems": [
    "Verif.Props.C24_chunking",
    "Verif.Props.C24_same_crc",
    "Verif.Props.C24_calculate",
    "Verif.Props.C24_incomplete_word_ignored"
   ],
   "note": "checksum unit abstract"
  },
  {
   "property": "C25",
   "status": "proved",
   "theorems": [
    "Verif.Props.C25_transparent",
    "Verif.Props.C25_straddling_read"
   ],
   "note": "chip behaviour quantified over all finishing times; reset not modelled"
  },
  {
   "property": "C26",
   "status": "proved",
   "theorems": [
    "Verif.Props.C26_within_slot",
    "Verif.Props.C26_capacity_violated"
   ],
   "note": "what holds, plus the proved violation at 2518 files"
  },
  {
   "property": "C27",
   "status": "proved",
   "theorems": [
    "Verif.Props.C27_primitives",
    "Verif.Props.C27_round_trip",
    "Verif.Props.C27_reader_answers",
    "Verif.Props.C27_writer_capacity",
    "Verif.Props.C27_pair_too_wide"
   ],
   "note": "bit codecs, writer and reader; skip_byte modelled, not used in the round trip"
  },
  {
   "property": "C28",
   "status": "proved",
   "theorems": [
    "Verif.Props.C28_logger_never_panics",
    "Verif.Props.C28_refused",
    "Verif.Props.C28_read_back",
    "Verif.Props.C28_flushed_complete",
    "Verif.Props.C28_values"
   ],
   "note": "Cfg abstracts the typed configuration (codecs, delta factories, minimum interval); sink I/O errors are not modelled"
  },
  {
   "property": "C29",
   "status": "proved",
   "theorems": [
    "Verif.Props.C29_in_place",
    "Verif.Props.C29_second_not_flushed",
    "Verif.Props.C29_second_late",
    "Verif.Props.C29_middle_dropped",
    "Verif.Props.C29_small_data_panics"
   ],
   "note": "finding: records that directly follow another record are kept back"
  },
  {
   "property": "C30",
   "status": "proved",
   "theorems": [
    "Verif.Props.C30_no_accumulation",
    "Verif.Props.C30_adc",
    "Verif.Props.C30_baro",
    "Verif.Props.C30_imu",
    "Verif.Props.C30_mag",
    "Verif.Props.C30_gps",
    "Verif.Props.C30_gps_time_backwards"
   ],
   "note": "floats are rationals with a rounding of relative error 2^-24 (2^-53); satellite counts below 128; NaN, overflow and underflow not modelled"
  },
  {
   "property": "C31",
   "status": "proved",
   "theorems": [
    "Verif.Props.C31_accepts",
    "Verif.Props.C31_monotone",
    "Verif.Props.C31_error_exact",
    "Verif.Props.C31_error_float",
    "Verif.Props.C31_bits",
    "Verif.Props.C31_valid",
    "Verif.Props.C31_firmware",
    "Verif.Props.C31_capped",
    "Verif.Props.C31_nan_panics"
   ],
   "note": "any monotone rounding with relative error u; NaN panics (finding); compile-time f32 evaluation of the bounds taken as exact; overflow and underflow of floats not modelled"
  },
  {
   "property": "C32",
   "status": "proved",
   "theorems": [
    "Verif.Props.C32_stream",
    "Verif.Props.C32_no_invention",
    "Verif.Props.C32_unknown_tag",
    "Verif.Props.C32_buffer"
   ],
   "note": "rkyv payload codecs are abstract with an exact-inverse hypothesis (Enum.Ok)"
  },
  {
   "property": "C33",
   "status": "proved",
   "theorems": [
    "Verif.Props.C33_start",
    "Verif.Props.C33_bounded",
    "Verif.Props.C33_new_segment",
    "Verif.Props.C33_no_empty_segments",
    "Verif.Props.C33_contents",
    "Verif.Props.C33_zero_segments",
    "Verif.Props.C33_delete_logs_removes_current",
    "Verif.Props.C33_stale_counter"
   ],
   "note": "Quantifies over every reachable directory and every history of the ring. A failed rotation (device full) ends the logger task and is not continued. Power loss during a rotation is in Reach (directory), not in Hist."
  },
  {
   "property": "C34",
   "status": "proved",
   "theorems": [
    "Verif.Props.C34_shared_types",
    "Verif.Props.C34_loggers_remove_each_other"
   ],
   "note": "Property is false for GPS / low-G IMU; proved as finding."
  },
  {
   "property": "C35",
   "status": "proved",
   "theorems": [
    "Verif.Props.C35_split",
    "Verif.Props.C35_uplink",
    "Verif.Props.C35_downlink"
   ],
   "note": "Reed-Solomon crate and ChaCha20 key stream are parameters with stated laws (a code meeting the laws is constructed in Lemmas/Mds); CRC-8 is concrete."
  },
  {
   "property": "C36",
   "status": "proved",
   "theorems": [
    "Verif.Props.C36_uplink",
    "Verif.Props.C36_downlink",
    "Verif.Props.C36_refused",
    "Verif.Props.C36_short_packet_panics",
    "Verif.Props.C36_bad_pyro_panics"
   ],
   "note": "exact characterisation of the panics, with witnesses for every key"
  },
  {
   "property": "C37",
   "status": "proved",
   "theorems": [
    "Verif.Props.C37_widths",
    "Verif.Props.C37_fields",
    "Verif.Props.C37_timestamp",
    "Verif.Props.C37_received",
    "Verif.Props.C37_nan_panics",
    "Verif.Props.C37_null_island",
    "Verif.Props.C37_max",
    "Verif.Props.C37_max_grows",
    "Verif.Props.C37_reported_max_grows"
   ],
   "note": "floats are rationals with abstract monotone rounding; lat/lon are bit patterns"
  },
  {
   "property": "C38",
   "status": "proved",
   "theorems": [
    "Verif.Props.C38_transmissions",
    "Verif.Props.C38_success",
    "Verif.Props.C38_failure",
    "Verif.Props.C38_idle",
    "Verif.Props.C38_send",
    "Verif.Props.C38_radio_error_hangs",
    "Verif.Props.C38_any_ack",
    "Verif.Props.C38_lossy_link",
    "Verif.Props.C38_ack_error_drops_command",
    "Verif.Props.C38_deaf_without_telemetry"
   ],
   "note": "Radio outcomes are an arbitrary input per attempt; Reed-Solomon laws as in C35."
  },
  {
   "property": "C39",
   "status": "proved",
   "theorems": [
    "Verif.Props.C39_round_trip",
    "Verif.Props.C39_fits",
    "Verif.Props.C39_injective",
    "Verif.Props.C39_unpack",
    "Verif.Props.C39_new",
    "Verif.Props.C39_node_id",
    "Verif.Props.C39_arbitration",
    "Verif.Props.C39_documented_priority_reversed"
   ],
   "note": "packed_struct modelled from its documentation."
  },
  {
   "property": "C40",
   "status": "proved",
   "theorems": [
    "Verif.Props.C40_round_trip",
    "Verif.Props.C40_injective",
    "Verif.Props.C40_panics",
    "Verif.Props.C40_padding"
   ],
   "note": "packed_struct modelled from its documentation."
  },
  {
   "property": "C41",
   "status": "proved",
   "theorems": [
    "Verif.Props.C41_order"
   ],
   "note": "floats, filters and vectors are parameters"
  },
  {
   "property": "C42",
   "status": "proved",
   "theorems": [
    "Verif.Props.C42_timeline",
    "Verif.Props.C42_drogue",
    "Verif.Props.C42_main",
    "Verif.Props.C42_published"
   ],
   "note": "floats, filters and vectors are parameters"
  },
  {
   "property": "C43",
   "status": "proved",
   "theorems": [
    "Verif.Props.C43_timeline",
    "Verif.Props.C43_order"
   ],
   "note": "floats, filters and vectors are parameters"
  },
  {
   "property": "C44",
   "status": "proved",
   "theorems": [
    "Verif.Props.C44_timeline",
    "Verif.Props.C44_order",
    "Verif.Props.C44_descent"
   ],
   "note": "floats, filters and vectors are parameters"
  },
  {
   "property": "C45",
   "status": "proved",
   "theorems": [
    "Verif.Props.C45_never_deploys"
   ],
   "note": "floats, filters and vectors are parameters"
  },
  {
   "property": "C46",
   "status": "proved",
   "theorems": [
    "Verif.Props.C46_once",
    "Verif.Props.C46_cause",
    "Verif.Props.C46_fires",
    "Verif.Props.C46_ends",
    "Verif.Props.C46_missed"
   ],
   "note": "finding: C46_missed"
  },
  {
   "property": "C47",
   "status": "proved",
   "theorems": [
    "Verif.Props.C47_software",
    "Verif.Props.C47_armed",
    "Verif.Props.C47_cores"
   ],
   "note": ""
  },
  {
   "property": "C48",
   "status": "proved",
   "theorems": [
    "Verif.Props.C48_outputs",
    "Verif.Props.C48_first",
    "Verif.Props.C48_no_repeat",
    "Verif.Props.C48_settles"
   ],
   "note": ""
  },
  {
   "property": "C49",
   "status": "proved",
   "theorems": [
    "Verif.Props.C49_window",
    "Verif.Props.C49_average",
    "Verif.Props.C49_full",
    "Verif.Props.C49_mean",
    "Verif.Props.C49_single_sum",
    "Verif.Props.C49_cancellation"
   ],
   "note": "all histories; abstract arithmetic for NoSumSMA; finding for SingleSumSMA"
  },
  {
   "property": "C50",
   "status": "proved",
   "theorems": [
    "Verif.Props.C50_due",
    "Verif.Props.C50_every",
    "Verif.Props.C50_not_early",
    "Verif.Props.C50_count",
    "Verif.Props.C50_burst",
    "Verif.Props.C50_skip",
    "Verif.Props.C50_skip_off_grid",
    "Verif.Props.C50_skip_repeats"
   ],
   "note": "all call times and oversleeps; times are rationals"
  },
  {
   "property": "C51",
   "status": "proved",
   "theorems": [
    "Verif.Props.C51_set",
    "Verif.Props.C51_kept",
    "Verif.Props.C51_not_ready",
    "Verif.Props.C51_correct",
    "Verif.Props.C51_1970",
    "Verif.Props.C51_waiters",
    "Verif.Props.C51_eleventh"
   ],
   "note": "all histories; times are rationals"
  },
  {
   "property": "C52",
   "status": "proved",
   "theorems": [
    "Verif.Props.C52_no_tear",
    "Verif.Props.C52_fifo",
    "Verif.Props.C52_delivers",
    "Verif.Props.C52_clash"
   ],
   "note": "all schedules of one sender and one receiver; embassy PubSub from its documentation"
  },
  {
   "property": "C53",
   "status": "proved",
   "theorems": [
    "Verif.Props.C53_register",
    "Verif.Props.C53_wake",
    "Verif.Props.C53_state",
    "Verif.Props.C53_wakes_all",
    "Verif.Props.C53_refused",
    "Verif.Props.C53_single"
   ],
   "note": "all histories; a waker is identified with its task"
  },
  {
   "property": "C54",
   "status": "proved",
   "theorems": [
    "Verif.Props.C54_served",
    "Verif.Props.C54_only_valid",
    "Verif.Props.C54_resync",
    "Verif.Props.C54_reset",
    "Verif.Props.C54_call"
   ],
   "note": "all byte streams; request/response encodings are bytes, handlers abstract; serial errors not modelled"
  },
  {
   "property": "C55",
   "status": "proved",
   "theorems": [
    "Verif.Props.C55_roundtrip",
    "Verif.Props.C55_frame",
    "Verif.Props.C55_distinct",
    "Verif.Props.C55_length_error",
    "Verif.Props.C55_unknown",
    "Verif.Props.C55_no_structure_error",
    "Verif.Props.C55_short_payload_undefined",
    "Verif.Props.C55_bad_bool_undefined",
    "Verif.Props.C55_corrupted_channel_accepted"
   ],
   "note": "finding: the decoder does not validate the payload"
  },
  {
   "property": "C56",
   "status": "proved",
   "theorems": [
    "Verif.Props.C56_in_order",
    "Verif.Props.C56_push",
    "Verif.Props.C56_nothing_lost",
    "Verif.Props.C56_events_left",
    "Verif.Props.C56_last_five"
   ],
   "note": ""
  },
  {
   "property": "C57",
   "status": "proved",
   "theorems": [
    "Verif.Props.C57_attempts",
    "Verif.Props.C57_handled",
    "Verif.Props.C57_genuine",
    "Verif.Props.C57_typed",
    "Verif.Props.C57_error_but_done",
    "Verif.Props.C57_stale_ack",
    "Verif.Props.C57_run_ignores_polls"
   ],
   "note": "findings: a late answer is taken for the answer to a later request; an error does not mean not done"
  },
  {
   "property": "C58",
   "status": "proved",
   "theorems": [
    "Verif.Props.C58_validate",
    "Verif.Props.C58_wrong_checksum",
    "Verif.Props.C58_update",
    "Verif.Props.C58_detects",
    "Verif.Props.C58_swap_unnoticed",
    "Verif.Props.C58_no_crash",
    "Verif.Props.C58_crash_no_field",
    "Verif.Props.C58_crash_few_fields",
    "Verif.Props.C58_crash_many_fields",
    "Verif.Props.C58_milliseconds",
    "Verif.Props.C58_lenient"
   ],
   "note": "findings: sentences with too few or too many fields crash the parser; milliseconds"
  },
  {
   "property": "C59",
   "status": "proved",
   "theorems": [
    "Verif.Props.C59_chunking",
    "Verif.Props.C59_doubled",
    "Verif.Props.C59_stale"
   ],
   "note": "finding: unframed text is doubled depending on the reads"
  },
  {
   "property": "C60",
   "status": "proved",
   "theorems": [
    "Verif.Props.C60_none",
    "Verif.Props.C60_exact",
    "Verif.Props.C60_interpolates",
    "Verif.Props.C60_monotone",
    "Verif.Props.C60_finite",
    "Verif.Props.C60_search_exists",
    "Verif.Props.C60_same_stamp",
    "Verif.Props.C60_two_runs_mixed"
   ],
   "note": "exact rationals; binary search by its documentation; findings: equal stamps, mixed runs"
  },
  {
   "property": "C61",
   "status": "proved",
   "theorems": [
    "Verif.Props.C61_pulled_content",
    "Verif.Props.C61_pull_progress",
    "Verif.Props.C61_pull_closes",
    "Verif.Props.C61_pull_stream",
    "Verif.Props.C61_pulls_exists",
    "Verif.Props.C61_pull_undamaged",
    "Verif.Props.C61_bad_page_truncates",
    "Verif.Props.C61_bad_page_skipped",
    "Verif.Props.C61_interrupted_pull",
    "Verif.Props.C61_disconnect_panics",
    "Verif.Props.C61_list_next",
    "Verif.Props.C61_list_files",
    "Verif.Props.C61_answers"
   ],
   "note": "Transport (C54/C81) abstracted: each call reaches the handler once."
  },
  {
   "property": "C62",
   "status": "proved",
   "theorems": [
    "Verif.Props.C62_read",
    "Verif.Props.C62_read_busy",
    "Verif.Props.C62_write_read",
    "Verif.Props.C62_write_fails_only_when",
    "Verif.Props.C62_small_written",
    "Verif.Props.C62_power_loss",
    "Verif.Props.C62_update_can_lose_configuration",
    "Verif.Props.C62_open_old_configuration_wins",
    "Verif.Props.C62_damaged_none"
   ],
   "note": "serialization abstracted to bytes; power loss at any flash operation, torn in any way"
  },
  {
   "property": "C63",
   "status": "proved",
   "theorems": [
    "Verif.Props.C63_order",
    "Verif.Props.C63_newest_kept",
    "Verif.Props.C63_nothing_lost",
    "Verif.Props.C63_early_lost",
    "Verif.Props.C63_flush_served",
    "Verif.Props.C63_flush_never_returns",
    "Verif.Props.C63_stop",
    "Verif.Props.C63_stop_returns",
    "Verif.Props.C63_stop_before_start_panics"
   ],
   "note": ""
  },
  {
   "property": "C64",
   "status": "proved",
   "theorems": [
    "Verif.Props.C64_ctrl",
    "Verif.Props.C64_ctrl_selected",
    "Verif.Props.C64_cont",
    "Verif.Props.C64_mismatch",
    "Verif.Props.C64_reports",
    "Verif.Props.C64_crash"
   ],
   "note": "findings: C64_mismatch, C64_crash"
  },
  {
   "property": "C65",
   "status": "proved",
   "theorems": [
    "Verif.Props.C65_order",
    "Verif.Props.C65_sampling",
    "Verif.Props.C65_still",
    "Verif.Props.C65_result",
    "Verif.Props.C65_panic",
    "Verif.Props.C65_steady",
    "Verif.Props.C65_spinning_is_still"
   ],
   "note": "readings over exact reals"
  },
  {
   "property": "C66",
   "status": "proved",
   "theorems": [
    "Verif.Props.C66_unique_after_crash",
    "Verif.Props.C66_id_reused_after_crash"
   ],
   "note": "what holds, plus the proved violation"
  },
  {
   "property": "C67",
   "status": "proved",
   "theorems": [
    "Verif.Props.C67_reopen_not_crash_safe"
   ],
   "note": "Negative finding: reachable state and crash point exhibited."
  },
  {
   "property": "C68",
   "status": "proved",
   "theorems": [
    "Verif.Props.C68_stateless",
    "Verif.Props.C68_replay"
   ],
   "note": "finding: constant nonce, no sequence number"
  },
  {
   "property": "C69",
   "status": "proved",
   "theorems": [
    "Verif.Props.C69_recording",
    "Verif.Props.C69_one_frame_crashes"
   ],
   "note": "The receiving loop only; bus errors (which only set a flag) are not modelled."
  },
  {
   "property": "C70",
   "status": "proved",
   "theorems": [
    "Verif.Props.C70_armed_before",
    "Verif.Props.C70_events",
    "Verif.Props.C70_after_disarm"
   ],
   "note": "finding: C70_after_disarm"
  },
  {
   "property": "C71",
   "status": "proved",
   "theorems": [
    "Verif.Props.C71_mode",
    "Verif.Props.C71_blind",
    "Verif.Props.C71_arming"
   ],
   "note": "finding"
  },
  {
   "property": "C72",
   "status": "proved",
   "theorems": [
    "Verif.Props.C72_states",
    "Verif.Props.C72_only_landed",
    "Verif.Props.C72_landing_sent"
   ],
   "note": "finding"
  },
  {
   "property": "C73",
   "status": "proved",
   "theorems": [
    "Verif.Props.C73_follows",
    "Verif.Props.C73_landed",
    "Verif.Props.C73_minute",
    "Verif.Props.C73_rearm"
   ],
   "note": "finding: C73_rearm"
  },
  {
   "property": "C74",
   "status": "proved",
   "theorems": [
    "Verif.Props.C74_panic",
    "Verif.Props.C74_stuck"
   ],
   "note": "finding"
  },
  {
   "property": "C75",
   "status": "proved",
   "theorems": [
    "Verif.Props.C75_cause"
   ],
   "note": ""
  },
  {
   "property": "C76",
   "status": "proved",
   "theorems": [
    "Verif.Props.C76_logged"
   ],
   "note": ""
  },
  {
   "property": "C77",
   "status": "proved",
   "theorems": [
    "Verif.Props.C77_pulse",
    "Verif.Props.C77_arming_ignored",
    "Verif.Props.C77_first_packet"
   ],
   "note": "findings"
  },
  {
   "property": "C78",
   "status": "proved",
   "theorems": [
    "Verif.Props.C78_first",
    "Verif.Props.C78_speed",
    "Verif.Props.C78_limited",
    "Verif.Props.C78_hold",
    "Verif.Props.C78_no_early_drogue"
   ],
   "note": "exact arithmetic (rationals), any altitude function and coefficients; functional specification, lower bound, noninterference"
  },
  {
   "property": "C79",
   "status": "proved",
   "theorems": [
    "Verif.Props.C79_output",
    "Verif.Props.C79_holds_surge",
    "Verif.Props.lastSurge_eq"
   ],
   "note": "exact arithmetic; complete functional specification of feed over any history"
  },
  {
   "property": "C80",
   "status": "proved",
   "theorems": [
    "Verif.Props.C80_one_byte",
    "Verif.Props.C80_rejected"
   ],
   "note": "CRC-8/SMBUS modelled bit by bit; invertibility of its step"
  },
  {
   "property": "C81",
   "status": "proved",
   "theorems": [
    "Verif.Props.C81_in_time",
    "Verif.Props.C81_stale",
    "Verif.Props.C81_reset_runs"
   ],
   "note": "an answer is late as a whole; concrete witnesses for the findings"
  },
  {
   "property": "C82",
   "status": "proved",
   "theorems": [
    "Verif.Props.C82_no_invention",
    "Verif.Props.C82_poll",
    "Verif.Props.C82_lost_answer",
    "Verif.Props.C82_drivers",
    "Verif.Props.C82_reaches_driver",
    "Verif.Props.C82_overwritten"
   ],
   "note": "findings: a lost answer loses its event; one slot on the master"
  },
  {
   "property": "C83",
   "status": "proved",
   "theorems": [
    "Verif.Props.C83_open_reader_stable",
    "Verif.Props.C83_known_content",
    "Verif.Props.C83_only_rotation_drops",
    "Verif.Props.C83_rotation_drops_open_file"
   ],
   "note": "Calls are atomic; a rotation that drops the file being read is excluded from the run and proved as a finding."
  },
  {
   "property": "C84",
   "status": "proved",
   "theorems": [
    "Verif.Props.C84_exact",
    "Verif.Props.C84_interactive",
    "Verif.Props.C84_unequal_counts",
    "Verif.Props.C84_unequal_demo"
   ],
   "note": "exact reals; nalgebra operations from documentation"
  },
  {
   "property": "C85",
   "status": "proved",
   "theorems": [
    "Verif.Props.C85_noise_free"
   ],
   "note": "exact reals"
  },
  {
   "property": "C86",
   "status": "proved",
   "theorems": [
    "Verif.Props.C86_round_trip",
    "Verif.Props.C86_read",
    "Verif.Props.C86_save_read",
    "Verif.Props.C86_power_loss",
    "Verif.Props.C86_power_loss_panics",
    "Verif.Props.C86_read_busy",
    "Verif.Props.C86_damaged_panics",
    "Verif.Props.C86_type"
   ],
   "note": "little endian; PageCrash model as C62"
  },
  {
   "property": "C87",
   "status": "proved",
   "theorems": [
    "Verif.Props.C87_survives",
    "Verif.Props.C87_reading_ends",
    "Verif.Props.C87_closed",
    "Verif.Props.C87_values",
    "Verif.Props.C87_case"
   ],
   "note": "Successful logger calls only (after an I/O error the log's content is not described). Power loss at any flash operation of any call, torn in any way."
  },
  {
   "property": "C88",
   "status": "proved",
   "theorems": [
    "Verif.Props.C88_segments",
    "Verif.Props.C88_survives",
    "Verif.Props.C88_old_segments_safe",
    "Verif.Props.C88_closed",
    "Verif.Props.C88_reader",
    "Verif.Props.C88_reader_cut",
    "Verif.Props.C88_reading_ends",
    "Verif.Props.C88_values",
    "Verif.Props.C88_first_reading",
    "Verif.Props.C88_single_segment",
    "Verif.Props.C88_case"
   ],
   "note": "ring logger over the file system model; crash points exclude the directory update of a rotation that drops a file (stated in the property)"
  },
  {
   "property": "C89",
   "status": "proved",
   "theorems": [
    "Verif.Props.C89_no_panic_before",
    "Verif.Props.C89_first_failure",
    "Verif.Props.C89_full_stays_full",
    "Verif.Props.C89_full_log_panics",
    "Verif.Props.C89_fed_for_ever",
    "Verif.Props.C89_case"
   ],
   "note": "Finding: errors of the file are not fatal by themselves but the bit buffer overflows after a few more readings. Codecs are assumed to panic on a slice that is too short (StrictCfg), shown for integers and structs of them."
  },
  {
   "property": "C90",
   "status": "proved",
   "theorems": [
    "Verif.Props.C90_both",
    "Verif.Props.C90_survives",
    "Verif.Props.C90_log",
    "Verif.Props.C90_unix",
    "Verif.Props.C90_flush",
    "Verif.Props.C90_failures",
    "Verif.Props.C90_case"
   ],
   "note": "All calls are taken to be successful up to the power loss (C89 covers failures of one log); C90_failures holds for any outcome. Same exclusion as C88: power loss during a rotation that drops a file."
  },
  {
   "property": "C91",
   "status": "proved",
   "theorems": [
    "Verif.Props.C91_download",
    "Verif.Props.C91_table",
    "Verif.Props.C91_complete",
    "Verif.Props.C91_times",
    "Verif.Props.C91_no_times",
    "Verif.Props.C91_ring",
    "Verif.Props.C91_second_tier",
    "Verif.Props.C91_second_tier_lost",
    "Verif.Props.C91_imu_and_gps",
    "Verif.Props.C91_other_format",
    "Verif.Props.C91_case"
   ],
   "note": "Rows are (boot timestamp, conversion result, reading); printing of numbers and the host's files are not modelled; f64 as rationals for the conversion"
  },
  {
   "property": "C92",
   "status": "proved",
   "theorems": [
    "Verif.Props.C92_messages",
    "Verif.Props.C92_realtime",
    "Verif.Props.C92_windows",
    "Verif.Props.C92_stored",
    "Verif.Props.C92_sync",
    "Verif.Props.C92_rotation_race",
    "Verif.Props.C92_host",
    "Verif.Props.C92_cut",
    "Verif.Props.C92_tables",
    "Verif.Props.C92_times",
    "Verif.Props.C92_no_times",
    "Verif.Props.C92_no_syncs",
    "Verif.Props.C92_gap"
   ],
   "note": "f32/f16 arithmetic and the filter abstract; f64 times as rationals; channels between the tasks: C52; download: C91; write errors: C89"
  },
  {
   "property": "C93",
   "status": "proved",
   "theorems": [
    "Verif.Props.C93_rotation_cut",
    "Verif.Props.C93_ring_cut"
   ],
   "note": "directory is old or new; kept files survive; any flash operation, torn in any way"
  },
  {
   "property": "C94",
   "status": "proved",
   "theorems": [
    "Verif.Props.C94_exclusion",
    "Verif.Props.C94_grant",
    "Verif.Props.C94_progress",
    "Verif.Props.C94_release",
    "Verif.Props.C94_barging",
    "Verif.Props.C94_queue_full",
    "Verif.Props.C94_cancelled"
   ],
   "note": "findings: barging, full queue, cancelled waiter"
  },
  {
   "property": "C95",
   "status": "proved",
   "theorems": [
    "Verif.Props.C95_order",
    "Verif.Props.C95_lag",
    "Verif.Props.C95_own",
    "Verif.Props.C95_progress",
    "Verif.Props.C95_dropped",
    "Verif.Props.C95_crossed",
    "Verif.Props.C95_no_server"
   ],
   "note": "findings: dropped call shifts answers, two consoles cross, no server"
  },
  {
   "property": "C96",
   "status": "proved",
   "theorems": [
    "Verif.Props.C96_oldest",
    "Verif.Props.C96_first",
    "Verif.Props.C96_sublist",
    "Verif.Props.C96_stale"
   ],
   "note": "finding: oldest packet is kept"
  },
  {
   "property": "C97",
   "status": "proved",
   "theorems": [
    "Verif.Props.C97_calls",
    "Verif.Props.C97_start",
    "Verif.Props.C97_since_start"
   ],
   "note": "for all histories; power loss inside a page program is a start from arbitrary content"
  },
  {
   "property": "C98",
   "status": "proved",
   "theorems": [
    "Verif.Props.C98_pattern",
    "Verif.Props.C98_exact",
    "Verif.Props.C98_never_early",
    "Verif.Props.C98_zeros_hang",
    "Verif.Props.C98_waits"
   ],
   "note": "finding: C98_zeros_hang"
  },
  {
   "property": "C99",
   "status": "proved",
   "theorems": [
    "Verif.Props.C99_flight_iff",
    "Verif.Props.C99_ground_test_iff",
    "Verif.Props.C99_usb",
    "Verif.Props.C99_config",
    "Verif.Props.C99_panics",
    "Verif.Props.C99_console",
    "Verif.Props.C99_same_melody",
    "Verif.Props.C99_mag_panics",
    "Verif.Props.C99_gcm_lockout"
   ],
   "note": "findings: C99_same_melody, C99_mag_panics, C99_gcm_lockout"
  }
 ]
}