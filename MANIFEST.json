{
 "claims": [
  {
   "property": "C01",
   "status": "proved",
   "theorems": [
    "Verif.Base.alignDown_spec",
    "Verif.Base.alignUp_spec",
    "Verif.Base.alignRange_spec",
    "Verif.Base.alignRange_err",
    "Verif.Base.alignRange_overflow_witness"
   ],
   "note": "Unsigned widths of any size. align_range wraps when base+length overflows in release builds (witness)."
  },
  {
   "property": "C02",
   "status": "proved",
   "theorems": [
    "Verif.Depex.eval_encoded"
   ],
   "note": ""
  },
  {
   "property": "C03",
   "status": "proved",
   "theorems": [
    "Verif.Depex.eval_total",
    "Verif.Depex.eval_debug_agrees",
    "Verif.Depex.eval_debug_panic_is_false",
    "Verif.Depex.eval_true_wellformed",
    "Verif.Depex.eval_malformed_false",
    "Verif.Depex.underflow_accepted"
   ],
   "note": "Release profile is total. With debug assertions a malformed expression panics instead of answering false. Stack underflow is not rejected (witness)."
  },
  {
   "property": "C04",
   "status": "proved",
   "theorems": [
    "Verif.Depex.eval_history",
    "Verif.Depex.eval_sticky",
    "Verif.Depex.sor_schedule",
    "Verif.Depex.assoc_section"
   ],
   "note": ""
  },
  {
   "property": "C05",
   "status": "proved",
   "theorems": [
    "Verif.Events.signal_queues_once",
    "Verif.Events.undelivered_iff_signaled",
    "Verif.Events.signal_again",
    "Verif.Events.notification_matches",
    "Verif.Events.notification_kept",
    "Verif.Events.notifiable_iff"
   ],
   "note": "For every history of database calls, and for every way the BTreeSet may miss a duplicate notification."
  },
  {
   "property": "C06",
   "status": "proved",
   "theorems": [
    "Verif.Events.consume_highest_oldest",
    "Verif.Events.consume_none",
    "Verif.Events.consume_fifo"
   ],
   "note": ""
  },
  {
   "property": "C07",
   "status": "proved",
   "theorems": [
    "Verif.Events.raise_spec",
    "Verif.Events.raise_panics",
    "Verif.Events.restore_higher_panics",
    "Verif.Events.restore_ends_at",
    "Verif.Events.tpl_nests",
    "Verif.Events.called_at_notify_tpl",
    "Verif.Events.nothing_above_pending",
    "Verif.Events.calls_are_live",
    "Verif.Events.restore_dispatches"
   ],
   "note": "Nesting, the final TPL and the TPL of each notify call are proved for all notify functions and all interrupt schedules; 'nothing above the target is pending on return' without timer interrupts (see C46 for interrupts)."
  },
  {
   "property": "C08",
   "status": "proved",
   "theorems": [
    "Verif.Events.signal_group_spec",
    "Verif.Events.signal_ungrouped_spec",
    "Verif.Events.already_signaled_member_hides_group"
   ],
   "note": "The signalled member must itself be unsignalled (witness for the other case)."
  },
  {
   "property": "C09",
   "status": "proved",
   "theorems": [
    "Verif.Events.tick_spec",
    "Verif.Events.setTimer_spec",
    "Verif.Events.setTimer_accepts",
    "Verif.Events.disarmed_stays",
    "Verif.Events.cancelled_never_fires"
   ],
   "note": ""
  },
  {
   "property": "C10",
   "status": "proved",
   "theorems": [
    "Verif.Events.closed_is_dead",
    "Verif.Events.handles_not_recycled",
    "Verif.Events.create_spec",
    "Verif.Events.create_accepts",
    "Verif.Events.create_runtime_accepts",
    "Verif.Events.close_unknown_runtime_ok"
   ],
   "note": "Closing an unknown runtime event handle reports success (witness)."
  },
  {
   "property": "C100",
   "status": "proved",
   "theorems": [
    "Verif.Debugger.output_right",
    "Verif.Debugger.describe_part",
    "Verif.Debugger.fetched",
    "Verif.Debugger.module_breaks",
    "Verif.Debugger.modules_listed",
    "Verif.Debugger.external_found",
    "Verif.Debugger.trimEfi_base",
    "Verif.Debugger.base_unique",
    "Verif.Debugger.describe_panics",
    "Verif.Debugger.shadowed_never_called",
    "Verif.Debugger.upper_case_suffix_missed"
   ],
   "note": "Findings: a request for a part of the description that goes beyond 2^64 panics (describe_panics); a command with the name of a built-in one is accepted and never called (shadowed_never_called); only lower case .efi is a suffix (upper_case_suffix_missed); listing no modules lists one (modules_listed)."
  },
  {
   "property": "C101",
   "status": "partial",
   "theorems": [
    "Verif.Debugger.x64_entry_shown",
    "Verif.Debugger.x64_resumed_partial",
    "Verif.Debugger.x64_own_breakpoint",
    "Verif.Debugger.x64_removed_breakpoint",
    "Verif.Debugger.x64_step_flag",
    "Verif.Debugger.x64_poke",
    "Verif.Debugger.a64_entry",
    "Verif.Debugger.a64_resumed_partial",
    "Verif.Debugger.a64_step_flag",
    "Verif.Debugger.a64_poke",
    "Verif.Debugger.transport_keeps",
    "Verif.Debugger.next_byte",
    "Verif.Debugger.poll_right",
    "Verif.Debugger.logging_right",
    "Verif.Debugger.x64_step_stays",
    "Verif.Debugger.x64_jump_skips",
    "Verif.Debugger.x64_errors_shift",
    "Verif.Debugger.a64_step_not_flushed",
    "Verif.Debugger.a64_step_stays"
   ],
   "note": "What the other side does is an arbitrary function; the protocol stub is not modelled. The code violates the rest: on x64 each error of the stub moves the program counter back (x64_errors_shift); a step that ends with another exception stays on (x64_step_stays, a64_step_stays); a program sent to a breakpoint instruction does not stop there (x64_jump_skips); on AArch64 instructions written after a step may not be seen (a64_step_not_flushed)."
  },
  {
   "property": "C102",
   "status": "proved",
   "theorems": [
    "Verif.SdkPath.from_nodes",
    "Verif.SdkPath.from_nodes_ended",
    "Verif.SdkPath.iter_lists",
    "Verif.SdkPath.equal_iff",
    "Verif.SdkPath.node_count",
    "Verif.SdkPath.multi_instance_iff",
    "Verif.SdkPath.slice_end",
    "Verif.SdkPath.slice_end_too_long",
    "Verif.SdkPath.starts_with_iff",
    "Verif.SdkPath.starts_with_first_only",
    "Verif.SdkPath.instances_split",
    "Verif.SdkPath.append_instances",
    "Verif.SdkPath.append_path",
    "Verif.SdkPath.from_pointer",
    "Verif.SdkPath.zero_length_never_ends",
    "Verif.SdkPath.short_length_panics",
    "Verif.SdkPath.damaged_ends"
   ],
   "note": "For paths that are well formed. Of two multi-instance paths only the first instances are compared by starts_with (starts_with_first_only). On bytes that are no path the code loops, panics or silently ends: zero_length_never_ends, short_length_panics, damaged_ends."
  },
  {
   "property": "C103",
   "status": "partial",
   "theorems": [
    "Verif.SdkPath.typed_read",
    "Verif.SdkPath.typed_written_partial",
    "Verif.SdkPath.typed_round_trip_partial",
    "Verif.SdkPath.memory_mapped_padded",
    "Verif.SdkPath.bmc_padded",
    "Verif.SdkPath.bios_padded",
    "Verif.SdkPath.bios_cut",
    "Verif.SdkPath.eisa_id_digits",
    "Verif.SdkPath.pci_root_differs"
   ],
   "note": "Reading holds for all seven kinds. Writing holds for the four kinds without padding; memory mapped, BMC and BIOS nodes are written with a wrong length or a debug build panics (memory_mapped_padded, bmc_padded, bios_padded, bios_cut), and the EISA identifier has the other byte order than the specification (pci_root_differs)."
  },
  {
   "property": "C104",
   "status": "partial",
   "theorems": [
    "Verif.SdkBoot.boxes_own_partial",
    "Verif.SdkBoot.boxes_panic_iff",
    "Verif.SdkBoot.into_raw_frees",
    "Verif.SdkBoot.into_raw_double_free"
   ],
   "note": "Proved for histories without into_raw; into_raw returns freed memory in every state (into_raw_frees), and turning it back frees it twice (into_raw_double_free). The destructor of the value and alignments above 8 are not modelled."
  },
  {
   "property": "C105",
   "status": "partial",
   "theorems": [
    "Verif.SdkBoot.one_owner_partial",
    "Verif.SdkBoot.installed_valid_partial",
    "Verif.SdkBoot.face_effects",
    "Verif.SdkBoot.typed_reference",
    "Verif.SdkBoot.reinstall_error_loses",
    "Verif.SdkBoot.zero_size_dropped"
   ],
   "note": "Proved for types with a size; a failed reinstallation loses the new interface (reinstall_error_loses), and interfaces of size zero are dropped when installed (zero_size_dropped)."
  },
  {
   "property": "C106",
   "status": "partial",
   "theorems": [
    "Verif.SdkBoot.map_read_partial",
    "Verif.SdkBoot.map_entries_partial",
    "Verif.SdkBoot.map_too_small",
    "Verif.SdkBoot.locate_handles",
    "Verif.SdkBoot.drivers_passed",
    "Verif.SdkBoot.map_count_wrong",
    "Verif.SdkBoot.map_past_end",
    "Verif.SdkBoot.map_cut",
    "Verif.SdkBoot.map_stride_wrong",
    "Verif.SdkBoot.map_error_leaks",
    "Verif.SdkBoot.locate_error_leaks",
    "Verif.SdkBoot.exit_data_on_stack"
   ],
   "note": "The buffer, key and version are right, and the entries as far as the slice has them for descriptors of 40 bytes; the number of entries is wrong (map_count_wrong, map_past_end, map_cut), the distance too for other sizes (map_stride_wrong), errors leak (map_error_leaks, locate_error_leaks), and start_image returns its stack (exit_data_on_stack)."
  },
  {
   "property": "C107",
   "status": "proved",
   "theorems": [
    "Verif.SdkBoot.alloc_aligned",
    "Verif.SdkBoot.dealloc_frees",
    "Verif.SdkBoot.tracker_apart"
   ],
   "note": "Overflow of the request is excluded by the limits of Layout (size rounded up to the alignment is at most isize::MAX)."
  },
  {
   "property": "C108",
   "status": "partial",
   "theorems": [
    "Verif.Paging.never_writable_and_executable",
    "Verif.Paging.executable_is_core_code",
    "Verif.Paging.mapped_is_used",
    "Verif.Paging.page_zero_not_mapped",
    "Verif.Paging.allocated_mapped",
    "Verif.Paging.core_section_mapped",
    "Verif.Paging.core_headers_mapped",
    "Verif.Paging.mmio_mapped",
    "Verif.Paging.page_table_agrees_from_the_start",
    "Verif.Paging.debug_build_set_up",
    "Verif.Paging.odd_mmio_not_mapped",
    "Verif.Paging.mmio_end_left_out",
    "Verif.Paging.mmio_end_left_out_iff"
   ],
   "note": "MMIO and reserved memory is proved to be mapped where it is described in whole pages; elsewhere it is not mapped although the code means to (odd_mmio_not_mapped, mmio_end_left_out)."
  },
  {
   "property": "C109",
   "status": "partial",
   "theorems": [
    "Verif.Cache.complete_iff",
    "Verif.Cache.written_back_partial",
    "Verif.Cache.invalidated_partial",
    "Verif.Cache.others_untouched",
    "Verif.Cache.whole_lines_reached",
    "Verif.Cache.last_line_missed",
    "Verif.Cache.empty_range_flushed",
    "Verif.Cache.overflow_flushes_one_line",
    "Verif.Cache.x64_agrees",
    "Verif.Cache.x64_invalidate_discards",
    "Verif.Cache.x64_timer_stands_still",
    "Verif.Cache.tail_not_written_back"
   ],
   "note": "False on aarch64 for ranges whose last line the loop stops before (the step is one byte shorter than a line): complete_iff says which, last_line_missed and tail_not_written_back show the effect. Proved for all other bytes, in particular for whole lines."
  },
  {
   "property": "C11",
   "status": "proved",
   "theorems": [
    "Verif.Mutex.at_most_one_guard",
    "Verif.Mutex.tpl_and_locks_restored",
    "Verif.Mutex.section_restores",
    "Verif.Mutex.failed_try_changes_nothing",
    "Verif.Mutex.successful_try",
    "Verif.Mutex.core_lock_raises",
    "Verif.Mutex.core_lock_never_fails",
    "Verif.Mutex.sdk_drop_reentrant",
    "Verif.Mutex.sdk_lock_reentrant"
   ],
   "note": "Both the core and the SDK mutex. core_lock_never_fails is stronger than the property and holds for the core mutex only; the two sdk_ theorems are witnesses that it fails for the SDK mutex."
  },
  {
   "property": "C110",
   "status": "partial",
   "theorems": [
    "Verif.Log.verbose_json_read_partial",
    "Verif.Log.line_ends",
    "Verif.Log.standard_line_tells",
    "Verif.Log.json_line_is_not_json",
    "Verif.Log.message_not_escaped"
   ],
   "note": "The JSON format is never JSON (a comma is missing) and the verbose one only if no text needs escapes; both findings are proved."
  },
  {
   "property": "C111",
   "status": "proved",
   "theorems": [
    "Verif.Log.port_gets_line",
    "Verif.Log.serial_gets_line",
    "Verif.Log.disabled_leaves_no_trace",
    "Verif.Log.memory_gets_line",
    "Verif.Log.earlier_entries_stay",
    "Verif.Log.buffer_never_overrun",
    "Verif.Log.enabled_iff",
    "Verif.Log.levels_in_order",
    "Verif.Log.severe_first",
    "Verif.Log.filter_shadows",
    "Verif.Log.line_with_a_hole"
   ],
   "note": "The log in memory is taken from the model of C29 and C30 for a single writer. Enough room is stated as 32 bytes for each byte of the line."
  },
  {
   "property": "C112",
   "status": "partial",
   "theorems": [
    "Verif.Log.Parser.log_text_partial",
    "Verif.Log.Parser.plain_log_text",
    "Verif.Log.Parser.clock_value",
    "Verif.Log.Parser.clock_exact",
    "Verif.Log.Parser.opened_log_inside",
    "Verif.Log.Parser.open_never_panics",
    "Verif.Log.Parser.logged_line_printed",
    "Verif.Log.Parser.logged_level_shown",
    "Verif.Log.Parser.level_names",
    "Verif.Log.Parser.phase_names_differ",
    "Verif.Log.Parser.low_frequency_panics",
    "Verif.Log.Parser.short_writes_lose",
    "Verif.Log.Parser.clock_runs_fast",
    "Verif.Log.Parser.open_overflow_panics"
   ],
   "note": "Missing where the code fails: outputs that take part of a write (short_writes_lose), frequencies below 1000 (low_frequency_panics) or no multiple of 1000 (clock_runs_fast)."
  },
  {
   "property": "C113",
   "status": "partial",
   "theorems": [
    "Verif.Ffs.Extract.crc_section_read",
    "Verif.Ffs.Extract.crc_damage_found",
    "Verif.Ffs.Extract.crc_content_iff",
    "Verif.Ffs.Extract.lzma_section_read",
    "Verif.Ffs.Extract.brotli_section_read",
    "Verif.Ffs.Extract.unsupported_iff",
    "Verif.Ffs.Extract.same_content_same_answer",
    "Verif.Ffs.Extract.panics_iff",
    "Verif.Ffs.Extract.damage_stops_extraction",
    "Verif.Ffs.Extract.long_crc_header_panics",
    "Verif.Ffs.Extract.short_content_panics",
    "Verif.Ffs.Extract.brotli_filled_up"
   ],
   "note": "The last sentence is false: the extractors panic on short or hostile sections (panics_iff says exactly when; long_crc_header_panics, short_content_panics). A Brotli section that declares too much is filled up with zeros (brotli_filled_up). The decompressors are arbitrary functions."
  },
  {
   "property": "C114",
   "status": "proved",
   "theorems": [
    "Verif.SdkBoot.Binding.never_undefined",
    "Verif.SdkBoot.Binding.installed_iff",
    "Verif.SdkBoot.Binding.interfaces_alive",
    "Verif.SdkBoot.Binding.dropped_once",
    "Verif.SdkBoot.Binding.install_effect",
    "Verif.SdkBoot.Binding.uninstall_effect",
    "Verif.SdkBoot.Binding.drop_effect",
    "Verif.SdkBoot.Binding.supported_answer",
    "Verif.SdkBoot.Binding.start_stop_answer",
    "Verif.SdkBoot.Binding.null_handle_never_uninstalled"
   ],
   "note": "The firmware is modelled by the rules of the UEFI specification for one protocol. A binding with the null handle can never be uninstalled (null_handle_never_uninstalled). The firmware calling the driver while uninstall runs is not modelled."
  },
  {
   "property": "C115",
   "status": "partial",
   "theorems": [
    "Verif.Mm.one_mmi_partial",
    "Verif.Mm.commands_in_order",
    "Verif.Mm.message_handled",
    "Verif.Mm.wrong_port_silent",
    "Verif.Mm.service_registered",
    "Verif.Mm.data_is_stale",
    "Verif.Mm.data_one_late",
    "Verif.Mm.smc_panics",
    "Verif.Mm.skipped_succeeds",
    "Verif.Mm.request_is_response"
   ],
   "note": "The data is false: the command port is written first, so the handler finds the data of the trigger before (data_is_stale, data_one_late). Where port writes are compiled out, a trigger succeeds without effect (skipped_succeeds) and a message comes back as its own response (request_is_response); secure monitor calls panic (smc_panics)."
  },
  {
   "property": "C116",
   "status": "partial",
   "theorems": [
    "Verif.Paging.compat_region_free_partial",
    "Verif.Paging.compat_only_below",
    "Verif.Paging.compat_memory_kept",
    "Verif.Paging.compat_returns",
    "Verif.Paging.compat_default",
    "Verif.Paging.compat_allocation_free",
    "Verif.Paging.compat_image_free",
    "Verif.Paging.compat_only_for",
    "Verif.Paging.compat_twice_maps_reserved",
    "Verif.Paging.compat_twice_maps_nothing",
    "Verif.Paging.compat_uncached_not_mapped",
    "Verif.Paging.compat_allocation_uncached"
   ],
   "note": "False in parts: a second application makes a page after the system memory accessible that is reserved or does not exist (compat_twice_maps_reserved, compat_twice_maps_nothing); memory without cache attributes is not mapped, neither then (compat_uncached_not_mapped) nor when it is allocated later (compat_allocation_uncached)."
  },
  {
   "property": "C117",
   "status": "partial",
   "theorems": [
    "Verif.Serial.hex_round_trip",
    "Verif.Serial.hex_accepts",
    "Verif.Serial.hex_injective",
    "Verif.Serial.guid_shape",
    "Verif.Serial.guid_round_trip",
    "Verif.Serial.guid_injective",
    "Verif.Serial.json_round_trip",
    "Verif.Serial.json_determines",
    "Verif.Serial.json_other",
    "Verif.Serial.view_whole",
    "Verif.Serial.resources_merge",
    "Verif.Serial.resources_fewest",
    "Verif.Serial.allocations_merge",
    "Verif.Serial.allocations_apart_partial",
    "Verif.Serial.merged_iff",
    "Verif.Serial.contains_iff",
    "Verif.Serial.size_is",
    "Verif.Serial.overflow_panics",
    "Verif.Serial.hex_sign_accepted",
    "Verif.Serial.names_overlap",
    "Verif.Serial.names_lost",
    "Verif.Serial.types_lost",
    "Verif.Serial.last_page_lost",
    "Verif.Serial.empty_kept",
    "Verif.Serial.module_unknown",
    "Verif.Serial.data_lost"
   ],
   "note": "Proved for descriptors that end below the end of the address space; one that reaches it panics in a checked build (overflow_panics) and is lost otherwise (last_page_lost). Allocations are sorted by name first, so with several names the result can overlap (names_overlap); descriptions are lost when descriptors of different kinds are merged (names_lost, types_lost); an empty interval is kept (empty_kept); a sign is accepted in numbers (hex_sign_accepted). The text of JSON is serde_json's and not modelled."
  },
  {
   "property": "C118",
   "status": "partial",
   "theorems": [
    "Verif.Perf.made_calls",
    "Verif.Perf.function_records",
    "Verif.Perf.functions_record",
    "Verif.Perf.calls_published",
    "Verif.Perf.marks_measure",
    "Verif.Perf.disabled_nothing",
    "Verif.Perf.mask_ignored",
    "Verif.Perf.strings_leak",
    "Verif.Perf.zero_byte_panics"
   ],
   "note": "False in one part: a measured string is allocated and never freed (strings_leak). A string with a zero byte panics (zero_byte_panics). For strings of at most 204 bytes; longer ones make the record's length wrap, which is a finding of C74 (long_name_spoils). The clock is arbitrary."
  },
  {
   "property": "C119",
   "status": "partial",
   "theorems": [
    "Verif.Perf.Static.one_init_ok",
    "Verif.Perf.Static.services_given",
    "Verif.Perf.Static.inner_agrees",
    "Verif.Perf.Static.visible_after_init",
    "Verif.Perf.Static.alone_is",
    "Verif.Perf.Static.stuck_forever",
    "Verif.Perf.Static.second_init_disables",
    "Verif.Perf.Static.reader_races_init"
   ],
   "note": "False in two parts: a second initialization fails but leaves the flag set, so that nobody gets the state any more and no measurement is recorded (second_init_disables, stuck_forever); a reader that looked at the flag before the initialization began reads a cell while it is written (reader_races_init)."
  },
  {
   "property": "C12",
   "status": "proved",
   "theorems": [
    "Verif.Protocol.valid_iff_protocol",
    "Verif.Protocol.zero_invalid",
    "Verif.Protocol.protocols_on_handle",
    "Verif.Protocol.install_existing",
    "Verif.Protocol.install_new",
    "Verif.Protocol.install_returns",
    "Verif.Protocol.install_effect",
    "Verif.Protocol.install_failure",
    "Verif.Protocol.uninstall_result",
    "Verif.Protocol.uninstall_effect",
    "Verif.Protocol.others_keep_interfaces"
   ],
   "note": "For every history and every handle hash function. Handle search in hashing mode that never finds a free value is modelled as a panic (the code would loop)."
  },
  {
   "property": "C120",
   "status": "partial",
   "theorems": [
    "Verif.Perf.Exchange.request_bytes",
    "Verif.Perf.Exchange.request_guid",
    "Verif.Perf.Exchange.request_asks",
    "Verif.Perf.Exchange.fetches_all",
    "Verif.Perf.Exchange.adds_records",
    "Verif.Perf.Exchange.refused_keeps",
    "Verif.Perf.Exchange.region_reads",
    "Verif.Perf.Exchange.some_serves",
    "Verif.Perf.Exchange.length_counts_header",
    "Verif.Perf.Exchange.empty_answers_hang",
    "Verif.Perf.Exchange.empty_region_panics",
    "Verif.Perf.Exchange.short_region_panics"
   ],
   "note": "False in parts: the length in a request's header counts the header too, 64 instead of 40 (length_counts_header); an answer without data makes fetching go on forever (empty_answers_hang); a region that is empty or shorter than a message panics (empty_region_panics, short_region_panics). The management mode is an arbitrary state machine on the shared buffer."
  },
  {
   "property": "C121",
   "status": "partial",
   "theorems": [
    "Verif.Perf.Component.boot_publishes",
    "Verif.Perf.Component.entry_registers",
    "Verif.Perf.Component.calls_recorded",
    "Verif.Perf.Component.table_published",
    "Verif.Perf.Component.late_recorded",
    "Verif.Perf.Component.fetched_late",
    "Verif.Perf.Component.disabled_silent",
    "Verif.Perf.Component.early_ignored",
    "Verif.Perf.Component.stops_at_first",
    "Verif.Perf.Component.no_region_silent",
    "Verif.Perf.Component.second_entry_disables",
    "Verif.Perf.Component.no_status_code_hides"
   ],
   "note": "The last sentence is false: with regions for the management mode of which none is the user's the component succeeds without registering anything (no_region_silent), and without the status code protocol the table is moved but not put in the configuration table (no_status_code_hides). A second dispatch is aborted and stops all measurement (second_entry_disables). The events run once each, in the order end of DXE, ready to boot."
  },
  {
   "property": "C122",
   "status": "partial",
   "theorems": [
    "Verif.Pecoff.first_found_partial",
    "Verif.Pecoff.package_list_partial",
    "Verif.Pecoff.other_sections",
    "Verif.Pecoff.no_section_none",
    "Verif.Pecoff.resource_name",
    "Verif.Pecoff.found_there",
    "Verif.Pecoff.never_panics_partial",
    "Verif.Pecoff.later_missed",
    "Verif.Pecoff.second_not_found",
    "Verif.Pecoff.other_name_found",
    "Verif.Pecoff.counts_panic",
    "Verif.Pecoff.stale_installed"
   ],
   "note": "Proved when the entry named HII is the first of the root. False otherwise: the loop never goes on to the next entry (later_missed, second_not_found). The name is read one byte early, so its last byte is not compared (other_name_found). A checked build panics on directories with more than 65535 entries or long names (counts_panic); an unchecked one never does (never_panics_partial). A resource outside the loaded image is logged and then memory that was not written is installed as a package list (stale_installed)."
  },
  {
   "property": "C123",
   "status": "partial",
   "theorems": [
    "Verif.Images.Interfaces.load_installs",
    "Verif.Images.Interfaces.unload_keeps",
    "Verif.Images.Interfaces.unload_closes_partial",
    "Verif.Images.Interfaces.unload_gone_partial",
    "Verif.Images.Interfaces.path_left",
    "Verif.Images.Interfaces.package_left",
    "Verif.Images.Interfaces.unloaded_still_there",
    "Verif.Images.Interfaces.stale_usage_left"
   ],
   "note": "Proved for images without device path and package list. False otherwise: the device path protocol is installed with a copy and uninstalled with the caller's pointer, so it always stays, and so does the handle (path_left); the package list is never uninstalled (package_left). A usage whose controller's handle is gone is not closed (stale_usage_left)."
  },
  {
   "property": "C124",
   "status": "proved",
   "theorems": [
    "Verif.Status.status_kept",
    "Verif.Status.success_iff",
    "Verif.Status.error_kept",
    "Verif.Status.proper_of_status",
    "Verif.Status.named_are_errors",
    "Verif.Status.distinct",
    "Verif.Status.of_success_panics",
    "Verif.Status.warning_is_error",
    "Verif.Status.unknown_success"
   ],
   "note": "For all codes. Proper: the errors that a code is turned into. Findings: a warning is an error, turning a success into an error panics."
  },
  {
   "property": "C125",
   "status": "partial",
   "theorems": [
    "Verif.Images.Source.file_bytes",
    "Verif.Images.Source.directory_refused",
    "Verif.Images.Source.missing_refused",
    "Verif.Images.Source.fv_bytes",
    "Verif.Images.Source.fv_other_node",
    "Verif.Images.Source.load_file_bytes",
    "Verif.Images.Source.load_file_refused",
    "Verif.Images.Source.source_order",
    "Verif.Images.Source.authenticate_asks",
    "Verif.Images.Source.loaded_is_authenticated",
    "Verif.Images.Source.given_bytes",
    "Verif.Images.Source.any_read",
    "Verif.Images.Source.info_error",
    "Verif.Images.Source.other_node_refused",
    "Verif.Images.Source.arguments_checked",
    "Verif.Images.Source.kept_path",
    "Verif.Images.Source.refused_loaded",
    "Verif.Images.Source.unasked_accepted",
    "Verif.Images.Source.security2_alone_panics",
    "Verif.Images.Source.auth_status_dropped",
    "Verif.Images.Source.load_file_padded",
    "Verif.Images.Source.unterminated_name",
    "Verif.Images.Source.huge_file_panics",
    "Verif.Images.Source.short_node_ends"
   ],
   "note": "Proved for all drivers, except that the authentication status of a firmware volume is not passed on (auth_status_dropped). An image that is refused is loaded all the same (refused_loaded). The search for the device is a parameter here."
  },
  {
   "property": "C126",
   "status": "proved",
   "theorems": [
    "Verif.TestRunner.entry_spec",
    "Verif.TestRunner.all_run",
    "Verif.TestRunner.runs_selected",
    "Verif.TestRunner.run_good",
    "Verif.TestRunner.unretrievable_fails",
    "Verif.TestRunner.none_selected_succeeds",
    "Verif.TestRunner.debug_level_leaks"
   ],
   "note": "For all tests, filters and options. Findings: a filter that selects nothing succeeds; in debug mode a level set by a test stays."
  },
  {
   "property": "C127",
   "status": "proved",
   "theorems": [
    "Verif.Uart.written",
    "Verif.Uart.write_waits",
    "Verif.Uart.on_the_wire",
    "Verif.Uart.write_returns",
    "Verif.Uart.write_hangs",
    "Verif.Uart.try_read_spec",
    "Verif.Uart.read_spec",
    "Verif.Uart.read_oldest",
    "Verif.Uart.null_port"
   ],
   "note": "For all devices and schedules. Finding: there is no time-out, so a device that stops sending makes write wait forever (write_hangs). The 16550 driver is in a crate outside the repository."
  },
  {
   "property": "C128",
   "status": "proved",
   "theorems": [
    "Verif.Ffs.Core.tiano_section",
    "Verif.Ffs.Core.compressed_section",
    "Verif.Ffs.Core.stored_section",
    "Verif.Ffs.Core.others_passed_on",
    "Verif.Ffs.Core.own_not_passed_on",
    "Verif.Ffs.Core.damaged_refused",
    "Verif.Ffs.Core.unpacked_size",
    "Verif.Ffs.Core.edited_refused",
    "Verif.Ffs.Core.get_info_spec",
    "Verif.Ffs.Core.get_info_reads",
    "Verif.Ffs.Core.decompress_spec",
    "Verif.Ffs.Core.declared_length_ignored",
    "Verif.Ffs.Core.huge_size_panics",
    "Verif.Ffs.Core.get_info_panics_iff",
    "Verif.Ffs.Core.extractor_laxer",
    "Verif.Ffs.Core.null_pointer_panics"
   ],
   "note": "For all sections; the decompressor (another crate) is an arbitrary function. Findings: the length in a compressed section's header is ignored (declared_length_ignored), a size that cannot be allocated panics (huge_size_panics), a checked build panics on a source whose compressed size is near 2^32 (get_info_panics_iff), the extractor accepts streams the protocol refuses (extractor_laxer), null pointers panic (null_pointer_panics)."
  },
  {
   "property": "C129",
   "status": "proved",
   "theorems": [
    "Verif.StatusCode.received",
    "Verif.StatusCode.received_general",
    "Verif.StatusCode.reported",
    "Verif.StatusCode.reported_bare",
    "Verif.StatusCode.answer",
    "Verif.StatusCode.long_data_cut"
   ],
   "note": "For data of fewer than 65536 bytes. Finding: with more the size in the header is cut to 16 bits (long_data_cut)."
  },
  {
   "property": "C13",
   "status": "proved",
   "theorems": [
    "Verif.Protocol.locate_all_exact",
    "Verif.Protocol.locate_by_protocol",
    "Verif.Protocol.order_install",
    "Verif.Protocol.order_uninstall",
    "Verif.Protocol.order_others",
    "Verif.Protocol.locate_protocol_exact",
    "Verif.Protocol.children_exact"
   ],
   "note": "Exact sets, no repeats, creation order (stated as how the list changes on each call)."
  },
  {
   "property": "C130",
   "status": "proved",
   "theorems": [
    "Verif.SdkBoot.Guard.restored",
    "Verif.SdkBoot.Guard.held",
    "Verif.SdkBoot.Guard.guard_holds",
    "Verif.SdkBoot.Guard.never_misused",
    "Verif.SdkBoot.Guard.lower_panics",
    "Verif.SdkBoot.Guard.crossed_fails"
   ],
   "note": "On the core's own TPL model, with any notify functions and interrupts. Finding: guards dropped in the order they were made (as fields of a structure are) never get through (crossed_fails)."
  },
  {
   "property": "C131",
   "status": "partial",
   "theorems": [
    "Verif.Cpu.PagingX64.refused",
    "Verif.Cpu.PagingX64.success_calls",
    "Verif.Cpu.PagingX64.reads_back",
    "Verif.Cpu.PagingX64.cache_set_partial",
    "Verif.Cpu.PagingX64.rest_left",
    "Verif.Cpu.PagingX64.no_cache_keeps",
    "Verif.Cpu.PagingX64.cache_kept_on_failure",
    "Verif.Cpu.PagingX64.mtrr_error",
    "Verif.Cpu.PagingX64.query_spec",
    "Verif.Cpu.PagingX64.second_page_uncached"
   ],
   "note": "The cache type of all of the range holds only if the range had one type before, or its first address another than the one asked for: the code looks at the first address alone (rest_left, second_page_uncached). If the page table refuses, the cache types have been changed (cache_kept_on_failure). The page table and the MTRRs are other crates, assumed to do what their calls say."
  },
  {
   "property": "C132",
   "status": "proved",
   "theorems": [
    "Verif.SdkBoot.MemType.value_back",
    "Verif.SdkBoot.MemType.value_refused",
    "Verif.SdkBoot.MemType.type_back",
    "Verif.SdkBoot.MemType.injective",
    "Verif.SdkBoot.MemType.order",
    "Verif.SdkBoot.MemType.align_down_spec",
    "Verif.SdkBoot.MemType.align_up_spec"
   ],
   "note": ""
  },
  {
   "property": "C133",
   "status": "proved",
   "theorems": [
    "Verif.Alloc.entry",
    "Verif.Alloc.first_hob",
    "Verif.Alloc.no_hob",
    "Verif.Alloc.reserved_as_asked",
    "Verif.Alloc.buckets_apart",
    "Verif.Alloc.first_counts",
    "Verif.Alloc.later_ignored",
    "Verif.Alloc.entry_ignored",
    "Verif.Alloc.conventional_bucket"
   ],
   "note": "For runs that do not panic. The handle of a memory type is a given injective function; creating one cannot fail in the model. Finding: a bucket of conventional memory is set aside although nobody can allocate of that type (conventional_bucket)."
  },
  {
   "property": "C134",
   "status": "proved",
   "theorems": [
    "Verif.Gcd.Services.allocate_serves",
    "Verif.Gcd.Services.allocate_fails",
    "Verif.Gcd.Services.allocate_refuses",
    "Verif.Gcd.Services.allocate_lowest",
    "Verif.Gcd.Services.allocate_highest",
    "Verif.Gcd.Services.io_allocate_serves",
    "Verif.Gcd.Services.io_allocate_fails",
    "Verif.Gcd.Services.descriptor_serves",
    "Verif.Gcd.Services.descriptor_null",
    "Verif.Gcd.Services.descriptor_beyond",
    "Verif.Gcd.Services.io_descriptor_serves",
    "Verif.Gcd.Services.map_serves",
    "Verif.Gcd.Services.map_outcome",
    "Verif.Gcd.Services.map_current",
    "Verif.Gcd.Services.map_stale",
    "Verif.Gcd.Services.io_map_serves",
    "Verif.Gcd.Services.reports_refuse"
   ],
   "note": "Findings: for an address beyond the memory space the descriptor of the last entry is reported with success (descriptor_beyond; the I/O service says not found); when the heap grows for the buffer of the map, the map says that the range holding it is free (map_stale). Lowest: outside page 0 and ending strictly below the limit; highest: unless memory below 4 GiB is preferred."
  },
  {
   "property": "C135",
   "status": "partial",
   "theorems": [
    "Verif.Cpu.FaultReport.page_fault_partial",
    "Verif.Cpu.FaultReport.reserved_inverted",
    "Verif.Cpu.FaultReport.fetch_inverted",
    "Verif.Cpu.FaultReport.never_right",
    "Verif.Cpu.FaultReport.fault_page",
    "Verif.Cpu.FaultReport.gp_fault"
   ],
   "note": "Presence, access and mode are reported rightly. Finding: the reserved bit and the instruction fetch are reported exactly when the error code says they did not happen (reserved_inverted, fetch_inverted), so no report is right (never_right)."
  },
  {
   "property": "C136",
   "status": "partial",
   "theorems": [
    "Verif.Paging.RuntimeFixup.runtime_drivers_unprotected",
    "Verif.Paging.RuntimeFixup.runtime_drivers_writable",
    "Verif.Paging.RuntimeFixup.others_ignored",
    "Verif.Paging.RuntimeFixup.only_runtime_drivers",
    "Verif.Paging.RuntimeFixup.logged_or_unprotected",
    "Verif.Paging.RuntimeFixup.uncached_driver_stays_protected",
    "Verif.Paging.RuntimeFixup.uncached_driver_witness"
   ],
   "note": "Holds for drivers whose first page has a cache attribute. Finding: without one, the memory space says that the protection is gone while the page table keeps it, and no error is reported (uncached_driver_stays_protected, uncached_driver_witness)."
  },
  {
   "property": "C137",
   "status": "proved",
   "theorems": [
    "Verif.Fv.processed",
    "Verif.Fv.process_null",
    "Verif.Fv.process_damaged",
    "Verif.Fv.process_short",
    "Verif.Fv.process_fails"
   ],
   "note": "On the model of C84: the world of event handlers is a parameter that only grows what is installed (Honest, Grows), allocations are fresh. The memory does not change during the call."
  },
  {
   "property": "C138",
   "status": "proved",
   "theorems": [
    "Verif.Debugger.Session.reentry_changes_nothing",
    "Verif.Debugger.Session.reentry_crashes",
    "Verif.Debugger.Session.connection_continues",
    "Verif.Debugger.Session.connection_starts",
    "Verif.Debugger.Session.not_initialized",
    "Verif.Debugger.Session.kept_iff_resumed",
    "Verif.Debugger.Session.results",
    "Verif.Debugger.Session.told_again",
    "Verif.Debugger.Session.crash_reason"
   ],
   "note": "The decoder (the crate gdbstub) is an arbitrary parameter. Finding: a fault inside the debugger ends in its endless loop without a word to the other side (reentry_crashes)."
  },
  {
   "property": "C139",
   "status": "partial",
   "theorems": [
    "Verif.AdvLog.Adopt.add_confined",
    "Verif.AdvLog.Adopt.add_keeps_log",
    "Verif.AdvLog.Adopt.stored_or_counted",
    "Verif.AdvLog.Adopt.all_accounted",
    "Verif.AdvLog.Adopt.lost_uncounted",
    "Verif.AdvLog.Adopt.no_log",
    "Verif.AdvLog.Adopt.first_log",
    "Verif.AdvLog.Adopt.second_log_panics",
    "Verif.AdvLog.Adopt.protocol_has_log",
    "Verif.AdvLog.Adopt.success_without_log",
    "Verif.AdvLog.Adopt.bad_header_adopted"
   ],
   "note": "Stored or counted holds for headers whose numbers fit together. Findings: adoption does not check the place for the next message, and with one before the messages each message is lost uncounted, or the logger panics in a checked build (lost_uncounted, bad_header_adopted); success is reported though no log was adopted (success_without_log). A HOB of fewer than 8 bytes is read beyond its end (not in the theorems: first_log asks for 8)."
  },
  {
   "property": "C14",
   "status": "proved",
   "theorems": [
    "Verif.Protocol.exclusion",
    "Verif.Protocol.users_wellformed",
    "Verif.Protocol.open_result",
    "Verif.Protocol.open_failure",
    "Verif.Protocol.open_effect",
    "Verif.Protocol.close_exact",
    "Verif.Protocol.others_keep_users",
    "Verif.Protocol.already_started_for_any_repeat"
   ],
   "note": "Database level (add_protocol_usage / remove_protocol_usage). already_started_for_any_repeat is a finding."
  },
  {
   "property": "C140",
   "status": "partial",
   "theorems": [
    "Verif.Misc.Arch.served_partial",
    "Verif.Misc.Arch.not_ready",
    "Verif.Misc.Arch.never_let_go",
    "Verif.Misc.Arch.removed_driver_called",
    "Verif.Misc.Arch.installed_and_removed_panics",
    "Verif.Misc.Arch.panic_reason"
   ],
   "note": "Holds for histories in which installed protocols stay. False otherwise: the pointer is kept for good, so that a driver that has removed its protocol is still called (never_let_go, removed_driver_called), and one that installs and removes it while the callback is held up makes the core panic (installed_and_removed_panics)."
  },
  {
   "property": "C141",
   "status": "partial",
   "theorems": [
    "Verif.Pecoff.Info.pe_accepted_iff",
    "Verif.Pecoff.Info.pe_refused",
    "Verif.Pecoff.Info.not_an_image",
    "Verif.Pecoff.Info.te_info",
    "Verif.Pecoff.Info.te_size_holds",
    "Verif.Pecoff.Info.filename_with_extension",
    "Verif.Pecoff.Info.filename_other",
    "Verif.Pecoff.Info.filename_clean",
    "Verif.Pecoff.Info.pe_filename",
    "Verif.Pecoff.Info.machine_ignored",
    "Verif.Pecoff.Info.te_never_loads",
    "Verif.Pecoff.Info.te_size_short",
    "Verif.Pecoff.Info.pe32_base_misplaced",
    "Verif.Pecoff.Info.pe_debug_panics"
   ],
   "note": "Proved for PE files: accepted iff well-formed, the error for each refusal, the fields used, and file names for all byte strings. Missing because the code does otherwise (proved): the machine type is never looked at, no TE file is ever accepted (its alignment is set to 0), the image base of a 32-bit file is looked for four bytes too early, and debug builds panic on a bad alignment."
  },
  {
   "property": "C142",
   "status": "partial",
   "theorems": [
    "Verif.Pecoff.Load.loaded_inside",
    "Verif.Pecoff.Load.loaded_contents",
    "Verif.Pecoff.Load.failure_frees_partial",
    "Verif.Pecoff.Load.odd_alignment_leaks",
    "Verif.Pecoff.Load.page_zero_leaks",
    "Verif.Pecoff.Load.entry_unchecked"
   ],
   "note": "Proved for every success. The failure half is proved for alignments that are powers of two and an allocator that does not hand out page zero; without these the pages are lost (odd_alignment_leaks, page_zero_leaks). The entry point is not checked (entry_unchecked)."
  },
  {
   "property": "C143",
   "status": "partial",
   "theorems": [
    "Verif.Perf.Setup.configured_by_hob_partial",
    "Verif.Perf.Setup.configured_statically",
    "Verif.Perf.Setup.disabled_by_hob",
    "Verif.Perf.Setup.late_config_hides_hob",
    "Verif.Perf.Setup.short_hob_panics",
    "Verif.Perf.Setup.odd_flag_undefined",
    "Verif.Perf.Setup.sample_late"
   ],
   "note": "Proved for every order of the components, and for configurations given before the last provider. Missing because the code does otherwise (proved): a configuration given after the provider locks it, and the HOB is ignored (late_config_hides_hob); a HOB shorter than five bytes stops the boot (short_hob_panics); a flag other than 0 or 1 is undefined behaviour (odd_flag_undefined)."
  },
  {
   "property": "C144",
   "status": "partial",
   "theorems": [
    "Verif.Misc.Handoff.missing_named",
    "Verif.Misc.Handoff.handed_over",
    "Verif.Misc.Handoff.entered_without_status_code",
    "Verif.Misc.Handoff.no_bds",
    "Verif.Misc.Handoff.bds_return_ignored",
    "Verif.Misc.Handoff.null_status_code_panics",
    "Verif.Misc.Handoff.null_bds_used"
   ],
   "note": "Proved for every database the protocol services can make and every driver, for interfaces that are not null. Missing because the code does otherwise (proved): when BDS returns nothing is dispatched again (bds_return_ignored), a null status code interface makes the core panic before BDS (null_status_code_panics), a null BDS interface is read (null_bds_used)."
  },
  {
   "property": "C145",
   "status": "partial",
   "theorems": [
    "Verif.Misc.MemAttr.installed",
    "Verif.Misc.MemAttr.removed_iff",
    "Verif.Misc.MemAttr.gone_partial",
    "Verif.Misc.MemAttr.stays_when_used",
    "Verif.Misc.MemAttr.handle_protocol_keeps",
    "Verif.Misc.MemAttr.unused_gone"
   ],
   "note": "Proved for every history of the database in which nobody is recorded as a user of the protocol when compatibility mode is entered. Missing because the code does otherwise (proved): any record of use, also one left by HandleProtocol, makes the removal fail, and the protocol stays for everyone (stays_when_used, handle_protocol_keeps)."
  },
  {
   "property": "C146",
   "status": "proved",
   "theorems": [
    "Verif.Gcd.Listing.allocated_listed",
    "Verif.Gcd.Listing.mmio_listed",
    "Verif.Gcd.Listing.listings_apart",
    "Verif.Paging.allocated_called",
    "Verif.Paging.allocated_call_attributes",
    "Verif.Paging.mmio_listing_used"
   ],
   "note": "For every history of the memory space. That the page table maps what is listed is the matter of C108."
  },
  {
   "property": "C147",
   "status": "proved",
   "theorems": [
    "Verif.Images.Core.well_known_handles",
    "Verif.Images.Core.later_handles_differ",
    "Verif.Images.Core.core_registered",
    "Verif.Images.Core.core_refused"
   ],
   "note": "Parsing the image of the core is a parameter here (C141). The table of loaded images the core is entered in is the matter of C68."
  },
  {
   "property": "C15",
   "status": "proved",
   "theorems": [
    "Verif.Protocol.used_stays",
    "Verif.Protocol.uninstall_result",
    "Verif.Protocol.open_of_gone_agent_stays"
   ],
   "note": "Database level. open_of_gone_agent_stays is a finding: an open held by a deleted agent can never be closed."
  },
  {
   "property": "C16",
   "status": "proved",
   "theorems": [
    "Verif.Protocol.notify_exactly_owed",
    "Verif.Protocol.install_notifies",
    "Verif.Protocol.register_number",
    "Verif.Protocol.reports_gone_handle",
    "Verif.Protocol.reinstall_reported_once"
   ],
   "note": "The last two theorems are limits of what the registration reports."
  },
  {
   "property": "C17",
   "status": "proved",
   "theorems": [
    "Verif.Gcd.descriptors_partition",
    "Verif.Gcd.partition_stays",
    "Verif.Gcd.cells_ok",
    "Verif.Gcd.descriptor_contains"
   ],
   "note": "For every address width below 64 and every history of calls, with the block tree modelled as its sorted list (C22)."
  },
  {
   "property": "C18",
   "status": "partial",
   "theorems": [
    "Verif.Gcd.add_ok",
    "Verif.Gcd.add_err",
    "Verif.Gcd.add_succeeds",
    "Verif.Gcd.add_existing_denied",
    "Verif.Gcd.first_add_ok",
    "Verif.Gcd.remove_ok",
    "Verif.Gcd.remove_err",
    "Verif.Gcd.remove_succeeds",
    "Verif.Gcd.remove_allocated_denied",
    "Verif.Gcd.set_attributes_ok",
    "Verif.Gcd.set_attributes_err",
    "Verif.Gcd.set_attributes_succeeds",
    "Verif.Gcd.set_capabilities_ok",
    "Verif.Gcd.set_capabilities_err",
    "Verif.Gcd.set_capabilities_succeeds",
    "Verif.Gcd.free_ok",
    "Verif.Gcd.free_err_partial",
    "Verif.Gcd.free_succeeds",
    "Verif.Gcd.locked_free",
    "Verif.Gcd.allocate_ok",
    "Verif.Gcd.allocate_err",
    "Verif.Gcd.free_error_after_freeing",
    "Verif.Gcd.first_add_error_after_adding",
    "Verif.Gcd.remove_keeps_attributes"
   ],
   "note": "Exactness on success holds for all calls, and a failing call changes nothing except in two cases in which the code does not keep the property: a free that fails to set the attributes after freeing (free_err_partial says exactly what it left behind; witness free_error_after_freeing) and the very first add with an unaligned base (witness first_add_error_after_adding)."
  },
  {
   "property": "C19",
   "status": "proved",
   "theorems": [
    "Verif.Gcd.allocate_ok",
    "Verif.Gcd.allocate_err",
    "Verif.Gcd.allocate_no_panic",
    "Verif.Gcd.allocation_stays",
    "Verif.Gcd.live_allocations_disjoint"
   ],
   "note": "All strategies, every reachable map. allocation_stays and live_allocations_disjoint range over every history between the calls."
  },
  {
   "property": "C20",
   "status": "partial",
   "theorems": [
    "Verif.Gcd.bottom_up_succeeds",
    "Verif.Gcd.bottom_up_lowest",
    "Verif.Gcd.top_down_succeeds",
    "Verif.Gcd.top_down_highest",
    "Verif.Gcd.top_down_prefers_32",
    "Verif.Gcd.by_address_succeeds",
    "Verif.Gcd.bottom_up_off_by_one"
   ],
   "note": "Provided the table has room for two more blocks. The bottom-up search deliberately leaves out page 0, and it wrongly leaves out a range that ends exactly at the limit in a free block that begins at address 0 (bottom_up_off_by_one), so the theorems have UpCandidate for 'can host'; top-down is complete."
  },
  {
   "property": "C21",
   "status": "proved",
   "theorems": [
    "Verif.Gcd.io_partition",
    "Verif.Gcd.io_add_ok",
    "Verif.Gcd.io_remove_ok",
    "Verif.Gcd.io_free_ok",
    "Verif.Gcd.io_allocate_ok",
    "Verif.Gcd.io_fail_changes_nothing",
    "Verif.Gcd.io_range_succeeds",
    "Verif.Gcd.io_allocate_succeeds"
   ],
   "note": "Every width below 64 and every history; choice and completeness of allocation included. Success theorems need room for two more blocks."
  },
  {
   "property": "C22",
   "status": "proved",
   "theorems": [
    "Verif.Collections.Tree.rbt_history",
    "Verif.Collections.Tree.rbt_plain_history",
    "Verif.Collections.Tree.rbt_add_many",
    "Verif.Collections.Tree.history_contents"
   ],
   "note": "Pointer-level model of nodes, links, rotations and fix-ups. The history also covers delete_with_idx and writes through references, under the rules stated in Legal. A failed insertion of a duplicate leaks a slot: part of the specification (Step.dup)."
  },
  {
   "property": "C23",
   "status": "partial",
   "theorems": [
    "Verif.Collections.Tree.rbt_balanced_partial",
    "Verif.Collections.Tree.rbt_degenerates",
    "Verif.Collections.Tree.rbt_not_balanced"
   ],
   "note": "Proved for insertions. With deletions the property is false of the code: rbt_degenerates builds, for every n, a reachable tree of n+1 values that is a linked list."
  },
  {
   "property": "C24",
   "status": "proved",
   "theorems": [
    "Verif.Collections.Tree.bst_history",
    "Verif.Collections.Tree.bst_plain_history",
    "Verif.Collections.Tree.bst_add_many",
    "Verif.Collections.Tree.history_contents"
   ],
   "note": "Pointer-level model; same specification as C22."
  },
  {
   "property": "C25",
   "status": "proved",
   "theorems": [
    "Verif.Collections.SortedSlice.add_spec",
    "Verif.Collections.SortedSlice.addContiguous_ok",
    "Verif.Collections.SortedSlice.addContiguous_no_panic",
    "Verif.Collections.SortedSlice.remove_spec",
    "Verif.Collections.SortedSlice.search_spec",
    "Verif.Collections.SortedSlice.removeAt_inv",
    "Verif.Collections.SortedSlice.history_sorted",
    "Verif.Collections.SortedSlice.searchWithKey_panics",
    "Verif.Collections.SortedSlice.searchWithKey_spec",
    "Verif.Collections.SortedSlice.addContiguous_succeeds",
    "Verif.Collections.SortedSlice.addContiguous_full"
   ],
   "note": ""
  },
  {
   "property": "C26",
   "status": "proved",
   "theorems": [
    "Verif.Collections.Tree.storage_history",
    "Verif.Collections.Tree.dirty_memory_corrupts"
   ],
   "note": "dirty_memory_corrupts shows that the condition on the initial memory is needed."
  },
  {
   "property": "C27",
   "status": "proved",
   "theorems": [
    "Verif.Alloc.block_placed",
    "Verif.Alloc.blocks_apart",
    "Verif.Alloc.block_apart_from_pages",
    "Verif.Alloc.contents_kept",
    "Verif.Alloc.no_room_changes_nothing",
    "Verif.Alloc.freed_block_reused",
    "Verif.Alloc.allocate_steps",
    "Verif.Alloc.allocate_succeeds",
    "Verif.Alloc.bumpOk",
    "Verif.Alloc.demoEnvOk",
    "Verif.Alloc.unlucky_size_fails",
    "Verif.Alloc.large_alignment_fails"
   ],
   "note": "Any number of allocators, any history of their operations, of GCD calls and of writes by anybody to what they own. The linked-list heap of the external crate linked_list_allocator is a parameter with its contract as hypothesis (HeapOk)."
  },
  {
   "property": "C28",
   "status": "proved",
   "theorems": [
    "Verif.Alloc.pool_placed",
    "Verif.Alloc.pool_apart",
    "Verif.Alloc.allocatePool_ok",
    "Verif.Alloc.allocatePool_err",
    "Verif.Alloc.freePool_ok",
    "Verif.Alloc.freePool_foreign",
    "Verif.Alloc.freed_twice",
    "Verif.Alloc.freed_twice_at_once",
    "Verif.Alloc.coreFreePool_ok",
    "Verif.Alloc.coreFreePool_twice",
    "Verif.Alloc.coreFreePool_twice_at_once",
    "Verif.Alloc.coreAllocatePool_ok",
    "Verif.Alloc.coreAllocatePool_err",
    "Verif.Alloc.coreAllocatePool_invalid",
    "Verif.Alloc.huge_pool_panics",
    "Verif.Alloc.forged_info_freed"
   ],
   "note": "Any number of allocators, with any history between. A second free is an error as long as the memory has not been given out again, for blocks of the size classes; for larger blocks, if nothing happens in between. Assumes that users leave the info before a buffer alone (forged_info_freed shows what happens otherwise) and that the compiler does not put the signature in the first 8 (16) bytes of the info."
  },
  {
   "property": "C29",
   "status": "proved",
   "theorems": [
    "Verif.AdvLog.entry_size_exact",
    "Verif.AdvLog.writers_in_bounds",
    "Verif.AdvLog.writers_disjoint",
    "Verif.AdvLog.written_stays",
    "Verif.AdvLog.old_data_untouched",
    "Verif.AdvLog.discarded_counts",
    "Verif.AdvLog.refused_only_when_full",
    "Verif.AdvLog.offset_wraps"
   ],
   "note": "Under the start condition that current offset plus any message size fits in 32 bits; offset_wraps shows what happens otherwise."
  },
  {
   "property": "C30",
   "status": "proved",
   "theorems": [
    "Verif.AdvLog.read_back",
    "Verif.AdvLog.reservation_order",
    "Verif.AdvLog.torn_read",
    "Verif.AdvLog.long_payload_truncated"
   ],
   "note": "For a quiescent log and payloads below 65536 bytes; torn_read and long_payload_truncated show both conditions are needed."
  },
  {
   "property": "C31",
   "status": "proved",
   "theorems": [
    "Verif.DevicePath.nodeCount_spec",
    "Verif.DevicePath.copy_spec",
    "Verif.DevicePath.concat_spec",
    "Verif.DevicePath.remaining_spec",
    "Verif.DevicePath.walker_spec",
    "Verif.DevicePath.remaining_concat",
    "Verif.DevicePath.null_rejected",
    "Verif.DevicePath.multi_instance_truncated",
    "Verif.DevicePath.zero_length_hangs",
    "Verif.DevicePath.nodeCount_long_end",
    "Verif.DevicePath.walker_stops"
   ],
   "note": "Single-instance paths for count/copy/concat; remaining and walker also for multi-instance paths. multi_instance_truncated and zero_length_hangs document what happens otherwise."
  },
  {
   "property": "C32",
   "status": "partial",
   "theorems": [
    "Verif.Component.handed_locks_partial",
    "Verif.Component.no_mut_after_read_partial",
    "Verif.Component.one_value_partial",
    "Verif.Component.nested_tuple_not_validated",
    "Verif.Component.queued_config_changes",
    "Verif.Component.storage_mut_changes_locked",
    "Verif.Component.with_config_order_matters"
   ],
   "note": "Any component code, any building calls, HOBs and drivers. Missing: components with a tuple nested in their parameter list (never validated, nested_tuple_not_validated); and for the single value, components with &mut Storage or that queue add_config for the type, with which the property is false (queued_config_changes, storage_mut_changes_locked)."
  },
  {
   "property": "C33",
   "status": "partial",
   "theorems": [
    "Verif.Component.each_once",
    "Verif.Component.runs_when_available_partial",
    "Verif.Component.fixpoint",
    "Verif.Component.core_terminates",
    "Verif.Component.boot_terminates",
    "Verif.Component.nested_tuple_not_validated",
    "Verif.Component.nested_service_panics"
   ],
   "note": "At most once, fixpoint and termination hold for all components. Missing: 'only when available' for a component with a tuple nested in its parameter list, where it is false of the code (nested_tuple_not_validated)."
  },
  {
   "property": "C34",
   "status": "proved",
   "theorems": [
    "Verif.Dispatcher.started_once",
    "Verif.Dispatcher.loaded_once",
    "Verif.Dispatcher.volumes_once",
    "Verif.Dispatcher.found_once",
    "Verif.Dispatcher.start_justified",
    "Verif.Dispatcher.waiting_not_started",
    "Verif.Dispatcher.waiting_loaded",
    "Verif.Dispatcher.verdict_expression",
    "Verif.Dispatcher.verdict_default",
    "Verif.Dispatcher.verdict_sor",
    "Verif.Dispatcher.verdict_association",
    "Verif.Dispatcher.arch_protocols",
    "Verif.Dispatcher.schedule_effect",
    "Verif.Dispatcher.trust_effect",
    "Verif.Dispatcher.nested_dispatch_runs"
   ],
   "note": "Any machine, any code run by drivers and notifications (including nested calls of the dispatcher), any number of passes. nested_dispatch_runs is a finding: the re-entrancy flag is never set."
  },
  {
   "property": "C35",
   "status": "proved",
   "theorems": [
    "Verif.Dispatcher.before_in_same_pass",
    "Verif.Dispatcher.after_in_same_pass",
    "Verif.Dispatcher.names_fresh",
    "Verif.Dispatcher.met_fresh",
    "Verif.Dispatcher.chained_before_never_runs",
    "Verif.Dispatcher.late_after_never_runs",
    "Verif.Dispatcher.deferred_before_never_runs",
    "Verif.Dispatcher.duplicate_name_after_first"
   ],
   "note": "For every pass that does not fail. The last four are findings: chained, late and deferred BEFORE/AFTER drivers never run."
  },
  {
   "property": "C36",
   "status": "proved",
   "theorems": [
    "Verif.Dispatcher.dispatcher_fixpoint",
    "Verif.Dispatcher.no_progress_fixpoint",
    "Verif.Dispatcher.pass_examines",
    "Verif.Dispatcher.pass_err",
    "Verif.Dispatcher.images_fate",
    "Verif.Dispatcher.dispatcher_result",
    "Verif.Dispatcher.unreadable_drops_schedule"
   ],
   "note": "unreadable_drops_schedule is a finding about passes that fail."
  },
  {
   "property": "C37",
   "status": "partial",
   "theorems": [
    "Verif.Ffs.section_roundtrip_partial",
    "Verif.Ffs.good_section_roundtrip",
    "Verif.Ffs.serialize_length",
    "Verif.Ffs.section_layout",
    "Verif.Ffs.parsed_section_bytes",
    "Verif.Ffs.size_ffffff_broken",
    "Verif.Ffs.small_extended_broken"
   ],
   "note": "Missing: a section whose total size is exactly 0xFFFFFF, where the code does not round-trip (witness size_ffffff_broken)."
  },
  {
   "property": "C38",
   "status": "partial",
   "theorems": [
    "Verif.Ffs.file_roundtrip_partial",
    "Verif.Ffs.file_checksums",
    "Verif.Ffs.content_offset_correct",
    "Verif.Ffs.checksum_file_rejected",
    "Verif.Ffs.checksum_file_rejected_witness"
   ],
   "note": "Missing: files with the data-checksum attribute, which the parser rejects unless their content sums to zero by itself (checksum_file_rejected)."
  },
  {
   "property": "C39",
   "status": "proved",
   "theorems": [
    "Verif.Ffs.volume_roundtrip",
    "Verif.Ffs.volume_reload",
    "Verif.Ffs.volume_serialize_ok",
    "Verif.Ffs.align_16m_panics",
    "Verif.Ffs.capacity_exceeded"
   ],
   "note": "For every volume the format can express, every file list, alignment, extended header and capacity, whenever serialisation succeeds; volume_serialize_ok says when it does. The last two theorems are findings."
  },
  {
   "property": "C40",
   "status": "partial",
   "theorems": [
    "Verif.Ffs.parse_panics_iff",
    "Verif.Ffs.parse_within",
    "Verif.Ffs.parse_size",
    "Verif.Ffs.parse_panic_or",
    "Verif.Ffs.section_iter_terminates",
    "Verif.Ffs.file_within",
    "Verif.Ffs.fileRef_panics_iff",
    "Verif.Ffs.content_panics_iff",
    "Verif.Ffs.zero_size_accepted",
    "Verif.Ffs.volume_parse_no_panic",
    "Verif.Ffs.volume_accepted_bytes",
    "Verif.Ffs.ext_header_panics_iff",
    "Verif.Ffs.files_start_panics_iff",
    "Verif.Ffs.files_hang_iff",
    "Verif.Ffs.files_within",
    "Verif.Ffs.zero_size_file_hangs",
    "Verif.Ffs.lists_beyond_volume",
    "Verif.Ffs.volume_accessors_panic"
   ],
   "note": "Nothing outside the input is ever reported. 'Never faults' and 'terminates' are false of the code; the _iff theorems characterise exactly the inputs on which it panics or hangs, with witnesses."
  },
  {
   "property": "C41",
   "status": "partial",
   "theorems": [
    "Verif.Ffs.lba_info_partial",
    "Verif.Ffs.lba_offset_wrong",
    "Verif.Ffs.lba_offset_wrong_always"
   ],
   "note": "Missing: the offset of blocks behind the first region of the map, which the code gets wrong (lba_offset_wrong_always)."
  },
  {
   "property": "C42",
   "status": "proved",
   "theorems": [
    "Verif.Mm.set_then_get",
    "Verif.Mm.oversize_refused",
    "Verif.Mm.small_refused",
    "Verif.Mm.no_recipient",
    "Verif.Mm.tamper_detected",
    "Verif.Mm.get_in_bounds",
    "Verif.Mm.history_fits",
    "Verif.Mm.fromRaw_ok",
    "Verif.Mm.region_accepted_iff",
    "Verif.Mm.region_refused",
    "Verif.Mm.region_like_raw",
    "Verif.Mm.capacity_exact",
    "Verif.Mm.capacity_small",
    "Verif.Mm.communicate_spec",
    "Verif.Mm.communicate_isolated",
    "Verif.Mm.shorter_response_rejected"
   ],
   "note": "shorter_response_rejected: a handler answering with another length is reported as InvalidResponse."
  },
  {
   "property": "C43",
   "status": "partial",
   "theorems": [
    "Verif.Hob.discover_spec",
    "Verif.Hob.iterate_spec",
    "Verif.Hob.iterate_all",
    "Verif.Hob.cListSize_spec",
    "Verif.Hob.discovered_size",
    "Verif.Hob.wrong_size_panics",
    "Verif.Hob.short_guid_panics",
    "Verif.Hob.relocate_spec",
    "Verif.Hob.relocated_independent",
    "Verif.Hob.iterator_v2_address",
    "Verif.Hob.Witness.iterator_misreads",
    "Verif.Hob.Witness.unknown_loses",
    "Verif.Hob.short_guid_huge",
    "Verif.Hob.zero_length_never_ends"
   ],
   "note": "discover_hobs, sizes and relocation are proved for all lists. Missing: the iterator's view of a resource descriptor of version 2, where the claim is false of the code (iterator_v2_address, iterator_misreads), and sizes of HOBs of unknown type (unknown_loses). short_guid_huge and zero_length_never_ends are findings about malformed lists."
  },
  {
   "property": "C44",
   "status": "proved",
   "theorems": [
    "Verif.Connect.candidates_order",
    "Verif.Connect.precedence_nodup",
    "Verif.Connect.all_are_candidates",
    "Verif.Connect.connectSingle_spec",
    "Verif.Connect.rounds_last",
    "Verif.Connect.rounds_all_asked",
    "Verif.Connect.rounds_starts",
    "Verif.Connect.started_at_most_once",
    "Verif.Connect.single_returns",
    "Verif.Connect.authenticate_spec",
    "Verif.Connect.refused_asks_nobody",
    "Verif.Connect.children_connected",
    "Verif.Connect.not_recursive",
    "Verif.Connect.connect_tree",
    "Verif.Connect.connect_no_panic",
    "Verif.Connect.listed_twice_started_twice",
    "Verif.Connect.cyclic_children_never_return"
   ],
   "note": "The last two are findings: a driver listed twice by one source is started twice, and a cycle among the recorded children makes the recursive call run forever."
  },
  {
   "property": "C45",
   "status": "proved",
   "theorems": [
    "Verif.Connect.disconnect_invalid",
    "Verif.Connect.disconnect_spec",
    "Verif.Connect.turns_drivers",
    "Verif.Connect.children_first",
    "Verif.Connect.not_a_child_reported_done",
    "Verif.Connect.not_a_child_stops_driver",
    "Verif.Connect.missing_binding_ends_it"
   ],
   "note": "The last three are findings about child handles that are not children and drivers without a binding."
  },
  {
   "property": "C46",
   "status": "partial",
   "theorems": [
    "Verif.Events.restore_with_interrupts_partial",
    "Verif.Events.restore_ends_at",
    "Verif.Events.tpl_nests",
    "Verif.Events.called_at_notify_tpl",
    "Verif.Events.no_reentrant_lock",
    "Verif.Events.interrupt_leaves_pending",
    "Verif.Events.interrupt_close_panics",
    "Verif.Events.interrupt_calls_closed"
   ],
   "note": "Missing: no notification left pending above the target, no call of a closed event, no panic on a closed event. These are false of the code; the interrupt_ theorems are witnesses."
  },
  {
   "property": "C47",
   "status": "partial",
   "theorems": [
    "Verif.Collections.Tree.resize_new",
    "Verif.Collections.Tree.rbt_resize_partial",
    "Verif.Collections.Tree.bst_resize_partial",
    "Verif.Collections.Tree.resize_full_panics",
    "Verif.Collections.Tree.resize_corrupts"
   ],
   "note": "Proved for a new tree (what the GCD does) and for trees filled by successful insertions. False of the code after a deletion (resize_corrupts) and when the new buffer has exactly as many slots as are in use (resize_full_panics)."
  },
  {
   "property": "C48",
   "status": "proved",
   "theorems": [
    "Verif.Ffs.setData_ok",
    "Verif.Ffs.setData_encap",
    "Verif.Ffs.dirty_refused",
    "Verif.Ffs.dirty_propagates",
    "Verif.Ffs.compose_clean",
    "Verif.Ffs.compose_leaves",
    "Verif.Ffs.compose_roundtrip",
    "Verif.Ffs.setDataChecksum_spec",
    "Verif.Ffs.failed_compose_stale",
    "Verif.Ffs.unsupported_marks"
   ],
   "note": "For any composer and extractor that are inverse to each other. failed_compose_stale and unsupported_marks are findings about failing composers and extractors."
  },
  {
   "property": "C49",
   "status": "proved",
   "theorems": [
    "Verif.Component.lookup_spec",
    "Verif.Component.boxed_service_unusable"
   ],
   "note": "Every history of storage calls. boxed_service_unusable is a finding: the documented way of registering a boxed service by hand gives one that cannot be used."
  },
  {
   "property": "C50",
   "status": "partial",
   "theorems": [
    "Verif.Component.component_accepted_iff",
    "Verif.Component.boot_no_panic_partial",
    "Verif.Component.release_conflict_panics",
    "Verif.Component.storage_mut_aliases_accepted"
   ],
   "note": "Detection is proved for all parameter lists. Missing: absence of panics for components with nested tuples (nested_service_panics). Findings: release builds do not detect conflicts; &mut Storage with Commands or a HOB is accepted although they alias."
  },
  {
   "property": "C51",
   "status": "proved",
   "theorems": [
    "Verif.Dispatcher.volume_discovered",
    "Verif.Dispatcher.images_discovered",
    "Verif.Dispatcher.volume_known",
    "Verif.Dispatcher.pass_loses_nothing",
    "Verif.Dispatcher.dispatcher_loses_nothing",
    "Verif.Dispatcher.progress",
    "Verif.Dispatcher.bad_file_hides_rest",
    "Verif.Dispatcher.unreadable_drops_schedule"
   ],
   "note": "Conservation is for code that does not call the dispatcher recursively. bad_file_hides_rest and unreadable_drops_schedule are findings about malformed files."
  },
  {
   "property": "C52",
   "status": "partial",
   "theorems": [
    "Verif.Resources.init_ok",
    "Verif.Resources.resources_mapped_partial",
    "Verif.Resources.resources_rest",
    "Verif.Resources.resources_disjoint",
    "Verif.Resources.startup_partial",
    "Verif.Resources.resources_accepted",
    "Verif.Resources.resources_release",
    "Verif.Resources.tail_is_lost",
    "Verif.Resources.Witness.tail_does_not_exist",
    "Verif.Resources.Witness.no_attributes_panics",
    "Verif.Resources.Witness.unsupported_passed_over",
    "Verif.Resources.Witness.read_protected_needs_read_only"
   ],
   "note": "Proved for every HOB list, address and build. Partial because the code is wrong in two cases, both shown: a descriptor that begins inside the free memory adds nothing at all (tail_is_lost), and a release build passes over version 2 attributes the memory does not support. The page table is not in this model: this happens before it exists."
  },
  {
   "property": "C53",
   "status": "proved",
   "theorems": [
    "Verif.Alloc.pages_counted",
    "Verif.Alloc.claim_counts",
    "Verif.Alloc.release_counts",
    "Verif.Alloc.reserve_counts",
    "Verif.Alloc.expand_counts",
    "Verif.Alloc.allocatePages_counts",
    "Verif.Alloc.freePages_counts",
    "Verif.Alloc.mixed_free_miscounts"
   ],
   "note": "For every sequence of expansions, page allocations, frees and reservations. Finding: a free of a range that straddles the end of the reserved range is counted by its base only (mixed_free_miscounts); the theorem excludes such ranges."
  },
  {
   "property": "C54",
   "status": "proved",
   "theorems": [
    "Verif.Alloc.allocatePages_ok",
    "Verif.Alloc.allocatePages_err",
    "Verif.Alloc.freePages_foreign",
    "Verif.Alloc.freePages_ok",
    "Verif.Alloc.freePages_steps",
    "Verif.Alloc.freePages_succeeds",
    "Verif.Alloc.zero_page_lost",
    "Verif.Alloc.page_count_wraps",
    "Verif.Alloc.coreAllocatePages_ok",
    "Verif.Alloc.coreAllocatePages_invalid",
    "Verif.Alloc.coreAllocatePages_misaligned",
    "Verif.Alloc.coreFreePages_invalid",
    "Verif.Alloc.coreFreePages_foreign",
    "Verif.Alloc.coreFreePages_ok"
   ],
   "note": "Every possible state, request and build; both for one allocator and for the boot services over all allocators (the core\u2026 theorems)."
  },
  {
   "property": "C55",
   "status": "proved",
   "theorems": [
    "Verif.Alloc.reserve_ok",
    "Verif.Alloc.reserve_once",
    "Verif.Alloc.stays_reserved",
    "Verif.Alloc.reserved_exclusive",
    "Verif.Alloc.reserved_not_given",
    "Verif.Alloc.reserve_not_preferred",
    "Verif.Alloc.reserve_lost_by_address",
    "Verif.Gcd.kept_run",
    "Verif.Gcd.choice_avoids_kept",
    "Verif.Gcd.step_does"
   ],
   "note": "Every possible state. Findings: the reserved range is not preferred over other free memory (reserve_not_preferred), against the documentation of reserve_memory_pages; another type can take pages of it by address, and they are not reserved any more when given back (reserve_lost_by_address)."
  },
  {
   "property": "C56",
   "status": "proved",
   "theorems": [
    "Verif.MemMap.map_well_formed",
    "Verif.MemMap.map_sound",
    "Verif.MemMap.map_complete",
    "Verif.MemMap.map_exact",
    "Verif.MemMap.map_unique",
    "Verif.MemMap.map_allocated",
    "Verif.MemMap.map_conventional",
    "Verif.MemMap.map_runtime",
    "Verif.MemMap.whole_pages_uniform",
    "Verif.MemMap.unaligned_left_out",
    "Verif.MemMap.removed_still_reported",
    "Verif.MemMap.more_reliable_left_out"
   ],
   "note": "Every reachable memory space and every set of allocators with distinct handles. Findings: a range that does not begin at a page boundary is left out with all the whole pages in it (unaligned_left_out); memory removed after it was freed for its owner is still reported (removed_still_reported); free more-reliable memory is not reported (more_reliable_left_out)."
  },
  {
   "property": "C57",
   "status": "proved",
   "theorems": [
    "Verif.MemMap.get_success",
    "Verif.MemMap.get_too_small",
    "Verif.MemMap.get_succeeds",
    "Verif.MemMap.get_twice",
    "Verif.MemMap.get_readable",
    "Verif.MemMap.terminate_iff",
    "Verif.MemMap.key_accepted",
    "Verif.MemMap.stale_key_rejected",
    "Verif.MemMap.retyped_key_rejected",
    "Verif.MemMap.crc32_detects",
    "Verif.MemMap.crc32_collides",
    "Verif.MemMap.calculate_iff",
    "Verif.MemMap.padding_spoils_key"
   ],
   "note": "The allocations made while the map is built are a parameter (prep); the theorems on a second call assume they do not change the map. crc32fast is outside the repository: its function is modelled as CRC-32/ISO-HDLC. Finding: the key covers uninitialised padding (padding_spoils_key), so the key of an unchanged map is accepted only if the padding is the same."
  },
  {
   "property": "C58",
   "status": "proved",
   "theorems": [
    "Verif.MemMap.exit_spec",
    "Verif.MemMap.exit_succeeds_iff",
    "Verif.MemMap.exit_refused",
    "Verif.MemMap.exit_done",
    "Verif.MemMap.exit_closes",
    "Verif.MemMap.announced_once",
    "Verif.MemMap.retry_succeeds",
    "Verif.MemMap.first_call_succeeds"
   ],
   "note": "Callbacks are arbitrary functions on memory that do not themselves call ExitBootServices."
  },
  {
   "property": "C59",
   "status": "proved",
   "theorems": [
    "Verif.Alloc.claimed_memory_taken",
    "Verif.Alloc.unclaimed_memory_kept",
    "Verif.Alloc.given_out_kept",
    "Verif.Alloc.page_zero_taken",
    "Verif.Alloc.takeHob_took",
    "Verif.Alloc.processHobs_took",
    "Verif.Alloc.unaligned_runtime_left_free",
    "Verif.Alloc.short_runtime_takes_neighbour",
    "Verif.Alloc.short_runtime_not_taken",
    "Verif.Alloc.spanning_not_taken"
   ],
   "note": "Every HOB list and state. A range is owed to a HOB if it is free and all alike when the HOB's turn comes (no earlier HOB claims part of it) and, for types that persist, whole units of their granularity; the findings show what happens otherwise: such memory stays free although it is in use (unaligned_runtime_left_free, short_runtime_not_taken, spanning_not_taken). Memory that the core itself allocates while it creates an allocator for a new type is not modelled here."
  },
  {
   "property": "C60",
   "status": "proved",
   "theorems": [
    "Verif.Pecoff.loadImage_result",
    "Verif.Pecoff.loadImage_length",
    "Verif.Pecoff.loadImage_section",
    "Verif.Pecoff.loadImage_rest",
    "Verif.Pecoff.loadImage_forgets"
   ],
   "note": "Every parsed header. Parsing the header itself is the goblin crate's and not modelled."
  },
  {
   "property": "C61",
   "status": "proved",
   "theorems": [
    "Verif.Pecoff.parse_iff",
    "Verif.Pecoff.parse_total"
   ],
   "note": "Every byte string. The padding behind the last block may be missing."
  },
  {
   "property": "C62",
   "status": "proved",
   "theorems": [
    "Verif.Pecoff.relocate_moves",
    "Verif.Pecoff.relocate_pointer",
    "Verif.Pecoff.relocate_again",
    "Verif.Pecoff.relocate_accepts",
    "Verif.Pecoff.relocate_records",
    "Verif.Pecoff.flatten_relocated",
    "Verif.Pecoff.relocate_ignores_recorded",
    "Verif.Pecoff.changed_value_moved",
    "Verif.Pecoff.unknown_kind_panics",
    "Verif.Pecoff.highlow_recorded_as_zero"
   ],
   "note": "Images whose listed fields overlap neither each other nor the directory nor the base field (Layout). Findings: relocating with the record of an earlier relocation moves also fields the image has changed itself (changed_value_moved, relocate_ignores_recorded); unknown kinds of fixups panic instead of being refused (unknown_kind_panics); 32-bit fields are recorded as zero (highlow_recorded_as_zero)."
  },
  {
   "property": "C63",
   "status": "proved",
   "theorems": [
    "Verif.Paging.set_attributes_effect",
    "Verif.Paging.set_attributes_returns",
    "Verif.Paging.set_attributes_not_refused",
    "Verif.Paging.set_attributes_succeeds",
    "Verif.Paging.allocate_effect",
    "Verif.Paging.sync_step",
    "Verif.Paging.page_table_agrees",
    "Verif.Paging.executable_step",
    "Verif.Paging.executable_only_on_request",
    "Verif.Paging.mapped_step",
    "Verif.Paging.free_not_denied",
    "Verif.Paging.free_unmaps",
    "Verif.Paging.locked_free_unmaps",
    "Verif.Paging.kept_memory_stays_mapped",
    "Verif.Paging.kept_memory_breaks_allocation",
    "Verif.Paging.refused_reported_set",
    "Verif.Paging.no_cache_attributes_desync",
    "Verif.Paging.unaligned_not_mapped",
    "Verif.Paging.free_hides_failure",
    "Verif.Paging.allocate_hides_failure",
    "Verif.Paging.beyond_end_never_returns"
   ],
   "note": "Every history of proper calls (Call.Proper). The page table itself (patina_paging) is not in the repository and is modelled as a map from pages to attributes that changes a whole range or fails. Findings, each with a state where it happens: after the lock a free of any range succeeds and unmaps it (locked_free_unmaps); memory freed but kept for its owner stays mapped and makes a later allocation by the owner come out unmapped (kept_memory_*); attributes the memory does not support are reported as set (refused_reported_set); attributes without access or cache bits are set on one side only (no_cache_attributes_desync); unaligned_not_mapped; failures of the page table are hidden (free_hides_failure, allocate_hides_failure); a range that reaches beyond the end of the memory space is never done (beyond_end_never_returns)."
  },
  {
   "property": "C64",
   "status": "proved",
   "theorems": [
    "Verif.ImageMem.protect_image",
    "Verif.ImageMem.protected_pages",
    "Verif.ImageMem.unprotect_image",
    "Verif.ImageMem.unload_uniform",
    "Verif.ImageMem.unload_frees",
    "Verif.ImageMem.loaded_then_unloaded",
    "Verif.ImageMem.protect_changes_only",
    "Verif.ImageMem.unprotect_never_executable",
    "Verif.ImageMem.guard_page",
    "Verif.ImageMem.stack_released",
    "Verif.ImageMem.stack_size",
    "Verif.ImageMem.image_placed",
    "Verif.ImageMem.access_of",
    "Verif.ImageMem.section_reaches_out",
    "Verif.ImageMem.protected_not_freed",
    "Verif.ImageMem.odd_alignment_refused_late",
    "Verif.ImageMem.writable_code_is_read_only",
    "Verif.ImageMem.failure_leaves_unprotected"
   ],
   "note": "Section headers are taken as parsed (goblin is not modelled); the page table is modelled as for C63. The exact theorems are about sections inside the memory of the image and a page table that does not fail; protect_changes_only and unprotect_never_executable about any failure. Findings: a section whose virtual size exceeds the image makes memory of others read-only and executable (section_reaches_out); an alignment that is not a power of two is refused only after pages were allocated, which leak (odd_alignment_refused_late); an image is run although protecting it failed (failure_leaves_unprotected)."
  },
  {
   "property": "C65",
   "status": "proved",
   "theorems": [
    "Verif.Paging.set_memory_attributes_effect",
    "Verif.Paging.clear_memory_attributes_effect",
    "Verif.Paging.andNot_bits",
    "Verif.Paging.bad_request_refused",
    "Verif.Paging.memory_attributes_returns",
    "Verif.Paging.memory_attributes_not_refused",
    "Verif.Paging.set_memory_attributes_succeeds",
    "Verif.Paging.clear_memory_attributes_succeeds",
    "Verif.Paging.get_memory_attributes_correct",
    "Verif.Paging.get_memory_attributes_succeeds",
    "Verif.Paging.set_not_reported",
    "Verif.Paging.part_not_reported",
    "Verif.Paging.set_read_protect_panics",
    "Verif.Paging.beyond_end_hangs"
   ],
   "note": "Null pointers are left out; the page table is modelled as for C63. The effect theorems are about calls of which the memory space refused no part (memory_attributes_not_refused says when). Findings: attributes just set, and those of any part of a descriptor, are reported as NO_MAPPING (set_not_reported, part_not_reported); read-protecting read-protected memory panics in debug builds (set_read_protect_panics); a range that begins at the end of the memory space hangs the caller (beyond_end_hangs)."
  },
  {
   "property": "C66",
   "status": "proved",
   "theorems": [
    "Verif.Paging.set_page_attributes_effect",
    "Verif.Paging.set_page_attributes_refused",
    "Verif.Paging.set_page_attributes_returns",
    "Verif.Paging.set_page_attributes_succeeds",
    "Verif.Paging.get_page_attributes_correct",
    "Verif.Paging.get_page_uniform",
    "Verif.Paging.set_then_get",
    "Verif.Paging.no_access_twice_panics",
    "Verif.Paging.missing_reported_accessible",
    "Verif.Paging.equal_reported_inconsistent",
    "Verif.Paging.wrapped_reported",
    "Verif.Paging.unsupported_access_reported",
    "Verif.Paging.beyond_end_manager_hangs"
   ],
   "note": "As for C65. Findings: memory that does not exist is reported readable, writable and executable (missing_reported_accessible); equal neighbouring descriptors are reported inconsistent (equal_reported_inconsistent); ranges that wrap around are reported as if they did not (wrapped_reported, release builds); access the memory does not support is reported as given (unsupported_access_reported); no_access_twice_panics; beyond_end_manager_hangs."
  },
  {
   "property": "C67",
   "status": "proved",
   "theorems": [
    "Verif.Tables.config_tables",
    "Verif.Tables.run_spec",
    "Verif.Tables.initial_ok",
    "Verif.Tables.install_cases",
    "Verif.Tables.install_table",
    "Verif.Tables.remove_table",
    "Verif.Tables.remove_missing",
    "Verif.Tables.install_refused",
    "Verif.Tables.checksum_ok",
    "Verif.Tables.system_checksum",
    "Verif.Tables.services_checksum",
    "Verif.Tables.recomputed",
    "Verif.Tables.console_spoils_checksum",
    "Verif.Tables.no_memory_panics"
   ],
   "note": "Findings: a console field written directly leaves a wrong checksum until the next change (console_spoils_checksum); without memory for the new list the core panics instead of OUT_OF_RESOURCES (no_memory_panics)."
  },
  {
   "property": "C68",
   "status": "proved",
   "theorems": [
    "Verif.Tables.Debug.debugger_sees",
    "Verif.Tables.Debug.debugger_interrupts",
    "Verif.Tables.Debug.add_image",
    "Verif.Tables.Debug.remove_image",
    "Verif.Tables.Debug.update_announced",
    "Verif.Tables.Debug.settled_seen",
    "Verif.Tables.Debug.initial_settled",
    "Verif.Tables.Debug.dangling_while_busy"
   ],
   "note": "Writes are taken to reach memory in program order (only the status is written with write_volatile). Without the flag the header would lead nowhere in the middle of an update (dangling_while_busy)."
  },
  {
   "property": "C69",
   "status": "proved",
   "theorems": [
    "Verif.Tables.Mat.mat_published",
    "Verif.Tables.Mat.mat_history",
    "Verif.Tables.Mat.install_steady",
    "Verif.Tables.Mat.build_describes",
    "Verif.Tables.Mat.never_writable_and_executable",
    "Verif.Tables.Mat.listed_protections",
    "Verif.Tables.Mat.no_leak",
    "Verif.Tables.Mat.steady_published",
    "Verif.Tables.Mat.attribute_change_not_listed"
   ],
   "note": "Allocations are answered by the environment; nobody else installs a table under this GUID. Finding: attributes changed after the last allocation of runtime pages are not listed (attribute_change_not_listed)."
  },
  {
   "property": "C70",
   "status": "proved",
   "theorems": [
    "Verif.Misc.stall_time",
    "Verif.Misc.stall_enough_iff",
    "Verif.Misc.waits_sum",
    "Verif.Misc.waits_fit",
    "Verif.Misc.waits_length",
    "Verif.Misc.stall_not_ready",
    "Verif.Misc.watchdog_period",
    "Verif.Misc.watchdog_not_ready",
    "Verif.Misc.stall_too_short",
    "Verif.Misc.stall_zero_period_panics"
   ],
   "note": "Statuses returned by single waits are only logged. Findings: the comment and the UEFI specification promise at least the requested time, but the time is rounded down, to nothing for requests below a tick (stall_enough_iff, stall_too_short); a tick period of zero panics (stall_zero_period_panics)."
  },
  {
   "property": "C71",
   "status": "proved",
   "theorems": [
    "Verif.Runtime.runtime_lists",
    "Verif.Runtime.run_good",
    "Verif.Runtime.step_good",
    "Verif.Runtime.update_good",
    "Verif.Runtime.good_finds",
    "Verif.Runtime.relink_linked",
    "Verif.Runtime.walk_seg",
    "Verif.Runtime.finalize_tells",
    "Verif.Runtime.event_refused",
    "Verif.Runtime.event_accepted",
    "Verif.Events.runtime_event_never_notified"
   ],
   "note": "Entries and protocols are in memory that is not in use otherwise (Allowed). Finding: runtime events are kept only here, so a runtime event in the ExitBootServices group is never notified (Events.runtime_event_never_notified)."
  },
  {
   "property": "C72",
   "status": "proved",
   "theorems": [
    "Verif.Images.entered_once",
    "Verif.Images.calls_nest",
    "Verif.Images.run_good",
    "Verif.Images.step_good",
    "Verif.Images.start_enters",
    "Verif.Images.exit_refused",
    "Verif.Images.exit_unstarted",
    "Verif.Images.unload_unstarted",
    "Verif.Images.unload_refused",
    "Verif.Images.unload_asks",
    "Verif.Images.ends_stays",
    "Verif.Images.ends_unloaded",
    "Verif.Images.ends_asks",
    "Verif.Images.gone_only",
    "Verif.Images.second_start_unloads",
    "Verif.Images.running_unloaded",
    "Verif.Images.stale_way_out",
    "Verif.Images.unload_within_unload"
   ],
   "note": "Findings: StartImage for an image that is started already is refused but unloads it, even the core's own or one that is running (second_start_unloads, running_unloaded); an image that had itself unloaded leaves a stale coroutine behind, and the next Exit jumps into it (stale_way_out); an unload function that unloads its own image panics (unload_within_unload); images that fail when the dispatcher starts them stay loaded."
  },
  {
   "property": "C73",
   "status": "proved",
   "theorems": [
    "Verif.Perf.table_holds",
    "Verif.Perf.run_inv",
    "Verif.Perf.step_inv",
    "Verif.Perf.set_inv",
    "Verif.Perf.add_inv",
    "Verif.Perf.report_inv",
    "Verif.Perf.new_inv",
    "Verif.Perf.iter_records",
    "Verif.Perf.pushOwned_fits",
    "Verif.Perf.pushPublished_fits",
    "Verif.Perf.pushPublished_full",
    "Verif.Perf.merge_all",
    "Verif.Perf.parseHob_reads",
    "Verif.Perf.fetch_all",
    "Verif.Perf.addAll_adds",
    "Verif.Perf.too_long_spoils",
    "Verif.Perf.too_long_published",
    "Verif.Perf.second_report",
    "Verif.Perf.hob_size_panics",
    "Verif.Perf.fetch_never_ends",
    "Verif.Perf.fetch_too_much"
   ],
   "note": "Records are at most 255 bytes (Fits), the table is published once and below 4 GiB (Proper). Findings: a longer record is refused before publication but leaves 255 bytes behind that the iterator panics over (a panic in debug builds), and is accepted with a wrong length afterwards; publishing twice moves the table's address away from its records; a HOB whose size field is too large, and an answer of the management mode that claims more than 1024 bytes, are panics; an empty answer loops forever. Floating-point timestamps are not modelled."
  },
  {
   "property": "C74",
   "status": "proved",
   "theorems": [
    "Verif.Perf.measure_adds",
    "Verif.Perf.id_refused",
    "Verif.Perf.id_known",
    "Verif.Perf.id_entry",
    "Verif.Perf.id_rule",
    "Verif.Perf.id_of_name",
    "Verif.Perf.id_other",
    "Verif.Perf.record_kinds",
    "Verif.Perf.known_iff",
    "Verif.Perf.record_says",
    "Verif.Perf.record_fits",
    "Verif.Perf.loads_count",
    "Verif.Perf.start_id_taken",
    "Verif.Perf.start_id_kept",
    "Verif.Perf.refused_still_counts",
    "Verif.Perf.long_name_spoils"
   ],
   "note": "Strings of at most 204 bytes, table below 4 GiB. Findings: the adjusted id of a start can be one of the core's, and then the start is refused while its end is recorded (start_id_taken); the rule is not applied when the string is a token (start_id_kept); a refused measurement of loading an image is counted (refused_still_counts); longer strings spoil the records or panic (long_name_spoils)."
  },
  {
   "property": "C75",
   "status": "proved",
   "theorems": [
    "Verif.Guid.parse_iff",
    "Verif.Guid.parse_errors",
    "Verif.Guid.parse_total",
    "Verif.Guid.display_shape",
    "Verif.Guid.parse_display",
    "Verif.Guid.display_inj",
    "Verif.Guid.fromBytes_bytes",
    "Verif.Guid.bytes_fromBytes",
    "Verif.Guid.eq_iff",
    "Verif.Guid.cmp_order"
   ],
   "note": "Fields have their widths (Valid). The r_efi GUID is modelled by its fields and their layout in 16 bytes. Dashes may stand anywhere, also within a field."
  },
  {
   "property": "C76",
   "status": "proved",
   "theorems": [
    "Verif.Services.uninstall_refused",
    "Verif.Services.uninstall_closes",
    "Verif.Services.uninstall_denied",
    "Verif.Services.driver_found",
    "Verif.Services.uninstall_stops_driver",
    "Verif.Services.uninstall_gone",
    "Verif.Services.uninstall_made",
    "Verif.Services.uninstall_exact",
    "Verif.Services.uninstall_returns",
    "Verif.Services.reinstall_exact",
    "Verif.Services.reinstall_invalid",
    "Verif.Services.Witness.keeps_open_never_ends",
    "Verif.Services.Witness.gone_agent_blocks"
   ],
   "note": "Drivers and event functions are arbitrary as long as they reach the database only by its operations (Honest); for what happens to other interfaces they install and uninstall nothing (Keeps). Findings: a driver that reports it stopped but keeps the interface open makes the call loop forever (keeps_open_never_ends); a user whose own handle is gone makes the interface impossible to uninstall, while each attempt closes other users (gone_agent_blocks)."
  },
  {
   "property": "C77",
   "status": "proved",
   "theorems": [
    "Verif.Services.open_plain",
    "Verif.Services.open_exclusive",
    "Verif.Services.handle_protocol_exact",
    "Verif.Services.close_protocol_exact"
   ],
   "note": "Built on the database's own open and close (C14, C15)."
  },
  {
   "property": "C78",
   "status": "proved",
   "theorems": [
    "Verif.Services.locate_exact",
    "Verif.Services.locate_prefix",
    "Verif.Services.locate_prefix_by_guid",
    "Verif.Services.locate_device_path_answers",
    "Verif.Services.path_taken_iff",
    "Verif.Services.path_taken_looks",
    "Verif.Services.paths_in_memory",
    "Verif.Services.Witness.looking_leaves_users"
   ],
   "note": "Device paths are well formed and have one instance (paths_in_memory connects this to C31). Finding: the search records the core as a user of every device path it looks at (looking_leaves_users)."
  },
  {
   "property": "C79",
   "status": "proved",
   "theorems": [
    "Verif.Services.install_multiple_all_or_nothing",
    "Verif.Services.uninstall_multiple_all_or_nothing",
    "Verif.Services.uninstall_multiple_succeeds",
    "Verif.Services.Witness.undone_still_announced",
    "Verif.Services.Witness.not_restored"
   ],
   "note": "Findings: events are signalled for interfaces whose installation is undone, and the registration reports a handle that is gone, which the caller's variable holds too (undone_still_announced); an uninstallation that fails after the last interface of the handle went can not restore it (not_restored)."
  },
  {
   "property": "C80",
   "status": "proved",
   "theorems": [
    "Verif.Services.locate_handle_exact",
    "Verif.Services.locate_handle_retry",
    "Verif.Services.locate_handle_invalid",
    "Verif.Services.locate_handle_notify",
    "Verif.Services.locate_handle_buffer_exact",
    "Verif.Services.locate_protocol_answers",
    "Verif.Services.locate_protocol_notify",
    "Verif.Services.protocols_per_handle_exact",
    "Verif.Services.open_information_exact",
    "Verif.Services.Witness.asked_twice_lost",
    "Verif.Services.Witness.locate_gone_panics",
    "Verif.Services.Witness.locate_other_panics"
   ],
   "note": "Findings: asking by registration with too small a buffer takes the handle, so the second call does not find it (asked_twice_lost); LocateProtocol with a registration panics if the interface is gone or another protocol is asked for (locate_gone_panics, locate_other_panics)."
  },
  {
   "property": "C81",
   "status": "partial",
   "theorems": [
    "Verif.Fv.block_describes",
    "Verif.Fv.block_refused",
    "Verif.Fv.block_beyond",
    "Verif.Fv.block_read_partial",
    "Verif.Fv.block_read_bounded",
    "Verif.Fv.block_size_swapped",
    "Verif.Fv.first_block_size_zero",
    "Verif.Fv.read_behind_block",
    "Verif.Fv.read_wrong_place"
   ],
   "note": "The code violates the rest: GetBlockSize reports the offset of the block as its size and the size as the number of blocks (block_size_swapped), so the first block has size 0 (first_block_size_zero); behind the first region of the block map reads deliver bytes from the wrong place (read_wrong_place); a read that starts behind the block asks for a buffer of almost 2^64 bytes (read_behind_block); a debug build panics when a read crosses the end of a block (block_read_partial)."
  },
  {
   "property": "C82",
   "status": "proved",
   "theorems": [
    "Verif.Fv.ends_of_drain",
    "Verif.Fv.nth_begins",
    "Verif.Fv.nth_ends",
    "Verif.Fv.find_named",
    "Verif.Fv.find_error",
    "Verif.Fv.find_none",
    "Verif.Fv.read_file_found",
    "Verif.Fv.read_file_retry",
    "Verif.Fv.read_file_missing",
    "Verif.Fv.next_file_exact",
    "Verif.Fv.enumerate_exact",
    "Verif.Fv.enumerate_damaged",
    "Verif.Fv.listed_named",
    "Verif.Fv.read_refused",
    "Verif.Fv.built_volume_read",
    "Verif.Fv.file_attributes",
    "Verif.Fv.sizes_differ"
   ],
   "note": "Volumes do not change while they are read. Finding: the sizes GetNextFile and ReadFile report differ by the header of the file, and only GetNextFile says that the volume is memory mapped (sizes_differ)."
  },
  {
   "property": "C83",
   "status": "partial",
   "theorems": [
    "Verif.Fv.read_section_partial",
    "Verif.Fv.read_section_sound",
    "Verif.Fv.deliver_section",
    "Verif.Fv.top_sections_listed",
    "Verif.Fv.read_section_damaged",
    "Verif.Fv.read_section_garbage",
    "Verif.Fv.withExtractor_eq",
    "Verif.Fv.larger_buffer_panics",
    "Verif.Fv.Witness.nested_missed"
   ],
   "note": "For sections that are nested at most once and buffers that are not larger than the section. The code violates the rest: a caller's buffer that is larger than the section panics (larger_buffer_panics); sections nested twice are not found (nested_missed)."
  },
  {
   "property": "C84",
   "status": "proved",
   "theorems": [
    "Verif.Fv.install_serves",
    "Verif.Fv.install_exact",
    "Verif.Fv.install_refused",
    "Verif.Fv.install_keeps",
    "Verif.Fv.volumePath_ok",
    "Verif.Fv.volumePath_of_open",
    "Verif.Fv.serves_answers",
    "Verif.Fv.file_path",
    "Verif.Fv.file_paths_differ",
    "Verif.Fv.hobs_installed",
    "Verif.Fv.damaged_hob_stops",
    "Verif.Fv.mmap_end_behind"
   ],
   "note": "Addresses the allocator returns are fresh (Fresh); event functions take nothing away (Grows) and for install_exact install nothing (Keeps). Findings: one damaged volume in the HOB list keeps those after it from being installed (damaged_hob_stops); the memory mapped device path names the first address behind the volume as its end (mmap_end_behind)."
  },
  {
   "property": "C85",
   "status": "partial",
   "theorems": [
    "Verif.Variable.get_variable_value",
    "Verif.Variable.get_variable_exact_partial",
    "Verif.Variable.get_variable_absent",
    "Verif.Variable.size_and_attributes",
    "Verif.Variable.set_then_get",
    "Verif.Variable.unterminated_refused",
    "Verif.Variable.set_reports",
    "Verif.Variable.query_reports",
    "Verif.Variable.get_variable_large_hint",
    "Verif.Variable.get_variable_raced",
    "Verif.Variable.Witness.reference_has",
    "Verif.Variable.Witness.reference_sets",
    "Verif.Variable.get_variable_error"
   ],
   "note": "For size hints that are not larger than the value and a store that does not change between the two calls. The code violates the rest: with a larger hint the value is returned with zeros behind it (get_variable_large_hint); a variable that shrinks in between is returned with fill bytes behind it (get_variable_raced). The runtime services are a parameter; Witness has a reference firmware."
  },
  {
   "property": "C86",
   "status": "partial",
   "theorems": [
    "Verif.Variable.iterator_lists",
    "Verif.Variable.iterator_from_first_partial",
    "Verif.Variable.iterator_from_variable_partial",
    "Verif.Variable.next_call",
    "Verif.Variable.next_in_bounds",
    "Verif.Variable.next_passed_on",
    "Verif.Variable.next_exact_refused",
    "Verif.Variable.iterator_refused"
   ],
   "note": "For firmware that counts the size of a name in characters, as the project's mock does, or names with enough room behind them (Usable). The code violates the rest: it passes sizes in characters where UEFI has bytes, so firmware that follows the specification refuses every name that ends with the buffer, and the iteration from the first variable always fails (next_exact_refused, iterator_refused)."
  },
  {
   "property": "C87",
   "status": "partial",
   "theorems": [
    "Verif.Stack.X64.find_function",
    "Verif.Stack.X64.find_function_none",
    "Verif.Stack.X64.cut_table_panics",
    "Verif.Stack.X64.offset_codes",
    "Verif.Stack.X64.parse_record",
    "Verif.Stack.X64.caller_computed",
    "Verif.Stack.X64.frame_partial",
    "Verif.Stack.X64.first_byte_misattributed",
    "Verif.Stack.X64.prologue_off",
    "Verif.Stack.X64.alloca_off",
    "Verif.Stack.X64.xmm_counted",
    "Verif.Stack.X64.xmm_wrong",
    "Verif.Stack.X64.machine_frame_ignored",
    "Verif.Stack.X64.unknown_panics",
    "Verif.Stack.X64.outside_panics",
    "Verif.Stack.X64.last_refused",
    "Verif.Stack.X64.chained_ignored",
    "Verif.Stack.Witness.x64_active1",
    "Verif.Stack.Witness.x64_active2"
   ],
   "note": "For prologues without XMM registers and machine frames, in functions that keep the stack pointer and whose record is not chained and not the last bytes of the image. The code violates the rest: the prologue in progress and dynamic allocation are not considered (prologue_off, alloca_off); the operands of the XMM codes are read as codes (xmm_counted, xmm_wrong); machine frames count nothing (machine_frame_ignored); chained records are not followed (chained_ignored); an unknown code or a record outside the image panics (unknown_panics, outside_panics); a record at the very end of the image is refused (last_refused); the first byte of a function behind another one belongs to that one (first_byte_misattributed)."
  },
  {
   "property": "C88",
   "status": "partial",
   "theorems": [
    "Verif.Stack.A64.find_function",
    "Verif.Stack.A64.loop_codes",
    "Verif.Stack.A64.parse_record",
    "Verif.Stack.A64.parse_packed",
    "Verif.Stack.A64.packed_computed",
    "Verif.Stack.A64.record_computed",
    "Verif.Stack.A64.frame_partial",
    "Verif.Stack.A64.loop_ends",
    "Verif.Stack.A64.unknown_hangs",
    "Verif.Stack.A64.fplr_x_misread",
    "Verif.Stack.A64.lr_missed",
    "Verif.Stack.A64.fregp_x_missed",
    "Verif.Stack.A64.freg_x_odd",
    "Verif.Stack.A64.packed_lr_misread",
    "Verif.Stack.A64.cut_off_panics",
    "Verif.Stack.Witness.a64_active1",
    "Verif.Stack.Witness.a64_active2"
   ],
   "note": "For prologues that store the link register with the frame pointer without changing the stack pointer, and packed data with a frame chain. The code violates the rest: save_fplr_x has the return address read too high (fplr_x_misread); other ways to store the link register are ignored (lr_missed, packed_lr_misread); save_fregp_x is not counted, save_freg_x counts 256 too much for odd registers (fregp_x_missed, freg_x_odd); reserved codes make the walk loop forever (unknown_hangs; loop_ends: only those); a code that is cut off panics (cut_off_panics)."
  },
  {
   "property": "C89",
   "status": "partial",
   "theorems": [
    "Verif.Stack.locate_around",
    "Verif.Stack.locate_sound",
    "Verif.Stack.imageAt_named",
    "Verif.Stack.locate_beyond",
    "Verif.Stack.locate_stopped",
    "Verif.Stack.tableSlice_ok",
    "Verif.Stack.table_missing",
    "Verif.Stack.X64.trace_partial",
    "Verif.Stack.X64.trace_truncated",
    "Verif.Stack.A64.trace_partial",
    "Verif.Stack.A64.trace_truncated",
    "Verif.Stack.dump_lines",
    "Verif.Stack.Witness.x64_calls",
    "Verif.Stack.Witness.a64_calls",
    "Verif.Stack.Witness.deep_calls"
   ],
   "note": "For calls in progress that C87 and C88 cover. The code violates the rest: an address behind an image is taken to be in it (locate_beyond); a page that starts like an image but has no header in the page ends the search (locate_stopped). Reads of unmapped memory are not modelled."
  },
  {
   "property": "C90",
   "status": "partial",
   "theorems": [
    "Verif.Pages.step_owner",
    "Verif.Pages.run_owner",
    "Verif.Pages.run_apart",
    "Verif.Pages.run_keeps",
    "Verif.Pages.run_no_leak",
    "Verif.Pages.lost_iff",
    "Verif.Pages.held_apart",
    "Verif.Pages.free_owned",
    "Verif.Pages.allocate_gives",
    "Verif.Pages.into_box",
    "Verif.Pages.into_boxed_slice",
    "Verif.Pages.into_raw_ptr",
    "Verif.Pages.pointer_aligned",
    "Verif.Pages.drop_frees",
    "Verif.Pages.free_refused",
    "Verif.Pages.step_panic",
    "Verif.Pages.bump_contract",
    "Verif.Pages.empty_box_leaks",
    "Verif.Pages.empty_box_lost",
    "Verif.Pages.large_alignment_ignored"
   ],
   "note": "For every manager that keeps the contract (bump_contract: there is one) and all histories. The code violates the rest: a box without bytes (a zero-sized type, or a slice of elements larger than the pages) is never freed (empty_box_leaks, empty_box_lost); a slice of zero-sized elements panics (into_boxed_slice); alignments above the page size are not checked (large_alignment_ignored). A debug build panics after freeing an allocation that was dropped unused, as documented. Destructors of values are not modelled."
  },
  {
   "property": "C91",
   "status": "proved",
   "theorems": [
    "Verif.Pages.manager_allocates",
    "Verif.Pages.manager_keeps",
    "Verif.Pages.manager_refuses",
    "Verif.Pages.manager_frees",
    "Verif.Pages.manager_free_refuses",
    "Verif.Pages.alignment_not_ignored"
   ],
   "note": "On top of the page services of C54. The documentation of with_alignment says that the alignment is ignored for an allocation at an address; the code refuses the request (alignment_not_ignored)."
  },
  {
   "property": "C92",
   "status": "partial",
   "theorems": [
    "Verif.Interrupt.register_ok",
    "Verif.Interrupt.register_effect",
    "Verif.Interrupt.register_refused",
    "Verif.Interrupt.unregister_ok",
    "Verif.Interrupt.unregister_effect",
    "Verif.Interrupt.unregister_refused",
    "Verif.Interrupt.raise_calls",
    "Verif.Interrupt.service_spec",
    "Verif.Interrupt.registered_called",
    "Verif.Interrupt.routed_iff",
    "Verif.Interrupt.deliver_calls_partial",
    "Verif.Interrupt.unrouted_not_called",
    "Verif.Interrupt.machine_check_lost",
    "Verif.Interrupt.page_fault_taken",
    "Verif.Interrupt.serror_has_no_handler",
    "Verif.Interrupt.self_removal_hangs"
   ],
   "note": "Registration and dispatch proved for all histories. The code itself violates the full property: on x64 the vectors 15, 18, 21 to 27 and 31 have no entry, so their handlers are accepted and never called; on AArch64 the system error has no entry in the table; a handler that removes itself hangs."
  },
  {
   "property": "C93",
   "status": "partial",
   "theorems": [
    "Verif.Interrupt.intid_private",
    "Verif.Interrupt.register_source_partial",
    "Verif.Interrupt.unregister_source_partial",
    "Verif.Interrupt.register_source_refused",
    "Verif.Interrupt.enable_source_partial",
    "Verif.Interrupt.source_state_partial",
    "Verif.Interrupt.set_trigger_partial",
    "Verif.Interrupt.end_source_partial",
    "Verif.Interrupt.interrupt_calls",
    "Verif.Interrupt.interrupt_unhandled",
    "Verif.Interrupt.signalled_called",
    "Verif.Interrupt.shared_enables_other",
    "Verif.Interrupt.shared_state",
    "Verif.Interrupt.shared_not_ended",
    "Verif.Interrupt.failed_register_registers",
    "Verif.Interrupt.last_refused",
    "Verif.Interrupt.last_not_ended",
    "Verif.Interrupt.trigger_read",
    "Verif.Interrupt.register_in_handler",
    "Verif.Interrupt.device_interrupt_lost",
    "Verif.Interrupt.trigger_misread"
   ],
   "note": "Dispatch proved for all interrupts and histories; the other functions for the private interrupts. The code violates the property for the interrupts of devices (the number is 32 too large when enabling, disabling, ending and setting the trigger type) and for reading the trigger type."
  },
  {
   "property": "C94",
   "status": "partial",
   "theorems": [
    "Verif.Entry.X64.handler_sees_partial",
    "Verif.Entry.X64.program_resumes_partial",
    "Verif.Entry.X64.unnoticed_partial",
    "Verif.Entry.X64.noCode_iff",
    "Verif.Entry.X64.shifted_frame",
    "Verif.Entry.X64.shifted_vectors",
    "Verif.Entry.X64.cr4_changed"
   ],
   "note": "For every state, for the exceptions of the processor (vectors below 32) and every other vector but those 64, 128 or 192 above a vector with an error code. For these the code shows a shifted frame and returns to a wrong address (shifted_frame, shifted_vectors). Two bits of control register 4 are set on entry, shown as set and stay set (cr4_changed)."
  },
  {
   "property": "C95",
   "status": "partial",
   "theorems": [
    "Verif.Entry.A64.handler_sees_partial",
    "Verif.Entry.A64.program_resumes",
    "Verif.Entry.A64.unnoticed",
    "Verif.Entry.A64.interrupted_called",
    "Verif.Entry.A64.sp0_misreported"
   ],
   "note": "For every state and kind of exception at exception level 2. The code violates the rest: the stack pointer in the context is that of SP_EL2 when the program used SP_EL0 (sp0_misreported). A handler cannot change the stack pointer, as the code documents."
  },
  {
   "property": "C96",
   "status": "partial",
   "theorems": [
    "Verif.Debugger.read_right_partial",
    "Verif.Debugger.write_right_partial",
    "Verif.Debugger.write_refused",
    "Verif.Debugger.checkPagingRange_spec",
    "Verif.Debugger.poke_iff",
    "Verif.Debugger.last_bytes_refused",
    "Verif.Debugger.read_hole_crashes",
    "Verif.Debugger.second_page_lost",
    "Verif.Debugger.large_page_crashes",
    "Verif.Debugger.top_write_lost",
    "Verif.Debugger.empty_read_panics"
   ],
   "note": "Reads where the eight bytes from the address on can be read and mapped pages have memory; writes inside one page. The code violates the rest: the last seven bytes before an unreadable page are refused (last_bytes_refused); a mapped page without memory crashes the debugger (read_hole_crashes); the part of a write that belongs to a second page is written over its start (second_page_lost)."
  },
  {
   "property": "C97",
   "status": "partial",
   "theorems": [
    "Verif.Debugger.memory_with_breakpoints_partial",
    "Verif.Debugger.removed_breakpoints_leave_nothing_partial",
    "Verif.Debugger.removed_breakpoint_restores_partial",
    "Verif.Debugger.add_breakpoint_right_partial",
    "Verif.Debugger.slots_length",
    "Verif.Debugger.set_twice_stays"
   ],
   "note": "For histories in which no breakpoint is set where one is already. The code violates the rest: of two at one address the second saves the instruction of the first, which then stays in the program (set_twice_stays)."
  },
  {
   "property": "C98",
   "status": "partial",
   "theorems": [
    "Verif.Debugger.x64_shown_partial",
    "Verif.Debugger.x64_written",
    "Verif.Debugger.x64_short_refused",
    "Verif.Debugger.a64_shown",
    "Verif.Debugger.a64_written",
    "Verif.Debugger.a64_short_refused",
    "Verif.Debugger.a64_edit_right",
    "Verif.Debugger.x64_segments_misread",
    "Verif.Debugger.x64_edit_ruins"
   ],
   "note": "AArch64 in full (fpsr is shown under the name fpcr), x64 for the general registers, rip and eflags. The code violates the rest: the segment registers are described with 64 bits and sent with 32 (x64_segments_misread), so changing one register puts wrong values in the control registers (x64_edit_ruins)."
  },
  {
   "property": "C99",
   "status": "partial",
   "theorems": [
    "Verif.Debugger.x64_watched_partial",
    "Verif.Debugger.x64_results",
    "Verif.Debugger.a64_watched_partial",
    "Verif.Debugger.a64_results",
    "Verif.Debugger.x64_four_watches_eight",
    "Verif.Debugger.x64_eight_watches_four",
    "Verif.Debugger.x64_second_lost",
    "Verif.Debugger.a64_unaligned_misplaced",
    "Verif.Debugger.a64_eight_at_four"
   ],
   "note": "x64: one or two aligned bytes; AArch64: ranges inside the bytes the hardware can watch. The code violates the rest: on x64 the codes of four and eight bytes are swapped and a second watchpoint at an address is lost; on AArch64 addresses that are no multiple of four, and eight bytes at an odd multiple of four, are watched in part."
  }
 ]
}