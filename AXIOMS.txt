'Verif.Base.alignDown_spec' depends on axioms: [propext, Classical.choice, Quot.sound]
'Verif.Base.alignUp_spec' depends on axioms: [propext, Classical.choice, Quot.sound]
'Verif.Base.alignRange_spec' depends on axioms: [propext, Classical.choice, Quot.sound]
'Verif.Base.alignRange_err' depends on axioms: [propext, Classical.choice, Quot.sound]
'Verif.Base.alignRange_overflow_witness' depends on axioms: [propext]
'Verif.Depex.eval_encoded' depends on axioms: [propext, Quot.sound]
'Verif.Depex.eval_total' depends on axioms: [propext, Quot.sound]
'Verif.Depex.eval_debug_agrees' depends on axioms: [propext, Quot.sound]
'Verif.Depex.eval_debug_panic_is_false' depends on axioms: [propext, Quot.sound]
'Verif.Depex.eval_true_wellformed' depends on axioms: [propext, Quot.sound]
'Verif.Depex.eval_malformed_false' depends on axioms: [propext, Quot.sound]
'Verif.Depex.underflow_accepted' depends on axioms: [propext, Quot.sound]
'Verif.Depex.eval_history' depends on axioms: [propext, Quot.sound]
'Verif.Depex.eval_sticky' depends on axioms: [propext, Classical.choice, Quot.sound]
'Verif.Depex.sor_schedule' depends on axioms: [propext, Quot.sound]
'Verif.Depex.assoc_section' depends on axioms: [propext, Classical.choice, Quot.sound]
'Verif.Events.signal_queues_once' depends on axioms: [propext, Classical.choice, Quot.sound]
'Verif.Events.undelivered_iff_signaled' depends on axioms: [propext, Classical.choice, Quot.sound]
'Verif.Events.signal_again' depends on axioms: [propext]
'Verif.Events.notification_matches' depends on axioms: [propext, Classical.choice, Quot.sound]
'Verif.Events.notification_kept' depends on axioms: [propext, Classical.choice, Quot.sound]
'Verif.Events.notifiable_iff' depends on axioms: [propext, Quot.sound]
'Verif.Events.consume_highest_oldest' depends on axioms: [propext, Classical.choice, Quot.sound]
'Verif.Events.consume_none' depends on axioms: [propext, Classical.choice, Quot.sound]
'Verif.Events.consume_fifo' depends on axioms: [propext, Classical.choice, Quot.sound]
'Verif.Events.raise_spec' depends on axioms: [propext, Classical.choice, Quot.sound]
'Verif.Events.raise_panics' depends on axioms: [propext, Quot.sound]
'Verif.Events.restore_higher_panics' depends on axioms: [propext, Quot.sound]
'Verif.Events.restore_ends_at' depends on axioms: [propext, Classical.choice, Quot.sound]
'Verif.Events.tpl_nests' depends on axioms: [propext, Classical.choice, Quot.sound]
'Verif.Events.called_at_notify_tpl' depends on axioms: [propext, Classical.choice, Quot.sound]
'Verif.Events.nothing_above_pending' depends on axioms: [propext, Classical.choice, Quot.sound]
'Verif.Events.calls_are_live' depends on axioms: [propext, Classical.choice, Quot.sound]
'Verif.Events.restore_dispatches' depends on axioms: [propext, Classical.choice, Quot.sound]
'Verif.Events.signal_group_spec' depends on axioms: [propext, Classical.choice, Quot.sound]
'Verif.Events.signal_ungrouped_spec' depends on axioms: [propext, Classical.choice, Quot.sound]
'Verif.Events.already_signaled_member_hides_group' depends on axioms: [propext, Quot.sound]
'Verif.Events.tick_spec' depends on axioms: [propext, Classical.choice, Quot.sound]
'Verif.Events.setTimer_spec' depends on axioms: [propext, Classical.choice, Quot.sound]
'Verif.Events.setTimer_accepts' depends on axioms: [propext]
'Verif.Events.disarmed_stays' depends on axioms: [propext, Classical.choice, Quot.sound]
'Verif.Events.cancelled_never_fires' depends on axioms: [propext, Classical.choice, Quot.sound]
'Verif.Events.closed_is_dead' depends on axioms: [propext, Classical.choice, Quot.sound]
'Verif.Events.handles_not_recycled' depends on axioms: [propext, Classical.choice, Quot.sound]
'Verif.Events.create_spec' depends on axioms: [propext, Classical.choice, Quot.sound]
'Verif.Events.create_accepts' depends on axioms: [propext, Classical.choice, Quot.sound]
'Verif.Events.create_runtime_accepts' depends on axioms: [propext, Quot.sound]
'Verif.Events.close_unknown_runtime_ok' depends on axioms: [propext, Quot.sound]
'Verif.Debugger.output_right' depends on axioms: [propext, Classical.choice, Quot.sound]
'Verif.Debugger.describe_part' depends on axioms: [propext, Classical.choice, Quot.sound]
'Verif.Debugger.fetched' depends on axioms: [propext, Classical.choice, Quot.sound]
'Verif.Debugger.module_breaks' depends on axioms: [propext, Classical.choice, Quot.sound]
'Verif.Debugger.modules_listed' depends on axioms: [propext, Classical.choice, Quot.sound]
'Verif.Debugger.external_found' depends on axioms: [propext, Classical.choice, Quot.sound]
'Verif.Debugger.trimEfi_base' depends on axioms: [propext, Quot.sound]
'Verif.Debugger.base_unique' depends on axioms: [propext, Quot.sound]
'Verif.Debugger.describe_panics' depends on axioms: [propext, Quot.sound]
'Verif.Debugger.shadowed_never_called' depends on axioms: [propext, Classical.choice, Quot.sound]
'Verif.Debugger.upper_case_suffix_missed' depends on axioms: [propext, Quot.sound]
'Verif.Debugger.x64_entry_shown' depends on axioms: [propext, Quot.sound]
'Verif.Debugger.x64_resumed_partial' depends on axioms: [propext, Quot.sound]
'Verif.Debugger.x64_own_breakpoint' depends on axioms: [propext, Quot.sound]
'Verif.Debugger.x64_removed_breakpoint' depends on axioms: [propext, Quot.sound]
'Verif.Debugger.x64_step_flag' depends on axioms: [propext, Classical.choice, Quot.sound]
'Verif.Debugger.x64_poke' depends on axioms: [propext, Quot.sound]
'Verif.Debugger.a64_entry' depends on axioms: [propext, Classical.choice, Quot.sound]
'Verif.Debugger.a64_resumed_partial' depends on axioms: [propext, Classical.choice, Quot.sound]
'Verif.Debugger.a64_step_flag' depends on axioms: [propext, Classical.choice, Quot.sound]
'Verif.Debugger.a64_poke' depends on axioms: [propext, Quot.sound]
'Verif.Debugger.transport_keeps' depends on axioms: [propext, Quot.sound]
'Verif.Debugger.next_byte' does not depend on any axioms
'Verif.Debugger.poll_right' depends on axioms: [propext]
'Verif.Debugger.logging_right' does not depend on any axioms
'Verif.Debugger.x64_step_stays' depends on axioms: [propext, Classical.choice, Quot.sound]
'Verif.Debugger.x64_jump_skips' depends on axioms: [propext, Quot.sound]
'Verif.Debugger.x64_errors_shift' depends on axioms: [propext, Quot.sound]
'Verif.Debugger.a64_step_not_flushed' depends on axioms: [propext, Classical.choice, Quot.sound]
'Verif.Debugger.a64_step_stays' depends on axioms: [propext, Classical.choice, Quot.sound]
'Verif.SdkPath.from_nodes' depends on axioms: [propext, Quot.sound]
'Verif.SdkPath.from_nodes_ended' depends on axioms: [propext, Quot.sound]
'Verif.SdkPath.iter_lists' depends on axioms: [propext, Classical.choice, Quot.sound]
'Verif.SdkPath.equal_iff' depends on axioms: [propext, Classical.choice, Quot.sound]
'Verif.SdkPath.node_count' depends on axioms: [propext, Classical.choice, Quot.sound]
'Verif.SdkPath.multi_instance_iff' depends on axioms: [propext, Classical.choice, Quot.sound]
'Verif.SdkPath.slice_end' depends on axioms: [propext, Classical.choice, Quot.sound]
'Verif.SdkPath.slice_end_too_long' depends on axioms: [propext, Classical.choice, Quot.sound]
'Verif.SdkPath.starts_with_iff' depends on axioms: [propext, Classical.choice, Quot.sound]
'Verif.SdkPath.starts_with_first_only' depends on axioms: [propext, Classical.choice, Quot.sound]
'Verif.SdkPath.instances_split' depends on axioms: [propext, Classical.choice, Quot.sound]
'Verif.SdkPath.append_instances' depends on axioms: [propext, Quot.sound]
'Verif.SdkPath.append_path' depends on axioms: [propext, Quot.sound]
'Verif.SdkPath.from_pointer' depends on axioms: [propext, Classical.choice, Quot.sound]
'Verif.SdkPath.zero_length_never_ends' depends on axioms: [propext]
'Verif.SdkPath.short_length_panics' depends on axioms: [propext, Quot.sound]
'Verif.SdkPath.damaged_ends' depends on axioms: [propext, Classical.choice, Quot.sound]
'Verif.SdkPath.typed_read' depends on axioms: [propext, Classical.choice, Quot.sound]
'Verif.SdkPath.typed_written_partial' depends on axioms: [propext, Quot.sound]
'Verif.SdkPath.typed_round_trip_partial' depends on axioms: [propext, Classical.choice, Quot.sound]
'Verif.SdkPath.memory_mapped_padded' depends on axioms: [propext, Quot.sound]
'Verif.SdkPath.bmc_padded' depends on axioms: [propext, Quot.sound]
'Verif.SdkPath.bios_padded' depends on axioms: [propext, Quot.sound]
'Verif.SdkPath.bios_cut' depends on axioms: [propext, Quot.sound]
'Verif.SdkPath.eisa_id_digits' depends on axioms: [propext, Quot.sound]
'Verif.SdkPath.pci_root_differs' depends on axioms: [propext]
'Verif.SdkBoot.boxes_own_partial' depends on axioms: [propext, Quot.sound]
'Verif.SdkBoot.boxes_panic_iff' depends on axioms: [propext, Quot.sound]
'Verif.SdkBoot.into_raw_frees' depends on axioms: [propext, Quot.sound]
'Verif.SdkBoot.into_raw_double_free' depends on axioms: [propext, Quot.sound]
'Verif.SdkBoot.one_owner_partial' depends on axioms: [propext, Classical.choice, Quot.sound]
'Verif.SdkBoot.installed_valid_partial' depends on axioms: [propext, Classical.choice, Quot.sound]
'Verif.SdkBoot.face_effects' depends on axioms: [propext, Quot.sound]
'Verif.SdkBoot.typed_reference' depends on axioms: [propext, Classical.choice, Quot.sound]
'Verif.SdkBoot.reinstall_error_loses' depends on axioms: [propext, Quot.sound]
'Verif.SdkBoot.zero_size_dropped' depends on axioms: [propext, Quot.sound]
'Verif.SdkBoot.map_read_partial' depends on axioms: [propext, Quot.sound]
'Verif.SdkBoot.map_entries_partial' depends on axioms: [propext, Quot.sound]
'Verif.SdkBoot.map_too_small' depends on axioms: [propext, Quot.sound]
'Verif.SdkBoot.locate_handles' depends on axioms: [propext, Quot.sound]
'Verif.SdkBoot.drivers_passed' depends on axioms: [propext]
'Verif.SdkBoot.map_count_wrong' depends on axioms: [propext, Quot.sound]
'Verif.SdkBoot.map_past_end' depends on axioms: [propext, Quot.sound]
'Verif.SdkBoot.map_cut' depends on axioms: [propext, Quot.sound]
'Verif.SdkBoot.map_stride_wrong' depends on axioms: [propext]
'Verif.SdkBoot.map_error_leaks' depends on axioms: [propext, Quot.sound]
'Verif.SdkBoot.locate_error_leaks' depends on axioms: [propext, Quot.sound]
'Verif.SdkBoot.exit_data_on_stack' depends on axioms: [propext, Quot.sound]
'Verif.SdkBoot.alloc_aligned' depends on axioms: [propext, Classical.choice, Quot.sound]
'Verif.SdkBoot.dealloc_frees' depends on axioms: [propext, Quot.sound]
'Verif.SdkBoot.tracker_apart' depends on axioms: [propext, Classical.choice, Quot.sound]
'Verif.Paging.never_writable_and_executable' depends on axioms: [propext, Quot.sound]
'Verif.Paging.executable_is_core_code' depends on axioms: [propext, Classical.choice, Quot.sound]
'Verif.Paging.mapped_is_used' depends on axioms: [propext, Classical.choice, Quot.sound]
'Verif.Paging.page_zero_not_mapped' depends on axioms: [propext, Classical.choice, Quot.sound]
'Verif.Paging.allocated_mapped' depends on axioms: [propext, Classical.choice, Quot.sound]
'Verif.Paging.core_section_mapped' depends on axioms: [propext, Classical.choice, Quot.sound]
'Verif.Paging.core_headers_mapped' depends on axioms: [propext, Classical.choice, Quot.sound]
'Verif.Paging.mmio_mapped' depends on axioms: [propext, Classical.choice, Quot.sound]
'Verif.Paging.page_table_agrees_from_the_start' depends on axioms: [propext, Classical.choice, Quot.sound]
'Verif.Paging.debug_build_set_up' depends on axioms: [propext]
'Verif.Paging.odd_mmio_not_mapped' depends on axioms: [propext]
'Verif.Paging.mmio_end_left_out' depends on axioms: [propext]
'Verif.Paging.mmio_end_left_out_iff' depends on axioms: [propext, Classical.choice, Quot.sound]
'Verif.Cache.complete_iff' depends on axioms: [propext, Classical.choice, Quot.sound]
'Verif.Cache.written_back_partial' depends on axioms: [propext, Classical.choice, Quot.sound]
'Verif.Cache.invalidated_partial' depends on axioms: [propext, Classical.choice, Quot.sound]
'Verif.Cache.others_untouched' depends on axioms: [propext, Classical.choice, Quot.sound]
'Verif.Cache.whole_lines_reached' depends on axioms: [propext, Quot.sound]
'Verif.Cache.last_line_missed' depends on axioms: [propext, Classical.choice, Quot.sound]
'Verif.Cache.empty_range_flushed' depends on axioms: [propext, Classical.choice, Quot.sound]
'Verif.Cache.overflow_flushes_one_line' depends on axioms: [propext, Classical.choice, Quot.sound]
'Verif.Cache.x64_agrees' depends on axioms: [propext]
'Verif.Cache.x64_invalidate_discards' does not depend on any axioms
'Verif.Cache.x64_timer_stands_still' depends on axioms: [propext, Classical.choice, Quot.sound]
'Verif.Cache.tail_not_written_back' depends on axioms: [propext, Classical.choice, Quot.sound]
'Verif.Mutex.at_most_one_guard' depends on axioms: [propext, Quot.sound]
'Verif.Mutex.tpl_and_locks_restored' depends on axioms: [propext, Quot.sound]
'Verif.Mutex.section_restores' depends on axioms: [propext, Quot.sound]
'Verif.Mutex.failed_try_changes_nothing' depends on axioms: [propext, Quot.sound]
'Verif.Mutex.successful_try' depends on axioms: [propext, Classical.choice, Quot.sound]
'Verif.Mutex.core_lock_raises' depends on axioms: [propext, Classical.choice, Quot.sound]
'Verif.Mutex.core_lock_never_fails' depends on axioms: [propext, Quot.sound]
'Verif.Mutex.sdk_drop_reentrant' depends on axioms: [propext]
'Verif.Mutex.sdk_lock_reentrant' depends on axioms: [propext]
'Verif.Log.verbose_json_read_partial' depends on axioms: [propext, Classical.choice, Quot.sound]
'Verif.Log.line_ends' depends on axioms: [propext, Classical.choice, Quot.sound]
'Verif.Log.standard_line_tells' depends on axioms: [propext, Classical.choice, Quot.sound]
'Verif.Log.json_line_is_not_json' depends on axioms: [propext, Classical.choice, Quot.sound]
'Verif.Log.message_not_escaped' depends on axioms: [propext, Classical.choice, Quot.sound]
'Verif.Log.port_gets_line' depends on axioms: [propext, Quot.sound]
'Verif.Log.serial_gets_line' depends on axioms: [propext]
'Verif.Log.disabled_leaves_no_trace' depends on axioms: [propext, Quot.sound]
'Verif.Log.memory_gets_line' depends on axioms: [propext, Quot.sound]
'Verif.Log.earlier_entries_stay' depends on axioms: [propext, Quot.sound]
'Verif.Log.buffer_never_overrun' depends on axioms: [propext, Quot.sound]
'Verif.Log.enabled_iff' depends on axioms: [propext, Quot.sound]
'Verif.Log.levels_in_order' does not depend on any axioms
'Verif.Log.severe_first' depends on axioms: [propext, Quot.sound]
'Verif.Log.filter_shadows' depends on axioms: [propext, Quot.sound]
'Verif.Log.line_with_a_hole' depends on axioms: [propext, Quot.sound]
'Verif.Log.Parser.log_text_partial' depends on axioms: [propext, Classical.choice, Quot.sound]
'Verif.Log.Parser.plain_log_text' depends on axioms: [propext, Classical.choice, Quot.sound]
'Verif.Log.Parser.clock_value' depends on axioms: [propext, Quot.sound]
'Verif.Log.Parser.clock_exact' depends on axioms: [propext, Quot.sound]
'Verif.Log.Parser.opened_log_inside' depends on axioms: [propext, Classical.choice, Quot.sound]
'Verif.Log.Parser.open_never_panics' depends on axioms: [propext, Quot.sound]
'Verif.Log.Parser.logged_line_printed' depends on axioms: [propext, Classical.choice, Quot.sound]
'Verif.Log.Parser.logged_level_shown' depends on axioms: [propext]
'Verif.Log.Parser.level_names' depends on axioms: [propext]
'Verif.Log.Parser.phase_names_differ' does not depend on any axioms
'Verif.Log.Parser.low_frequency_panics' depends on axioms: [propext, Classical.choice, Quot.sound]
'Verif.Log.Parser.short_writes_lose' depends on axioms: [propext, Classical.choice, Quot.sound]
'Verif.Log.Parser.clock_runs_fast' does not depend on any axioms
'Verif.Log.Parser.open_overflow_panics' depends on axioms: [propext, Quot.sound]
'Verif.Ffs.Extract.crc_section_read' depends on axioms: [propext, Classical.choice, Quot.sound]
'Verif.Ffs.Extract.crc_damage_found' depends on axioms: [propext, Classical.choice, Quot.sound]
'Verif.Ffs.Extract.crc_content_iff' depends on axioms: [propext, Classical.choice, Quot.sound]
'Verif.Ffs.Extract.lzma_section_read' depends on axioms: [propext, Classical.choice, Quot.sound]
'Verif.Ffs.Extract.brotli_section_read' depends on axioms: [propext, Classical.choice, Quot.sound]
'Verif.Ffs.Extract.unsupported_iff' depends on axioms: [propext, Quot.sound]
'Verif.Ffs.Extract.same_content_same_answer' depends on axioms: [propext, Quot.sound]
'Verif.Ffs.Extract.panics_iff' depends on axioms: [propext, Quot.sound]
'Verif.Ffs.Extract.damage_stops_extraction' depends on axioms: [propext]
'Verif.Ffs.Extract.long_crc_header_panics' depends on axioms: [propext, Classical.choice, Quot.sound]
'Verif.Ffs.Extract.short_content_panics' depends on axioms: [propext, Classical.choice, Quot.sound]
'Verif.Ffs.Extract.brotli_filled_up' depends on axioms: [propext, Classical.choice, Quot.sound]
'Verif.SdkBoot.Binding.never_undefined' depends on axioms: [propext, Classical.choice, Quot.sound]
'Verif.SdkBoot.Binding.installed_iff' depends on axioms: [propext, Classical.choice, Quot.sound]
'Verif.SdkBoot.Binding.interfaces_alive' depends on axioms: [propext, Classical.choice, Quot.sound]
'Verif.SdkBoot.Binding.dropped_once' depends on axioms: [propext, Classical.choice, Quot.sound]
'Verif.SdkBoot.Binding.install_effect' depends on axioms: [propext, Classical.choice, Quot.sound]
'Verif.SdkBoot.Binding.uninstall_effect' depends on axioms: [propext, Classical.choice, Quot.sound]
'Verif.SdkBoot.Binding.drop_effect' depends on axioms: [propext, Quot.sound]
'Verif.SdkBoot.Binding.supported_answer' depends on axioms: [propext, Classical.choice, Quot.sound]
'Verif.SdkBoot.Binding.start_stop_answer' depends on axioms: [propext, Classical.choice, Quot.sound]
'Verif.SdkBoot.Binding.null_handle_never_uninstalled' depends on axioms: [propext, Quot.sound]
'Verif.Mm.one_mmi_partial' depends on axioms: [propext, Quot.sound]
'Verif.Mm.commands_in_order' depends on axioms: [propext, Quot.sound]
'Verif.Mm.message_handled' depends on axioms: [propext, Classical.choice, Quot.sound]
'Verif.Mm.wrong_port_silent' depends on axioms: [propext, Quot.sound]
'Verif.Mm.service_registered' depends on axioms: [propext, Quot.sound]
'Verif.Mm.data_is_stale' depends on axioms: [propext, Quot.sound]
'Verif.Mm.data_one_late' depends on axioms: [propext, Quot.sound]
'Verif.Mm.smc_panics' depends on axioms: [propext, Quot.sound]
'Verif.Mm.skipped_succeeds' does not depend on any axioms
'Verif.Mm.request_is_response' depends on axioms: [propext, Classical.choice, Quot.sound]
'Verif.Paging.compat_region_free_partial' depends on axioms: [propext, Classical.choice, Quot.sound]
'Verif.Paging.compat_only_below' depends on axioms: [propext, Classical.choice, Quot.sound]
'Verif.Paging.compat_memory_kept' depends on axioms: [propext, Classical.choice, Quot.sound]
'Verif.Paging.compat_returns' depends on axioms: [propext, Classical.choice, Quot.sound]
'Verif.Paging.compat_default' depends on axioms: [propext]
'Verif.Paging.compat_allocation_free' depends on axioms: [propext, Classical.choice, Quot.sound]
'Verif.Paging.compat_image_free' depends on axioms: [propext, Classical.choice, Quot.sound]
'Verif.Paging.compat_only_for' depends on axioms: [propext, Quot.sound]
'Verif.Paging.compat_twice_maps_reserved' depends on axioms: [propext]
'Verif.Paging.compat_twice_maps_nothing' depends on axioms: [propext]
'Verif.Paging.compat_uncached_not_mapped' depends on axioms: [propext]
'Verif.Paging.compat_allocation_uncached' depends on axioms: [propext, Classical.choice, Quot.sound]
'Verif.Serial.hex_round_trip' depends on axioms: [propext, Classical.choice, Quot.sound]
'Verif.Serial.hex_accepts' depends on axioms: [propext, Classical.choice, Quot.sound]
'Verif.Serial.hex_injective' depends on axioms: [propext, Quot.sound]
'Verif.Serial.guid_shape' depends on axioms: [propext, Classical.choice, Quot.sound]
'Verif.Serial.guid_round_trip' depends on axioms: [propext, Classical.choice, Quot.sound]
'Verif.Serial.guid_injective' depends on axioms: [propext, Classical.choice, Quot.sound]
'Verif.Serial.json_round_trip' depends on axioms: [propext, Classical.choice, Quot.sound]
'Verif.Serial.json_determines' depends on axioms: [propext, Classical.choice, Quot.sound]
'Verif.Serial.json_other' depends on axioms: [propext, Classical.choice, Quot.sound]
'Verif.Serial.view_whole' depends on axioms: [propext]
'Verif.Serial.resources_merge' depends on axioms: [propext, Classical.choice, Quot.sound]
'Verif.Serial.resources_fewest' depends on axioms: [propext, Classical.choice, Quot.sound]
'Verif.Serial.allocations_merge' depends on axioms: [propext, Classical.choice, Quot.sound]
'Verif.Serial.allocations_apart_partial' depends on axioms: [propext, Classical.choice, Quot.sound]
'Verif.Serial.merged_iff' depends on axioms: [propext, Classical.choice, Quot.sound]
'Verif.Serial.contains_iff' depends on axioms: [propext, Classical.choice, Quot.sound]
'Verif.Serial.size_is' depends on axioms: [propext, Quot.sound]
'Verif.Serial.overflow_panics' depends on axioms: [propext, Classical.choice, Quot.sound]
'Verif.Serial.hex_sign_accepted' depends on axioms: [propext, Classical.choice, Quot.sound]
'Verif.Serial.names_overlap' depends on axioms: [propext, Classical.choice, Quot.sound]
'Verif.Serial.names_lost' depends on axioms: [propext, Classical.choice, Quot.sound]
'Verif.Serial.types_lost' depends on axioms: [propext, Classical.choice, Quot.sound]
'Verif.Serial.last_page_lost' depends on axioms: [propext, Classical.choice, Quot.sound]
'Verif.Serial.empty_kept' depends on axioms: [propext, Classical.choice, Quot.sound]
'Verif.Serial.module_unknown' depends on axioms: [propext, Quot.sound]
'Verif.Serial.data_lost' depends on axioms: [propext, Quot.sound]
'Verif.Perf.made_calls' depends on axioms: [propext, Quot.sound]
'Verif.Perf.function_records' depends on axioms: [propext, Classical.choice, Quot.sound]
'Verif.Perf.functions_record' depends on axioms: [propext, Classical.choice, Quot.sound]
'Verif.Perf.calls_published' depends on axioms: [propext, Classical.choice, Quot.sound]
'Verif.Perf.marks_measure' depends on axioms: [propext, Classical.choice, Quot.sound]
'Verif.Perf.disabled_nothing' depends on axioms: [propext, Classical.choice, Quot.sound]
'Verif.Perf.mask_ignored' depends on axioms: [propext, Classical.choice, Quot.sound]
'Verif.Perf.strings_leak' depends on axioms: [propext, Classical.choice, Quot.sound]
'Verif.Perf.zero_byte_panics' depends on axioms: [propext, Classical.choice, Quot.sound]
'Verif.Perf.Static.one_init_ok' depends on axioms: [propext, Quot.sound]
'Verif.Perf.Static.services_given' depends on axioms: [propext]
'Verif.Perf.Static.inner_agrees' depends on axioms: [propext, Quot.sound]
'Verif.Perf.Static.visible_after_init' depends on axioms: [propext, Quot.sound]
'Verif.Perf.Static.alone_is' does not depend on any axioms
'Verif.Perf.Static.stuck_forever' depends on axioms: [propext]
'Verif.Perf.Static.second_init_disables' depends on axioms: [propext, Quot.sound]
'Verif.Perf.Static.reader_races_init' does not depend on any axioms
'Verif.Protocol.valid_iff_protocol' depends on axioms: [propext, Classical.choice, Quot.sound]
'Verif.Protocol.zero_invalid' depends on axioms: [propext, Classical.choice, Quot.sound]
'Verif.Protocol.protocols_on_handle' depends on axioms: [propext, Classical.choice, Quot.sound]
'Verif.Protocol.install_existing' depends on axioms: [propext, Quot.sound]
'Verif.Protocol.install_new' depends on axioms: [propext, Classical.choice, Quot.sound]
'Verif.Protocol.install_returns' depends on axioms: [propext, Classical.choice, Quot.sound]
'Verif.Protocol.install_effect' depends on axioms: [propext, Classical.choice, Quot.sound]
'Verif.Protocol.install_failure' depends on axioms: [propext, Classical.choice, Quot.sound]
'Verif.Protocol.uninstall_result' depends on axioms: [propext, Quot.sound]
'Verif.Protocol.uninstall_effect' depends on axioms: [propext, Classical.choice, Quot.sound]
'Verif.Protocol.others_keep_interfaces' depends on axioms: [propext, Classical.choice, Quot.sound]
'Verif.Perf.Exchange.request_bytes' depends on axioms: [propext, Classical.choice, Quot.sound]
'Verif.Perf.Exchange.request_guid' depends on axioms: [propext, Classical.choice, Quot.sound]
'Verif.Perf.Exchange.request_asks' depends on axioms: [propext, Classical.choice, Quot.sound]
'Verif.Perf.Exchange.fetches_all' depends on axioms: [propext, Classical.choice, Quot.sound]
'Verif.Perf.Exchange.adds_records' depends on axioms: [propext, Classical.choice, Quot.sound]
'Verif.Perf.Exchange.refused_keeps' depends on axioms: [propext]
'Verif.Perf.Exchange.region_reads' depends on axioms: [propext, Classical.choice, Quot.sound]
'Verif.Perf.Exchange.some_serves' depends on axioms: [propext, Classical.choice, Quot.sound]
'Verif.Perf.Exchange.length_counts_header' depends on axioms: [propext, Classical.choice, Quot.sound]
'Verif.Perf.Exchange.empty_answers_hang' depends on axioms: [propext, Classical.choice, Quot.sound]
'Verif.Perf.Exchange.empty_region_panics' depends on axioms: [propext]
'Verif.Perf.Exchange.short_region_panics' depends on axioms: [propext]
'Verif.Perf.Component.boot_publishes' depends on axioms: [propext, Classical.choice, Quot.sound]
'Verif.Perf.Component.entry_registers' depends on axioms: [propext, Classical.choice, Quot.sound]
'Verif.Perf.Component.calls_recorded' depends on axioms: [propext, Classical.choice, Quot.sound]
'Verif.Perf.Component.table_published' depends on axioms: [propext, Classical.choice, Quot.sound]
'Verif.Perf.Component.late_recorded' depends on axioms: [propext, Classical.choice, Quot.sound]
'Verif.Perf.Component.fetched_late' depends on axioms: [propext, Classical.choice, Quot.sound]
'Verif.Perf.Component.disabled_silent' depends on axioms: [propext]
'Verif.Perf.Component.early_ignored' depends on axioms: [propext, Classical.choice, Quot.sound]
'Verif.Perf.Component.stops_at_first' depends on axioms: [propext]
'Verif.Perf.Component.no_region_silent' depends on axioms: [propext, Classical.choice, Quot.sound]
'Verif.Perf.Component.second_entry_disables' depends on axioms: [propext, Classical.choice, Quot.sound]
'Verif.Perf.Component.no_status_code_hides' depends on axioms: [propext, Classical.choice, Quot.sound]
'Verif.Pecoff.first_found_partial' depends on axioms: [propext, Classical.choice, Quot.sound]
'Verif.Pecoff.package_list_partial' depends on axioms: [propext, Classical.choice, Quot.sound]
'Verif.Pecoff.other_sections' depends on axioms: [propext]
'Verif.Pecoff.no_section_none' depends on axioms: [propext]
'Verif.Pecoff.resource_name' depends on axioms: [propext]
'Verif.Pecoff.found_there' depends on axioms: [propext, Classical.choice, Quot.sound]
'Verif.Pecoff.never_panics_partial' depends on axioms: [propext, Quot.sound]
'Verif.Pecoff.later_missed' depends on axioms: [propext, Quot.sound]
'Verif.Pecoff.second_not_found' depends on axioms: [propext]
'Verif.Pecoff.other_name_found' depends on axioms: [propext]
'Verif.Pecoff.counts_panic' depends on axioms: [propext]
'Verif.Pecoff.stale_installed' depends on axioms: [propext, Quot.sound]
'Verif.Images.Interfaces.load_installs' depends on axioms: [propext, Classical.choice, Quot.sound]
'Verif.Images.Interfaces.unload_keeps' depends on axioms: [propext, Classical.choice, Quot.sound]
'Verif.Images.Interfaces.unload_closes_partial' depends on axioms: [propext, Classical.choice, Quot.sound]
'Verif.Images.Interfaces.unload_gone_partial' depends on axioms: [propext, Classical.choice, Quot.sound]
'Verif.Images.Interfaces.path_left' depends on axioms: [propext, Classical.choice, Quot.sound]
'Verif.Images.Interfaces.package_left' depends on axioms: [propext, Classical.choice, Quot.sound]
'Verif.Images.Interfaces.unloaded_still_there' depends on axioms: [propext]
'Verif.Images.Interfaces.stale_usage_left' depends on axioms: [propext]
'Verif.Status.status_kept' does not depend on any axioms
'Verif.Status.success_iff' does not depend on any axioms
'Verif.Status.error_kept' does not depend on any axioms
'Verif.Status.proper_of_status' does not depend on any axioms
'Verif.Status.named_are_errors' does not depend on any axioms
'Verif.Status.distinct' does not depend on any axioms
'Verif.Status.of_success_panics' does not depend on any axioms
'Verif.Status.warning_is_error' depends on axioms: [propext, Classical.choice, Quot.sound]
'Verif.Status.unknown_success' does not depend on any axioms
'Verif.Images.Source.file_bytes' depends on axioms: [propext, Classical.choice, Quot.sound]
'Verif.Images.Source.directory_refused' depends on axioms: [propext, Classical.choice, Quot.sound]
'Verif.Images.Source.missing_refused' depends on axioms: [propext, Classical.choice, Quot.sound]
'Verif.Images.Source.fv_bytes' depends on axioms: [propext, Classical.choice, Quot.sound]
'Verif.Images.Source.fv_other_node' depends on axioms: [propext, Classical.choice, Quot.sound]
'Verif.Images.Source.load_file_bytes' depends on axioms: [propext]
'Verif.Images.Source.load_file_refused' depends on axioms: [propext]
'Verif.Images.Source.source_order' depends on axioms: [propext, Quot.sound]
'Verif.Images.Source.authenticate_asks' depends on axioms: [propext, Classical.choice, Quot.sound]
'Verif.Images.Source.loaded_is_authenticated' depends on axioms: [propext, Classical.choice, Quot.sound]
'Verif.Images.Source.given_bytes' depends on axioms: [propext, Quot.sound]
'Verif.Images.Source.any_read' depends on axioms: [propext]
'Verif.Images.Source.info_error' depends on axioms: [propext]
'Verif.Images.Source.other_node_refused' depends on axioms: [propext, Classical.choice, Quot.sound]
'Verif.Images.Source.arguments_checked' depends on axioms: [propext, Quot.sound]
'Verif.Images.Source.kept_path' depends on axioms: [propext, Classical.choice, Quot.sound]
'Verif.Images.Source.refused_loaded' depends on axioms: [propext, Quot.sound]
'Verif.Images.Source.unasked_accepted' does not depend on any axioms
'Verif.Images.Source.security2_alone_panics' does not depend on any axioms
'Verif.Images.Source.auth_status_dropped' depends on axioms: [propext, Quot.sound]
'Verif.Images.Source.load_file_padded' depends on axioms: [propext]
'Verif.Images.Source.unterminated_name' depends on axioms: [propext, Quot.sound]
'Verif.Images.Source.huge_file_panics' depends on axioms: [propext, Quot.sound]
'Verif.Images.Source.short_node_ends' depends on axioms: [propext, Quot.sound]
'Verif.TestRunner.entry_spec' depends on axioms: [propext, Classical.choice, Quot.sound]
'Verif.TestRunner.all_run' depends on axioms: [propext, Classical.choice, Quot.sound]
'Verif.TestRunner.runs_selected' depends on axioms: [propext, Quot.sound]
'Verif.TestRunner.run_good' depends on axioms: [propext, Classical.choice, Quot.sound]
'Verif.TestRunner.unretrievable_fails' depends on axioms: [propext, Classical.choice, Quot.sound]
'Verif.TestRunner.none_selected_succeeds' depends on axioms: [propext, Classical.choice, Quot.sound]
'Verif.TestRunner.debug_level_leaks' depends on axioms: [propext, Classical.choice, Quot.sound]
'Verif.Uart.written' depends on axioms: [propext, Quot.sound]
'Verif.Uart.write_waits' depends on axioms: [propext, Quot.sound]
'Verif.Uart.on_the_wire' depends on axioms: [propext, Quot.sound]
'Verif.Uart.write_returns' depends on axioms: [propext, Classical.choice, Quot.sound]
'Verif.Uart.write_hangs' depends on axioms: [propext, Quot.sound]
'Verif.Uart.try_read_spec' depends on axioms: [propext, Quot.sound]
'Verif.Uart.read_spec' depends on axioms: [propext, Quot.sound]
'Verif.Uart.read_oldest' depends on axioms: [propext, Quot.sound]
'Verif.Uart.null_port' does not depend on any axioms
'Verif.Ffs.Core.tiano_section' depends on axioms: [propext, Classical.choice, Quot.sound]
'Verif.Ffs.Core.compressed_section' depends on axioms: [propext, Classical.choice, Quot.sound]
'Verif.Ffs.Core.stored_section' depends on axioms: [propext, Classical.choice, Quot.sound]
'Verif.Ffs.Core.others_passed_on' depends on axioms: [propext, Quot.sound]
'Verif.Ffs.Core.own_not_passed_on' depends on axioms: [propext, Quot.sound]
'Verif.Ffs.Core.damaged_refused' depends on axioms: [propext, Quot.sound]
'Verif.Ffs.Core.unpacked_size' does not depend on any axioms
'Verif.Ffs.Core.edited_refused' depends on axioms: [propext, Quot.sound]
'Verif.Ffs.Core.get_info_spec' depends on axioms: [propext, Classical.choice, Quot.sound]
'Verif.Ffs.Core.get_info_reads' depends on axioms: [propext, Quot.sound]
'Verif.Ffs.Core.decompress_spec' depends on axioms: [propext]
'Verif.Ffs.Core.declared_length_ignored' depends on axioms: [propext, Classical.choice, Quot.sound]
'Verif.Ffs.Core.huge_size_panics' depends on axioms: [propext, Classical.choice, Quot.sound]
'Verif.Ffs.Core.get_info_panics_iff' depends on axioms: [propext, Classical.choice, Quot.sound]
'Verif.Ffs.Core.extractor_laxer' depends on axioms: [propext, Classical.choice, Quot.sound]
'Verif.Ffs.Core.null_pointer_panics' depends on axioms: [propext]
'Verif.StatusCode.received' depends on axioms: [propext, Classical.choice, Quot.sound]
'Verif.StatusCode.received_general' depends on axioms: [propext, Classical.choice, Quot.sound]
'Verif.StatusCode.reported' depends on axioms: [propext, Classical.choice, Quot.sound]
'Verif.StatusCode.reported_bare' depends on axioms: [propext]
'Verif.StatusCode.answer' depends on axioms: [propext, Quot.sound]
'Verif.StatusCode.long_data_cut' depends on axioms: [propext, Classical.choice, Quot.sound]
'Verif.Protocol.locate_all_exact' depends on axioms: [propext, Classical.choice, Quot.sound]
'Verif.Protocol.locate_by_protocol' depends on axioms: [propext, Classical.choice, Quot.sound]
'Verif.Protocol.order_install' depends on axioms: [propext, Classical.choice, Quot.sound]
'Verif.Protocol.order_uninstall' depends on axioms: [propext, Classical.choice, Quot.sound]
'Verif.Protocol.order_others' depends on axioms: [propext, Classical.choice, Quot.sound]
'Verif.Protocol.locate_protocol_exact' depends on axioms: [propext, Classical.choice, Quot.sound]
'Verif.Protocol.children_exact' depends on axioms: [propext, Classical.choice, Quot.sound]
'Verif.SdkBoot.Guard.restored' depends on axioms: [propext, Classical.choice, Quot.sound]
'Verif.SdkBoot.Guard.held' depends on axioms: [propext, Classical.choice, Quot.sound]
'Verif.SdkBoot.Guard.guard_holds' depends on axioms: [propext, Classical.choice, Quot.sound]
'Verif.SdkBoot.Guard.never_misused' depends on axioms: [propext, Classical.choice, Quot.sound]
'Verif.SdkBoot.Guard.lower_panics' depends on axioms: [propext, Quot.sound]
'Verif.SdkBoot.Guard.crossed_fails' depends on axioms: [propext, Classical.choice, Quot.sound]
'Verif.Cpu.PagingX64.refused' depends on axioms: [propext, Classical.choice, Quot.sound]
'Verif.Cpu.PagingX64.success_calls' depends on axioms: [propext, Classical.choice, Quot.sound]
'Verif.Cpu.PagingX64.reads_back' depends on axioms: [propext, Classical.choice, Quot.sound]
'Verif.Cpu.PagingX64.cache_set_partial' depends on axioms: [propext, Classical.choice, Quot.sound]
'Verif.Cpu.PagingX64.rest_left' depends on axioms: [propext, Classical.choice, Quot.sound]
'Verif.Cpu.PagingX64.no_cache_keeps' depends on axioms: [propext, Quot.sound]
'Verif.Cpu.PagingX64.cache_kept_on_failure' depends on axioms: [propext, Classical.choice, Quot.sound]
'Verif.Cpu.PagingX64.mtrr_error' depends on axioms: [propext, Classical.choice, Quot.sound]
'Verif.Cpu.PagingX64.query_spec' depends on axioms: [propext, Quot.sound]
'Verif.Cpu.PagingX64.second_page_uncached' depends on axioms: [propext, Quot.sound]
'Verif.SdkBoot.MemType.value_back' depends on axioms: [propext, Classical.choice, Quot.sound]
'Verif.SdkBoot.MemType.value_refused' depends on axioms: [propext, Classical.choice, Quot.sound]
'Verif.SdkBoot.MemType.type_back' depends on axioms: [propext, Classical.choice, Quot.sound]
'Verif.SdkBoot.MemType.injective' depends on axioms: [propext, Classical.choice, Quot.sound]
'Verif.SdkBoot.MemType.order' depends on axioms: [propext, Quot.sound]
'Verif.SdkBoot.MemType.align_down_spec' depends on axioms: [propext, Classical.choice, Quot.sound]
'Verif.SdkBoot.MemType.align_up_spec' depends on axioms: [propext, Classical.choice, Quot.sound]
'Verif.Alloc.entry' depends on axioms: [propext, Quot.sound]
'Verif.Alloc.first_hob' depends on axioms: [propext]
'Verif.Alloc.no_hob' depends on axioms: [propext]
'Verif.Alloc.reserved_as_asked' depends on axioms: [propext, Classical.choice, Quot.sound]
'Verif.Alloc.buckets_apart' depends on axioms: [propext, Classical.choice, Quot.sound]
'Verif.Alloc.first_counts' depends on axioms: [propext, Classical.choice, Quot.sound]
'Verif.Alloc.later_ignored' depends on axioms: [propext, Classical.choice, Quot.sound]
'Verif.Alloc.entry_ignored' depends on axioms: [propext]
'Verif.Alloc.conventional_bucket' depends on axioms: [propext]
'Verif.Gcd.Services.allocate_serves' depends on axioms: [propext, Classical.choice, Quot.sound]
'Verif.Gcd.Services.allocate_fails' depends on axioms: [propext, Classical.choice, Quot.sound]
'Verif.Gcd.Services.allocate_refuses' depends on axioms: [propext]
'Verif.Gcd.Services.allocate_lowest' depends on axioms: [propext, Classical.choice, Quot.sound]
'Verif.Gcd.Services.allocate_highest' depends on axioms: [propext, Classical.choice, Quot.sound]
'Verif.Gcd.Services.io_allocate_serves' depends on axioms: [propext, Classical.choice, Quot.sound]
'Verif.Gcd.Services.io_allocate_fails' depends on axioms: [propext, Classical.choice, Quot.sound]
'Verif.Gcd.Services.descriptor_serves' depends on axioms: [propext, Classical.choice, Quot.sound]
'Verif.Gcd.Services.descriptor_null' does not depend on any axioms
'Verif.Gcd.Services.descriptor_beyond' depends on axioms: [propext, Classical.choice, Quot.sound]
'Verif.Gcd.Services.io_descriptor_serves' depends on axioms: [propext, Classical.choice, Quot.sound]
'Verif.Gcd.Services.map_serves' depends on axioms: [propext, Classical.choice, Quot.sound]
'Verif.Gcd.Services.map_outcome' depends on axioms: [propext, Classical.choice, Quot.sound]
'Verif.Gcd.Services.map_current' depends on axioms: [propext, Classical.choice, Quot.sound]
'Verif.Gcd.Services.map_stale' depends on axioms: [propext, Classical.choice, Quot.sound]
'Verif.Gcd.Services.io_map_serves' depends on axioms: [propext, Classical.choice, Quot.sound]
'Verif.Gcd.Services.reports_refuse' depends on axioms: [propext]
'Verif.Cpu.FaultReport.page_fault_partial' depends on axioms: [propext, Quot.sound]
'Verif.Cpu.FaultReport.reserved_inverted' depends on axioms: [propext, Quot.sound]
'Verif.Cpu.FaultReport.fetch_inverted' depends on axioms: [propext, Quot.sound]
'Verif.Cpu.FaultReport.never_right' depends on axioms: [propext, Quot.sound]
'Verif.Cpu.FaultReport.fault_page' depends on axioms: [propext, Classical.choice, Quot.sound]
'Verif.Cpu.FaultReport.gp_fault' depends on axioms: [propext, Quot.sound]
'Verif.Paging.RuntimeFixup.runtime_drivers_unprotected' depends on axioms: [propext, Classical.choice, Quot.sound]
'Verif.Paging.RuntimeFixup.runtime_drivers_writable' depends on axioms: [propext, Classical.choice, Quot.sound]
'Verif.Paging.RuntimeFixup.others_ignored' depends on axioms: [propext, Quot.sound]
'Verif.Paging.RuntimeFixup.only_runtime_drivers' depends on axioms: [propext, Classical.choice, Quot.sound]
'Verif.Paging.RuntimeFixup.logged_or_unprotected' depends on axioms: [propext, Classical.choice, Quot.sound]
'Verif.Paging.RuntimeFixup.uncached_driver_stays_protected' depends on axioms: [propext, Classical.choice, Quot.sound]
'Verif.Paging.RuntimeFixup.uncached_driver_witness' depends on axioms: [propext]
'Verif.Fv.processed' depends on axioms: [propext, Classical.choice, Quot.sound]
'Verif.Fv.process_null' depends on axioms: [propext]
'Verif.Fv.process_damaged' depends on axioms: [propext]
'Verif.Fv.process_short' depends on axioms: [propext, Classical.choice, Quot.sound]
'Verif.Fv.process_fails' depends on axioms: [propext, Classical.choice, Quot.sound]
'Verif.Debugger.Session.reentry_changes_nothing' does not depend on any axioms
'Verif.Debugger.Session.reentry_crashes' depends on axioms: [propext]
'Verif.Debugger.Session.connection_continues' depends on axioms: [propext, Quot.sound]
'Verif.Debugger.Session.connection_starts' depends on axioms: [propext, Quot.sound]
'Verif.Debugger.Session.not_initialized' depends on axioms: [propext]
'Verif.Debugger.Session.kept_iff_resumed' depends on axioms: [propext, Quot.sound]
'Verif.Debugger.Session.results' depends on axioms: [propext, Quot.sound]
'Verif.Debugger.Session.told_again' depends on axioms: [propext, Quot.sound]
'Verif.Debugger.Session.crash_reason' depends on axioms: [propext, Quot.sound]
'Verif.AdvLog.Adopt.add_confined' depends on axioms: [propext, Classical.choice, Quot.sound]
'Verif.AdvLog.Adopt.add_keeps_log' depends on axioms: [propext, Classical.choice, Quot.sound]
'Verif.AdvLog.Adopt.stored_or_counted' depends on axioms: [propext, Classical.choice, Quot.sound]
'Verif.AdvLog.Adopt.all_accounted' depends on axioms: [propext, Classical.choice, Quot.sound]
'Verif.AdvLog.Adopt.lost_uncounted' depends on axioms: [propext, Quot.sound]
'Verif.AdvLog.Adopt.no_log' depends on axioms: [propext, Classical.choice, Quot.sound]
'Verif.AdvLog.Adopt.first_log' depends on axioms: [propext, Classical.choice, Quot.sound]
'Verif.AdvLog.Adopt.second_log_panics' depends on axioms: [propext, Classical.choice, Quot.sound]
'Verif.AdvLog.Adopt.protocol_has_log' depends on axioms: [propext]
'Verif.AdvLog.Adopt.success_without_log' depends on axioms: [propext, Classical.choice, Quot.sound]
'Verif.AdvLog.Adopt.bad_header_adopted' depends on axioms: [propext, Quot.sound]
'Verif.Protocol.exclusion' depends on axioms: [propext, Classical.choice, Quot.sound]
'Verif.Protocol.users_wellformed' depends on axioms: [propext, Classical.choice, Quot.sound]
'Verif.Protocol.open_result' depends on axioms: [propext, Classical.choice, Quot.sound]
'Verif.Protocol.open_failure' depends on axioms: [propext]
'Verif.Protocol.open_effect' depends on axioms: [propext, Classical.choice, Quot.sound]
'Verif.Protocol.close_exact' depends on axioms: [propext, Classical.choice, Quot.sound]
'Verif.Protocol.others_keep_users' depends on axioms: [propext]
'Verif.Protocol.already_started_for_any_repeat' depends on axioms: [propext]
'Verif.Misc.Arch.served_partial' depends on axioms: [propext, Quot.sound]
'Verif.Misc.Arch.not_ready' depends on axioms: [propext, Quot.sound]
'Verif.Misc.Arch.never_let_go' depends on axioms: [propext, Quot.sound]
'Verif.Misc.Arch.removed_driver_called' depends on axioms: [propext, Quot.sound]
'Verif.Misc.Arch.installed_and_removed_panics' depends on axioms: [propext, Quot.sound]
'Verif.Misc.Arch.panic_reason' depends on axioms: [propext, Quot.sound]
'Verif.Pecoff.Info.pe_accepted_iff' depends on axioms: [propext, Classical.choice, Quot.sound]
'Verif.Pecoff.Info.pe_refused' depends on axioms: [propext, Classical.choice, Quot.sound]
'Verif.Pecoff.Info.not_an_image' depends on axioms: [propext, Quot.sound]
'Verif.Pecoff.Info.te_info' depends on axioms: [propext, Quot.sound]
'Verif.Pecoff.Info.te_size_holds' depends on axioms: [propext, Quot.sound]
'Verif.Pecoff.Info.filename_with_extension' depends on axioms: [propext, Classical.choice, Quot.sound]
'Verif.Pecoff.Info.filename_other' depends on axioms: [propext, Classical.choice, Quot.sound]
'Verif.Pecoff.Info.filename_clean' depends on axioms: [propext, Classical.choice, Quot.sound]
'Verif.Pecoff.Info.pe_filename' depends on axioms: [propext, Quot.sound]
'Verif.Pecoff.Info.machine_ignored' depends on axioms: [propext, Quot.sound]
'Verif.Pecoff.Info.te_never_loads' depends on axioms: [propext, Quot.sound]
'Verif.Pecoff.Info.te_size_short' depends on axioms: [propext, Quot.sound]
'Verif.Pecoff.Info.pe32_base_misplaced' depends on axioms: [propext, Classical.choice, Quot.sound]
'Verif.Pecoff.Info.pe_debug_panics' depends on axioms: [propext, Quot.sound]
'Verif.Pecoff.Load.loaded_inside' depends on axioms: [propext, Classical.choice, Quot.sound]
'Verif.Pecoff.Load.loaded_contents' depends on axioms: [propext, Quot.sound]
'Verif.Pecoff.Load.failure_frees_partial' depends on axioms: [propext, Classical.choice, Quot.sound]
'Verif.Pecoff.Load.odd_alignment_leaks' depends on axioms: [propext, Classical.choice, Quot.sound]
'Verif.Pecoff.Load.page_zero_leaks' depends on axioms: [propext, Quot.sound]
'Verif.Pecoff.Load.entry_unchecked' depends on axioms: [propext, Quot.sound]
'Verif.Perf.Setup.configured_by_hob_partial' depends on axioms: [propext, Classical.choice, Quot.sound]
'Verif.Perf.Setup.configured_statically' depends on axioms: [propext, Quot.sound]
'Verif.Perf.Setup.disabled_by_hob' depends on axioms: [propext, Classical.choice, Quot.sound]
'Verif.Perf.Setup.late_config_hides_hob' depends on axioms: [propext, Classical.choice, Quot.sound]
'Verif.Perf.Setup.short_hob_panics' depends on axioms: [propext, Classical.choice, Quot.sound]
'Verif.Perf.Setup.odd_flag_undefined' depends on axioms: [propext, Classical.choice, Quot.sound]
'Verif.Perf.Setup.sample_late' depends on axioms: [propext, Classical.choice, Quot.sound]
'Verif.Misc.Handoff.missing_named' depends on axioms: [propext, Classical.choice, Quot.sound]
'Verif.Misc.Handoff.handed_over' depends on axioms: [propext, Classical.choice, Quot.sound]
'Verif.Misc.Handoff.entered_without_status_code' depends on axioms: [propext, Classical.choice, Quot.sound]
'Verif.Misc.Handoff.no_bds' depends on axioms: [propext, Classical.choice, Quot.sound]
'Verif.Misc.Handoff.bds_return_ignored' depends on axioms: [propext, Classical.choice, Quot.sound]
'Verif.Misc.Handoff.null_status_code_panics' depends on axioms: [propext, Classical.choice, Quot.sound]
'Verif.Misc.Handoff.null_bds_used' depends on axioms: [propext, Classical.choice, Quot.sound]
'Verif.Misc.MemAttr.installed' depends on axioms: [propext, Classical.choice, Quot.sound]
'Verif.Misc.MemAttr.removed_iff' depends on axioms: [propext, Classical.choice, Quot.sound]
'Verif.Misc.MemAttr.gone_partial' depends on axioms: [propext, Classical.choice, Quot.sound]
'Verif.Misc.MemAttr.stays_when_used' depends on axioms: [propext, Classical.choice, Quot.sound]
'Verif.Misc.MemAttr.handle_protocol_keeps' depends on axioms: [propext]
'Verif.Misc.MemAttr.unused_gone' depends on axioms: [propext]
'Verif.Gcd.Listing.allocated_listed' depends on axioms: [propext, Classical.choice, Quot.sound]
'Verif.Gcd.Listing.mmio_listed' depends on axioms: [propext, Classical.choice, Quot.sound]
'Verif.Gcd.Listing.listings_apart' depends on axioms: [propext]
'Verif.Paging.allocated_called' depends on axioms: [propext, Classical.choice, Quot.sound]
'Verif.Paging.allocated_call_attributes' depends on axioms: [propext, Classical.choice, Quot.sound]
'Verif.Paging.mmio_listing_used' depends on axioms: [Quot.sound]
'Verif.Images.Core.well_known_handles' depends on axioms: [propext, Classical.choice, Quot.sound]
'Verif.Images.Core.later_handles_differ' depends on axioms: [propext, Classical.choice, Quot.sound]
'Verif.Images.Core.core_registered' depends on axioms: [propext, Classical.choice, Quot.sound]
'Verif.Images.Core.core_refused' depends on axioms: [propext, Quot.sound]
'Verif.Protocol.used_stays' depends on axioms: [propext, Classical.choice, Quot.sound]
'Verif.Protocol.open_of_gone_agent_stays' depends on axioms: [propext]
'Verif.Protocol.notify_exactly_owed' depends on axioms: [propext, Classical.choice, Quot.sound]
'Verif.Protocol.install_notifies' depends on axioms: [propext, Classical.choice, Quot.sound]
'Verif.Protocol.register_number' depends on axioms: [propext, Classical.choice, Quot.sound]
'Verif.Protocol.reports_gone_handle' depends on axioms: [propext]
'Verif.Protocol.reinstall_reported_once' depends on axioms: [propext]
'Verif.Gcd.descriptors_partition' depends on axioms: [propext, Classical.choice, Quot.sound]
'Verif.Gcd.partition_stays' depends on axioms: [propext, Classical.choice, Quot.sound]
'Verif.Gcd.cells_ok' depends on axioms: [propext, Classical.choice, Quot.sound]
'Verif.Gcd.descriptor_contains' depends on axioms: [propext, Classical.choice, Quot.sound]
'Verif.Gcd.add_ok' depends on axioms: [propext, Classical.choice, Quot.sound]
'Verif.Gcd.add_err' depends on axioms: [propext, Classical.choice, Quot.sound]
'Verif.Gcd.add_succeeds' depends on axioms: [propext, Classical.choice, Quot.sound]
'Verif.Gcd.add_existing_denied' depends on axioms: [propext, Classical.choice, Quot.sound]
'Verif.Gcd.first_add_ok' depends on axioms: [propext, Classical.choice, Quot.sound]
'Verif.Gcd.remove_ok' depends on axioms: [propext, Classical.choice, Quot.sound]
'Verif.Gcd.remove_err' depends on axioms: [propext, Classical.choice, Quot.sound]
'Verif.Gcd.remove_succeeds' depends on axioms: [propext, Classical.choice, Quot.sound]
'Verif.Gcd.remove_allocated_denied' depends on axioms: [propext, Classical.choice, Quot.sound]
'Verif.Gcd.set_attributes_ok' depends on axioms: [propext, Classical.choice, Quot.sound]
'Verif.Gcd.set_attributes_err' depends on axioms: [propext, Classical.choice, Quot.sound]
'Verif.Gcd.set_attributes_succeeds' depends on axioms: [propext, Classical.choice, Quot.sound]
'Verif.Gcd.set_capabilities_ok' depends on axioms: [propext, Classical.choice, Quot.sound]
'Verif.Gcd.set_capabilities_err' depends on axioms: [propext, Classical.choice, Quot.sound]
'Verif.Gcd.set_capabilities_succeeds' depends on axioms: [propext, Classical.choice, Quot.sound]
'Verif.Gcd.free_ok' depends on axioms: [propext, Classical.choice, Quot.sound]
'Verif.Gcd.free_err_partial' depends on axioms: [propext, Classical.choice, Quot.sound]
'Verif.Gcd.free_succeeds' depends on axioms: [propext, Classical.choice, Quot.sound]
'Verif.Gcd.locked_free' depends on axioms: [propext]
'Verif.Gcd.allocate_ok' depends on axioms: [propext, Classical.choice, Quot.sound]
'Verif.Gcd.allocate_err' depends on axioms: [propext, Classical.choice, Quot.sound]
'Verif.Gcd.free_error_after_freeing' depends on axioms: [propext]
'Verif.Gcd.first_add_error_after_adding' depends on axioms: [propext]
'Verif.Gcd.remove_keeps_attributes' depends on axioms: [propext]
'Verif.Gcd.allocate_no_panic' depends on axioms: [propext, Classical.choice, Quot.sound]
'Verif.Gcd.allocation_stays' depends on axioms: [propext, Classical.choice, Quot.sound]
'Verif.Gcd.live_allocations_disjoint' depends on axioms: [propext, Classical.choice, Quot.sound]
'Verif.Gcd.bottom_up_succeeds' depends on axioms: [propext, Classical.choice, Quot.sound]
'Verif.Gcd.bottom_up_lowest' depends on axioms: [propext, Classical.choice, Quot.sound]
'Verif.Gcd.top_down_succeeds' depends on axioms: [propext, Classical.choice, Quot.sound]
'Verif.Gcd.top_down_highest' depends on axioms: [propext, Classical.choice, Quot.sound]
'Verif.Gcd.top_down_prefers_32' depends on axioms: [propext, Classical.choice, Quot.sound]
'Verif.Gcd.by_address_succeeds' depends on axioms: [propext, Classical.choice, Quot.sound]
'Verif.Gcd.bottom_up_off_by_one' depends on axioms: [propext, Classical.choice, Quot.sound]
'Verif.Gcd.io_partition' depends on axioms: [propext, Classical.choice, Quot.sound]
'Verif.Gcd.io_add_ok' depends on axioms: [propext, Classical.choice, Quot.sound]
'Verif.Gcd.io_remove_ok' depends on axioms: [propext, Classical.choice, Quot.sound]
'Verif.Gcd.io_free_ok' depends on axioms: [propext, Classical.choice, Quot.sound]
'Verif.Gcd.io_allocate_ok' depends on axioms: [propext, Classical.choice, Quot.sound]
'Verif.Gcd.io_fail_changes_nothing' depends on axioms: [propext, Classical.choice, Quot.sound]
'Verif.Gcd.io_range_succeeds' depends on axioms: [propext, Classical.choice, Quot.sound]
'Verif.Gcd.io_allocate_succeeds' depends on axioms: [propext, Classical.choice, Quot.sound]
'Verif.Collections.Tree.rbt_history' depends on axioms: [propext, Classical.choice, Quot.sound]
'Verif.Collections.Tree.rbt_plain_history' depends on axioms: [propext, Classical.choice, Quot.sound]
'Verif.Collections.Tree.rbt_add_many' depends on axioms: [propext, Classical.choice, Quot.sound]
'Verif.Collections.Tree.history_contents' depends on axioms: [propext, Classical.choice, Quot.sound]
'Verif.Collections.Tree.rbt_balanced_partial' depends on axioms: [propext, Classical.choice, Quot.sound]
'Verif.Collections.Tree.rbt_degenerates' depends on axioms: [propext, Classical.choice, Quot.sound]
'Verif.Collections.Tree.rbt_not_balanced' depends on axioms: [propext, Classical.choice, Quot.sound]
'Verif.Collections.Tree.bst_history' depends on axioms: [propext, Classical.choice, Quot.sound]
'Verif.Collections.Tree.bst_plain_history' depends on axioms: [propext, Classical.choice, Quot.sound]
'Verif.Collections.Tree.bst_add_many' depends on axioms: [propext, Classical.choice, Quot.sound]
'Verif.Collections.SortedSlice.add_spec' depends on axioms: [propext, Classical.choice, Quot.sound]
'Verif.Collections.SortedSlice.addContiguous_ok' depends on axioms: [propext, Classical.choice, Quot.sound]
'Verif.Collections.SortedSlice.addContiguous_no_panic' depends on axioms: [propext, Classical.choice, Quot.sound]
'Verif.Collections.SortedSlice.remove_spec' depends on axioms: [propext, Classical.choice, Quot.sound]
'Verif.Collections.SortedSlice.search_spec' depends on axioms: [propext, Quot.sound]
'Verif.Collections.SortedSlice.removeAt_inv' depends on axioms: [propext, Classical.choice, Quot.sound]
'Verif.Collections.SortedSlice.history_sorted' depends on axioms: [propext, Classical.choice, Quot.sound]
'Verif.Collections.SortedSlice.searchWithKey_panics' depends on axioms: [propext, Classical.choice, Quot.sound]
'Verif.Collections.SortedSlice.searchWithKey_spec' depends on axioms: [propext, Classical.choice, Quot.sound]
'Verif.Collections.SortedSlice.addContiguous_succeeds' depends on axioms: [propext, Classical.choice, Quot.sound]
'Verif.Collections.SortedSlice.addContiguous_full' depends on axioms: [propext, Quot.sound]
'Verif.Collections.Tree.storage_history' depends on axioms: [propext, Classical.choice, Quot.sound]
'Verif.Collections.Tree.dirty_memory_corrupts' does not depend on any axioms
'Verif.Alloc.block_placed' depends on axioms: [propext, Classical.choice, Quot.sound]
'Verif.Alloc.blocks_apart' depends on axioms: [propext, Classical.choice, Quot.sound]
'Verif.Alloc.block_apart_from_pages' depends on axioms: [propext, Classical.choice, Quot.sound]
'Verif.Alloc.contents_kept' depends on axioms: [propext, Classical.choice, Quot.sound]
'Verif.Alloc.no_room_changes_nothing' depends on axioms: [propext, Classical.choice, Quot.sound]
'Verif.Alloc.freed_block_reused' depends on axioms: [propext, Classical.choice, Quot.sound]
'Verif.Alloc.allocate_steps' depends on axioms: [propext, Classical.choice, Quot.sound]
'Verif.Alloc.allocate_succeeds' depends on axioms: [propext, Classical.choice, Quot.sound]
'Verif.Alloc.bumpOk' depends on axioms: [propext, Classical.choice, Quot.sound]
'Verif.Alloc.demoEnvOk' depends on axioms: [propext, Classical.choice, Quot.sound]
'Verif.Alloc.unlucky_size_fails' depends on axioms: [propext]
'Verif.Alloc.large_alignment_fails' depends on axioms: [propext]
'Verif.Alloc.pool_placed' depends on axioms: [propext, Classical.choice, Quot.sound]
'Verif.Alloc.pool_apart' depends on axioms: [propext, Classical.choice, Quot.sound]
'Verif.Alloc.allocatePool_ok' depends on axioms: [propext, Classical.choice, Quot.sound]
'Verif.Alloc.allocatePool_err' depends on axioms: [propext, Classical.choice, Quot.sound]
'Verif.Alloc.freePool_ok' depends on axioms: [propext, Classical.choice, Quot.sound]
'Verif.Alloc.freePool_foreign' depends on axioms: [propext, Classical.choice, Quot.sound]
'Verif.Alloc.freed_twice' depends on axioms: [propext, Classical.choice, Quot.sound]
'Verif.Alloc.freed_twice_at_once' depends on axioms: [propext, Classical.choice, Quot.sound]
'Verif.Alloc.coreFreePool_ok' depends on axioms: [propext, Classical.choice, Quot.sound]
'Verif.Alloc.coreFreePool_twice' depends on axioms: [propext, Classical.choice, Quot.sound]
'Verif.Alloc.coreFreePool_twice_at_once' depends on axioms: [propext, Classical.choice, Quot.sound]
'Verif.Alloc.coreAllocatePool_ok' depends on axioms: [propext, Classical.choice, Quot.sound]
'Verif.Alloc.coreAllocatePool_err' depends on axioms: [propext, Classical.choice, Quot.sound]
'Verif.Alloc.coreAllocatePool_invalid' depends on axioms: [propext]
'Verif.Alloc.huge_pool_panics' depends on axioms: [propext, Quot.sound]
'Verif.Alloc.forged_info_freed' depends on axioms: [propext]
'Verif.AdvLog.entry_size_exact' depends on axioms: [propext, Quot.sound]
'Verif.AdvLog.writers_in_bounds' depends on axioms: [propext, Quot.sound]
'Verif.AdvLog.writers_disjoint' depends on axioms: [propext, Quot.sound]
'Verif.AdvLog.written_stays' depends on axioms: [propext, Quot.sound]
'Verif.AdvLog.old_data_untouched' depends on axioms: [propext, Quot.sound]
'Verif.AdvLog.discarded_counts' depends on axioms: [propext, Quot.sound]
'Verif.AdvLog.refused_only_when_full' depends on axioms: [propext, Quot.sound]
'Verif.AdvLog.offset_wraps' depends on axioms: [propext, Quot.sound]
'Verif.AdvLog.read_back' depends on axioms: [propext, Classical.choice, Quot.sound]
'Verif.AdvLog.reservation_order' depends on axioms: [propext, Classical.choice, Quot.sound]
'Verif.AdvLog.torn_read' depends on axioms: [propext, Quot.sound]
'Verif.AdvLog.long_payload_truncated' depends on axioms: [propext, Classical.choice, Quot.sound]
'Verif.DevicePath.nodeCount_spec' depends on axioms: [propext, Classical.choice, Quot.sound]
'Verif.DevicePath.copy_spec' depends on axioms: [propext, Classical.choice, Quot.sound]
'Verif.DevicePath.concat_spec' depends on axioms: [propext, Classical.choice, Quot.sound]
'Verif.DevicePath.remaining_spec' depends on axioms: [propext, Classical.choice, Quot.sound]
'Verif.DevicePath.walker_spec' depends on axioms: [propext, Classical.choice, Quot.sound]
'Verif.DevicePath.remaining_concat' depends on axioms: [propext, Classical.choice, Quot.sound]
'Verif.DevicePath.null_rejected' depends on axioms: [propext]
'Verif.DevicePath.multi_instance_truncated' depends on axioms: [propext, Classical.choice, Quot.sound]
'Verif.DevicePath.zero_length_hangs' depends on axioms: [propext]
'Verif.DevicePath.nodeCount_long_end' depends on axioms: [propext, Classical.choice, Quot.sound]
'Verif.DevicePath.walker_stops' depends on axioms: [propext, Classical.choice, Quot.sound]
'Verif.Component.handed_locks_partial' depends on axioms: [propext, Classical.choice, Quot.sound]
'Verif.Component.no_mut_after_read_partial' depends on axioms: [propext, Classical.choice, Quot.sound]
'Verif.Component.one_value_partial' depends on axioms: [propext, Classical.choice, Quot.sound]
'Verif.Component.nested_tuple_not_validated' depends on axioms: [propext, Quot.sound]
'Verif.Component.queued_config_changes' depends on axioms: [propext, Quot.sound]
'Verif.Component.storage_mut_changes_locked' depends on axioms: [propext, Quot.sound]
'Verif.Component.with_config_order_matters' depends on axioms: [propext, Quot.sound]
'Verif.Component.each_once' depends on axioms: [propext, Quot.sound]
'Verif.Component.runs_when_available_partial' depends on axioms: [propext, Classical.choice, Quot.sound]
'Verif.Component.fixpoint' depends on axioms: [propext, Quot.sound]
'Verif.Component.core_terminates' depends on axioms: [propext, Quot.sound]
'Verif.Component.boot_terminates' depends on axioms: [propext, Quot.sound]
'Verif.Component.nested_service_panics' depends on axioms: [propext, Quot.sound]
'Verif.Dispatcher.started_once' depends on axioms: [propext, Classical.choice, Quot.sound]
'Verif.Dispatcher.loaded_once' depends on axioms: [propext, Classical.choice, Quot.sound]
'Verif.Dispatcher.volumes_once' depends on axioms: [propext, Classical.choice, Quot.sound]
'Verif.Dispatcher.found_once' depends on axioms: [propext, Classical.choice, Quot.sound]
'Verif.Dispatcher.start_justified' depends on axioms: [propext, Classical.choice, Quot.sound]
'Verif.Dispatcher.waiting_not_started' depends on axioms: [propext, Classical.choice, Quot.sound]
'Verif.Dispatcher.waiting_loaded' depends on axioms: [propext, Classical.choice, Quot.sound]
'Verif.Dispatcher.verdict_expression' depends on axioms: [propext, Classical.choice, Quot.sound]
'Verif.Dispatcher.verdict_default' depends on axioms: [propext, Classical.choice, Quot.sound]
'Verif.Dispatcher.verdict_sor' depends on axioms: [propext, Classical.choice, Quot.sound]
'Verif.Dispatcher.verdict_association' depends on axioms: [propext, Classical.choice, Quot.sound]
'Verif.Dispatcher.arch_protocols' does not depend on any axioms
'Verif.Dispatcher.schedule_effect' depends on axioms: [propext, Quot.sound]
'Verif.Dispatcher.trust_effect' depends on axioms: [propext, Quot.sound]
'Verif.Dispatcher.nested_dispatch_runs' depends on axioms: [propext, Quot.sound]
'Verif.Dispatcher.before_in_same_pass' depends on axioms: [propext, Quot.sound]
'Verif.Dispatcher.after_in_same_pass' depends on axioms: [propext, Quot.sound]
'Verif.Dispatcher.names_fresh' depends on axioms: [propext, Quot.sound]
'Verif.Dispatcher.met_fresh' depends on axioms: [propext, Quot.sound]
'Verif.Dispatcher.chained_before_never_runs' depends on axioms: [propext, Quot.sound]
'Verif.Dispatcher.late_after_never_runs' depends on axioms: [propext, Quot.sound]
'Verif.Dispatcher.deferred_before_never_runs' depends on axioms: [propext, Quot.sound]
'Verif.Dispatcher.duplicate_name_after_first' depends on axioms: [propext, Quot.sound]
'Verif.Dispatcher.dispatcher_fixpoint' depends on axioms: [propext, Quot.sound]
'Verif.Dispatcher.no_progress_fixpoint' depends on axioms: [propext, Quot.sound]
'Verif.Dispatcher.pass_examines' depends on axioms: [propext, Quot.sound]
'Verif.Dispatcher.pass_err' depends on axioms: [propext, Quot.sound]
'Verif.Dispatcher.images_fate' depends on axioms: [propext, Quot.sound]
'Verif.Dispatcher.dispatcher_result' depends on axioms: [propext, Quot.sound]
'Verif.Dispatcher.unreadable_drops_schedule' depends on axioms: [propext, Quot.sound]
'Verif.Ffs.section_roundtrip_partial' depends on axioms: [propext, Classical.choice, Quot.sound]
'Verif.Ffs.good_section_roundtrip' depends on axioms: [propext, Classical.choice, Quot.sound]
'Verif.Ffs.serialize_length' depends on axioms: [propext, Quot.sound]
'Verif.Ffs.section_layout' depends on axioms: [propext, Classical.choice, Quot.sound]
'Verif.Ffs.parsed_section_bytes' depends on axioms: [propext, Classical.choice, Quot.sound]
'Verif.Ffs.size_ffffff_broken' depends on axioms: [propext, Classical.choice, Quot.sound]
'Verif.Ffs.small_extended_broken' depends on axioms: [propext]
'Verif.Ffs.file_roundtrip_partial' depends on axioms: [propext, Classical.choice, Quot.sound]
'Verif.Ffs.file_checksums' depends on axioms: [propext, Classical.choice, Quot.sound]
'Verif.Ffs.content_offset_correct' depends on axioms: [propext, Classical.choice, Quot.sound]
'Verif.Ffs.checksum_file_rejected' depends on axioms: [propext, Classical.choice, Quot.sound]
'Verif.Ffs.checksum_file_rejected_witness' depends on axioms: [propext, Quot.sound]
'Verif.Ffs.volume_roundtrip' depends on axioms: [propext, Classical.choice, Quot.sound]
'Verif.Ffs.volume_reload' depends on axioms: [propext, Classical.choice, Quot.sound]
'Verif.Ffs.volume_serialize_ok' depends on axioms: [propext, Classical.choice, Quot.sound]
'Verif.Ffs.align_16m_panics' depends on axioms: [propext, Quot.sound]
'Verif.Ffs.capacity_exceeded' depends on axioms: [propext, Quot.sound]
'Verif.Ffs.parse_panics_iff' depends on axioms: [propext, Quot.sound]
'Verif.Ffs.parse_within' depends on axioms: [propext, Classical.choice, Quot.sound]
'Verif.Ffs.parse_size' depends on axioms: [propext, Classical.choice, Quot.sound]
'Verif.Ffs.parse_panic_or' depends on axioms: [propext, Classical.choice, Quot.sound]
'Verif.Ffs.section_iter_terminates' depends on axioms: [propext, Classical.choice, Quot.sound]
'Verif.Ffs.file_within' depends on axioms: [propext, Quot.sound]
'Verif.Ffs.fileRef_panics_iff' depends on axioms: [propext, Quot.sound]
'Verif.Ffs.content_panics_iff' depends on axioms: [propext, Quot.sound]
'Verif.Ffs.zero_size_accepted' depends on axioms: [propext, Quot.sound]
'Verif.Ffs.volume_parse_no_panic' depends on axioms: [propext]
'Verif.Ffs.volume_accepted_bytes' depends on axioms: [propext, Quot.sound]
'Verif.Ffs.ext_header_panics_iff' depends on axioms: [propext, Quot.sound]
'Verif.Ffs.files_start_panics_iff' depends on axioms: [propext]
'Verif.Ffs.files_hang_iff' depends on axioms: [propext, Classical.choice, Quot.sound]
'Verif.Ffs.files_within' depends on axioms: [propext, Classical.choice, Quot.sound]
'Verif.Ffs.zero_size_file_hangs' depends on axioms: [propext, Classical.choice, Quot.sound]
'Verif.Ffs.lists_beyond_volume' depends on axioms: [propext, Quot.sound]
'Verif.Ffs.volume_accessors_panic' depends on axioms: [propext, Quot.sound]
'Verif.Ffs.lba_info_partial' depends on axioms: [propext, Classical.choice, Quot.sound]
'Verif.Ffs.lba_offset_wrong' depends on axioms: [propext]
'Verif.Ffs.lba_offset_wrong_always' depends on axioms: [propext, Quot.sound]
'Verif.Mm.set_then_get' depends on axioms: [propext, Classical.choice, Quot.sound]
'Verif.Mm.oversize_refused' depends on axioms: [propext, Quot.sound]
'Verif.Mm.small_refused' depends on axioms: [propext]
'Verif.Mm.no_recipient' depends on axioms: [propext]
'Verif.Mm.tamper_detected' depends on axioms: [propext, Quot.sound]
'Verif.Mm.get_in_bounds' depends on axioms: [propext, Quot.sound]
'Verif.Mm.history_fits' depends on axioms: [propext, Quot.sound]
'Verif.Mm.fromRaw_ok' depends on axioms: [propext, Classical.choice, Quot.sound]
'Verif.Mm.region_accepted_iff' depends on axioms: [propext, Classical.choice, Quot.sound]
'Verif.Mm.region_refused' depends on axioms: [propext, Quot.sound]
'Verif.Mm.region_like_raw' depends on axioms: [propext, Classical.choice, Quot.sound]
'Verif.Mm.capacity_exact' depends on axioms: [propext, Classical.choice, Quot.sound]
'Verif.Mm.capacity_small' depends on axioms: [propext, Quot.sound]
'Verif.Mm.communicate_spec' depends on axioms: [propext, Classical.choice, Quot.sound]
'Verif.Mm.communicate_isolated' depends on axioms: [propext, Quot.sound]
'Verif.Mm.shorter_response_rejected' depends on axioms: [propext, Classical.choice, Quot.sound]
'Verif.Hob.discover_spec' depends on axioms: [propext, Classical.choice, Quot.sound]
'Verif.Hob.iterate_spec' depends on axioms: [propext, Classical.choice, Quot.sound]
'Verif.Hob.iterate_all' depends on axioms: [propext, Classical.choice, Quot.sound]
'Verif.Hob.cListSize_spec' depends on axioms: [propext, Classical.choice, Quot.sound]
'Verif.Hob.discovered_size' depends on axioms: [propext, Classical.choice, Quot.sound]
'Verif.Hob.wrong_size_panics' depends on axioms: [propext, Classical.choice, Quot.sound]
'Verif.Hob.short_guid_panics' depends on axioms: [propext, Classical.choice, Quot.sound]
'Verif.Hob.relocate_spec' depends on axioms: [propext, Classical.choice, Quot.sound]
'Verif.Hob.relocated_independent' depends on axioms: [propext, Classical.choice, Quot.sound]
'Verif.Hob.iterator_v2_address' depends on axioms: [propext, Classical.choice, Quot.sound]
'Verif.Hob.Witness.iterator_misreads' depends on axioms: [propext, Quot.sound]
'Verif.Hob.Witness.unknown_loses' depends on axioms: [propext, Quot.sound]
'Verif.Hob.short_guid_huge' depends on axioms: [propext, Quot.sound]
'Verif.Hob.zero_length_never_ends' depends on axioms: [propext, Quot.sound]
'Verif.Connect.candidates_order' depends on axioms: [propext, Classical.choice, Quot.sound]
'Verif.Connect.precedence_nodup' depends on axioms: [propext, Quot.sound]
'Verif.Connect.all_are_candidates' depends on axioms: [propext, Classical.choice, Quot.sound]
'Verif.Connect.connectSingle_spec' depends on axioms: [propext, Classical.choice, Quot.sound]
'Verif.Connect.rounds_last' depends on axioms: [propext, Classical.choice, Quot.sound]
'Verif.Connect.rounds_all_asked' depends on axioms: [propext, Quot.sound]
'Verif.Connect.rounds_starts' depends on axioms: [propext, Quot.sound]
'Verif.Connect.started_at_most_once' depends on axioms: [propext, Classical.choice, Quot.sound]
'Verif.Connect.single_returns' depends on axioms: [propext, Classical.choice, Quot.sound]
'Verif.Connect.authenticate_spec' depends on axioms: [propext]
'Verif.Connect.refused_asks_nobody' depends on axioms: [propext]
'Verif.Connect.children_connected' depends on axioms: [propext, Classical.choice, Quot.sound]
'Verif.Connect.not_recursive' depends on axioms: [propext]
'Verif.Connect.connect_tree' depends on axioms: [propext]
'Verif.Connect.connect_no_panic' depends on axioms: [propext, Classical.choice, Quot.sound]
'Verif.Connect.listed_twice_started_twice' depends on axioms: [propext, Quot.sound]
'Verif.Connect.cyclic_children_never_return' depends on axioms: [propext, Quot.sound]
'Verif.Connect.disconnect_invalid' depends on axioms: [propext, Quot.sound]
'Verif.Connect.disconnect_spec' depends on axioms: [propext, Classical.choice, Quot.sound]
'Verif.Connect.turns_drivers' depends on axioms: [propext]
'Verif.Connect.children_first' depends on axioms: [propext, Quot.sound]
'Verif.Connect.not_a_child_reported_done' depends on axioms: [propext, Quot.sound]
'Verif.Connect.not_a_child_stops_driver' depends on axioms: [propext, Quot.sound]
'Verif.Connect.missing_binding_ends_it' depends on axioms: [propext, Quot.sound]
'Verif.Events.restore_with_interrupts_partial' depends on axioms: [propext, Classical.choice, Quot.sound]
'Verif.Events.no_reentrant_lock' depends on axioms: [propext, Classical.choice, Quot.sound]
'Verif.Events.interrupt_leaves_pending' depends on axioms: [propext, Quot.sound]
'Verif.Events.interrupt_close_panics' depends on axioms: [propext, Quot.sound]
'Verif.Events.interrupt_calls_closed' depends on axioms: [propext, Quot.sound]
'Verif.Collections.Tree.resize_new' depends on axioms: [propext]
'Verif.Collections.Tree.rbt_resize_partial' depends on axioms: [propext, Classical.choice, Quot.sound]
'Verif.Collections.Tree.bst_resize_partial' depends on axioms: [propext, Classical.choice, Quot.sound]
'Verif.Collections.Tree.resize_full_panics' depends on axioms: [propext, Classical.choice, Quot.sound]
'Verif.Collections.Tree.resize_corrupts' depends on axioms: [propext]
'Verif.Ffs.setData_ok' depends on axioms: [propext]
'Verif.Ffs.setData_encap' depends on axioms: [propext]
'Verif.Ffs.dirty_refused' depends on axioms: [propext]
'Verif.Ffs.dirty_propagates' depends on axioms: [propext, Quot.sound]
'Verif.Ffs.compose_clean' depends on axioms: [propext]
'Verif.Ffs.compose_leaves' depends on axioms: [propext]
'Verif.Ffs.compose_roundtrip' depends on axioms: [propext, Classical.choice, Quot.sound]
'Verif.Ffs.setDataChecksum_spec' depends on axioms: [propext, Quot.sound]
'Verif.Ffs.failed_compose_stale' depends on axioms: [propext]
'Verif.Ffs.unsupported_marks' depends on axioms: [propext, Quot.sound]
'Verif.Component.lookup_spec' depends on axioms: [propext, Quot.sound]
'Verif.Component.boxed_service_unusable' depends on axioms: [propext, Quot.sound]
'Verif.Component.component_accepted_iff' depends on axioms: [propext, Quot.sound]
'Verif.Component.boot_no_panic_partial' depends on axioms: [propext, Quot.sound]
'Verif.Component.release_conflict_panics' depends on axioms: [propext, Quot.sound]
'Verif.Component.storage_mut_aliases_accepted' depends on axioms: [propext, Quot.sound]
'Verif.Dispatcher.volume_discovered' depends on axioms: [propext, Quot.sound]
'Verif.Dispatcher.images_discovered' depends on axioms: [propext, Quot.sound]
'Verif.Dispatcher.volume_known' depends on axioms: [propext, Quot.sound]
'Verif.Dispatcher.pass_loses_nothing' depends on axioms: [propext, Classical.choice, Quot.sound]
'Verif.Dispatcher.dispatcher_loses_nothing' depends on axioms: [propext, Classical.choice, Quot.sound]
'Verif.Dispatcher.progress' depends on axioms: [propext, Quot.sound]
'Verif.Dispatcher.bad_file_hides_rest' depends on axioms: [propext, Quot.sound]
'Verif.Resources.init_ok' depends on axioms: [propext, Classical.choice, Quot.sound]
'Verif.Resources.resources_mapped_partial' depends on axioms: [propext, Classical.choice, Quot.sound]
'Verif.Resources.resources_rest' depends on axioms: [propext, Classical.choice, Quot.sound]
'Verif.Resources.resources_disjoint' depends on axioms: [propext, Classical.choice, Quot.sound]
'Verif.Resources.startup_partial' depends on axioms: [propext, Classical.choice, Quot.sound]
'Verif.Resources.resources_accepted' depends on axioms: [propext, Classical.choice, Quot.sound]
'Verif.Resources.resources_release' depends on axioms: [propext, Classical.choice, Quot.sound]
'Verif.Resources.tail_is_lost' depends on axioms: [propext, Classical.choice, Quot.sound]
'Verif.Resources.Witness.tail_does_not_exist' depends on axioms: [propext, Classical.choice, Quot.sound]
'Verif.Resources.Witness.no_attributes_panics' depends on axioms: [propext]
'Verif.Resources.Witness.unsupported_passed_over' depends on axioms: [propext]
'Verif.Resources.Witness.read_protected_needs_read_only' depends on axioms: [propext]
'Verif.Alloc.pages_counted' depends on axioms: [propext, Classical.choice, Quot.sound]
'Verif.Alloc.claim_counts' depends on axioms: [propext, Classical.choice, Quot.sound]
'Verif.Alloc.release_counts' depends on axioms: [propext, Classical.choice, Quot.sound]
'Verif.Alloc.reserve_counts' depends on axioms: [propext, Classical.choice, Quot.sound]
'Verif.Alloc.expand_counts' depends on axioms: [propext, Classical.choice, Quot.sound]
'Verif.Alloc.allocatePages_counts' depends on axioms: [propext, Classical.choice, Quot.sound]
'Verif.Alloc.freePages_counts' depends on axioms: [propext, Classical.choice, Quot.sound]
'Verif.Alloc.mixed_free_miscounts' does not depend on any axioms
'Verif.Alloc.allocatePages_ok' depends on axioms: [propext, Classical.choice, Quot.sound]
'Verif.Alloc.allocatePages_err' depends on axioms: [propext, Classical.choice, Quot.sound]
'Verif.Alloc.freePages_foreign' depends on axioms: [propext, Classical.choice, Quot.sound]
'Verif.Alloc.freePages_ok' depends on axioms: [propext, Classical.choice, Quot.sound]
'Verif.Alloc.freePages_steps' depends on axioms: [propext]
'Verif.Alloc.freePages_succeeds' depends on axioms: [propext, Classical.choice, Quot.sound]
'Verif.Alloc.zero_page_lost' depends on axioms: [propext]
'Verif.Alloc.page_count_wraps' depends on axioms: [propext]
'Verif.Alloc.coreAllocatePages_ok' depends on axioms: [propext, Classical.choice, Quot.sound]
'Verif.Alloc.coreAllocatePages_invalid' depends on axioms: [propext, Classical.choice, Quot.sound]
'Verif.Alloc.coreAllocatePages_misaligned' depends on axioms: [propext, Classical.choice, Quot.sound]
'Verif.Alloc.coreFreePages_invalid' depends on axioms: [propext]
'Verif.Alloc.coreFreePages_foreign' depends on axioms: [propext, Classical.choice, Quot.sound]
'Verif.Alloc.coreFreePages_ok' depends on axioms: [propext, Classical.choice, Quot.sound]
'Verif.Alloc.reserve_ok' depends on axioms: [propext, Classical.choice, Quot.sound]
'Verif.Alloc.reserve_once' depends on axioms: [propext]
'Verif.Alloc.stays_reserved' depends on axioms: [propext, Classical.choice, Quot.sound]
'Verif.Alloc.reserved_exclusive' depends on axioms: [propext, Classical.choice, Quot.sound]
'Verif.Alloc.reserved_not_given' depends on axioms: [propext, Classical.choice, Quot.sound]
'Verif.Alloc.reserve_not_preferred' depends on axioms: [propext]
'Verif.Alloc.reserve_lost_by_address' depends on axioms: [propext]
'Verif.Gcd.kept_run' depends on axioms: [propext, Classical.choice, Quot.sound]
'Verif.Gcd.choice_avoids_kept' depends on axioms: [propext, Classical.choice, Quot.sound]
'Verif.Gcd.step_does' depends on axioms: [propext, Classical.choice, Quot.sound]
'Verif.MemMap.map_well_formed' depends on axioms: [propext, Classical.choice, Quot.sound]
'Verif.MemMap.map_sound' depends on axioms: [propext, Classical.choice, Quot.sound]
'Verif.MemMap.map_complete' depends on axioms: [propext, Classical.choice, Quot.sound]
'Verif.MemMap.map_exact' depends on axioms: [propext, Classical.choice, Quot.sound]
'Verif.MemMap.map_unique' depends on axioms: [propext, Classical.choice, Quot.sound]
'Verif.MemMap.map_allocated' depends on axioms: [propext, Classical.choice, Quot.sound]
'Verif.MemMap.map_conventional' depends on axioms: [propext, Classical.choice, Quot.sound]
'Verif.MemMap.map_runtime' depends on axioms: [propext, Classical.choice, Quot.sound]
'Verif.MemMap.whole_pages_uniform' depends on axioms: [propext, Classical.choice, Quot.sound]
'Verif.MemMap.unaligned_left_out' depends on axioms: [propext, Classical.choice, Quot.sound]
'Verif.MemMap.removed_still_reported' depends on axioms: [propext]
'Verif.MemMap.more_reliable_left_out' depends on axioms: [propext]
'Verif.MemMap.get_success' depends on axioms: [propext, Quot.sound]
'Verif.MemMap.get_too_small' depends on axioms: [propext]
'Verif.MemMap.get_succeeds' depends on axioms: [propext, Quot.sound]
'Verif.MemMap.get_twice' depends on axioms: [propext, Quot.sound]
'Verif.MemMap.get_readable' depends on axioms: [propext, Classical.choice, Quot.sound]
'Verif.MemMap.terminate_iff' depends on axioms: [propext, Quot.sound]
'Verif.MemMap.key_accepted' depends on axioms: [propext, Quot.sound]
'Verif.MemMap.stale_key_rejected' depends on axioms: [propext, Classical.choice, Quot.sound]
'Verif.MemMap.retyped_key_rejected' depends on axioms: [propext, Classical.choice, Quot.sound]
'Verif.MemMap.crc32_detects' depends on axioms: [propext, Classical.choice, Quot.sound]
'Verif.MemMap.crc32_collides' depends on axioms: [propext]
'Verif.MemMap.calculate_iff' depends on axioms: [propext, Quot.sound]
'Verif.MemMap.padding_spoils_key' depends on axioms: [propext, Quot.sound]
'Verif.MemMap.exit_spec' depends on axioms: [propext, Quot.sound]
'Verif.MemMap.exit_succeeds_iff' depends on axioms: [propext, Quot.sound]
'Verif.MemMap.exit_refused' depends on axioms: [propext, Quot.sound]
'Verif.MemMap.exit_done' depends on axioms: [propext, Quot.sound]
'Verif.MemMap.exit_closes' depends on axioms: [propext, Quot.sound]
'Verif.MemMap.announced_once' depends on axioms: [propext, Quot.sound]
'Verif.MemMap.retry_succeeds' depends on axioms: [propext, Quot.sound]
'Verif.MemMap.first_call_succeeds' depends on axioms: [propext, Quot.sound]
'Verif.Alloc.claimed_memory_taken' depends on axioms: [propext, Classical.choice, Quot.sound]
'Verif.Alloc.unclaimed_memory_kept' depends on axioms: [propext, Classical.choice, Quot.sound]
'Verif.Alloc.given_out_kept' depends on axioms: [propext, Classical.choice, Quot.sound]
'Verif.Alloc.page_zero_taken' depends on axioms: [propext, Classical.choice, Quot.sound]
'Verif.Alloc.takeHob_took' depends on axioms: [propext, Classical.choice, Quot.sound]
'Verif.Alloc.processHobs_took' depends on axioms: [propext, Classical.choice, Quot.sound]
'Verif.Alloc.unaligned_runtime_left_free' depends on axioms: [propext]
'Verif.Alloc.short_runtime_takes_neighbour' depends on axioms: [propext]
'Verif.Alloc.short_runtime_not_taken' depends on axioms: [propext]
'Verif.Alloc.spanning_not_taken' depends on axioms: [propext]
'Verif.Pecoff.loadImage_result' depends on axioms: [propext, Quot.sound]
'Verif.Pecoff.loadImage_length' depends on axioms: [propext, Quot.sound]
'Verif.Pecoff.loadImage_section' depends on axioms: [propext, Quot.sound]
'Verif.Pecoff.loadImage_rest' depends on axioms: [propext, Classical.choice, Quot.sound]
'Verif.Pecoff.loadImage_forgets' does not depend on any axioms
'Verif.Pecoff.parse_iff' depends on axioms: [propext, Classical.choice, Quot.sound]
'Verif.Pecoff.parse_total' depends on axioms: [propext, Quot.sound]
'Verif.Pecoff.relocate_moves' depends on axioms: [propext, Classical.choice, Quot.sound]
'Verif.Pecoff.relocate_pointer' depends on axioms: [propext, Classical.choice, Quot.sound]
'Verif.Pecoff.relocate_again' depends on axioms: [propext, Classical.choice, Quot.sound]
'Verif.Pecoff.relocate_accepts' depends on axioms: [propext, Classical.choice, Quot.sound]
'Verif.Pecoff.relocate_records' depends on axioms: [propext, Classical.choice, Quot.sound]
'Verif.Pecoff.flatten_relocated' depends on axioms: [propext, Quot.sound]
'Verif.Pecoff.relocate_ignores_recorded' depends on axioms: [propext, Classical.choice, Quot.sound]
'Verif.Pecoff.changed_value_moved' depends on axioms: [propext, Quot.sound]
'Verif.Pecoff.unknown_kind_panics' depends on axioms: [propext, Quot.sound]
'Verif.Pecoff.highlow_recorded_as_zero' does not depend on any axioms
'Verif.Paging.set_attributes_effect' depends on axioms: [propext, Classical.choice, Quot.sound]
'Verif.Paging.set_attributes_returns' depends on axioms: [propext, Classical.choice, Quot.sound]
'Verif.Paging.set_attributes_not_refused' depends on axioms: [propext, Classical.choice, Quot.sound]
'Verif.Paging.set_attributes_succeeds' depends on axioms: [propext, Classical.choice, Quot.sound]
'Verif.Paging.allocate_effect' depends on axioms: [propext, Classical.choice, Quot.sound]
'Verif.Paging.sync_step' depends on axioms: [propext, Classical.choice, Quot.sound]
'Verif.Paging.page_table_agrees' depends on axioms: [propext, Classical.choice, Quot.sound]
'Verif.Paging.executable_step' depends on axioms: [propext, Classical.choice, Quot.sound]
'Verif.Paging.executable_only_on_request' depends on axioms: [propext, Classical.choice, Quot.sound]
'Verif.Paging.mapped_step' depends on axioms: [propext, Classical.choice, Quot.sound]
'Verif.Paging.free_not_denied' depends on axioms: [propext, Classical.choice, Quot.sound]
'Verif.Paging.free_unmaps' depends on axioms: [propext, Classical.choice, Quot.sound]
'Verif.Paging.locked_free_unmaps' depends on axioms: [propext]
'Verif.Paging.kept_memory_stays_mapped' depends on axioms: [propext]
'Verif.Paging.kept_memory_breaks_allocation' depends on axioms: [propext]
'Verif.Paging.refused_reported_set' depends on axioms: [propext]
'Verif.Paging.no_cache_attributes_desync' depends on axioms: [propext]
'Verif.Paging.unaligned_not_mapped' depends on axioms: [propext]
'Verif.Paging.free_hides_failure' depends on axioms: [propext]
'Verif.Paging.allocate_hides_failure' depends on axioms: [propext]
'Verif.Paging.beyond_end_never_returns' depends on axioms: [propext, Classical.choice, Quot.sound]
'Verif.ImageMem.protect_image' depends on axioms: [propext, Classical.choice, Quot.sound]
'Verif.ImageMem.protected_pages' depends on axioms: [propext, Classical.choice, Quot.sound]
'Verif.ImageMem.unprotect_image' depends on axioms: [propext, Classical.choice, Quot.sound]
'Verif.ImageMem.unload_uniform' depends on axioms: [propext, Classical.choice, Quot.sound]
'Verif.ImageMem.unload_frees' depends on axioms: [propext, Classical.choice, Quot.sound]
'Verif.ImageMem.loaded_then_unloaded' depends on axioms: [propext, Classical.choice, Quot.sound]
'Verif.ImageMem.protect_changes_only' depends on axioms: [propext, Classical.choice, Quot.sound]
'Verif.ImageMem.unprotect_never_executable' depends on axioms: [propext, Classical.choice, Quot.sound]
'Verif.ImageMem.guard_page' depends on axioms: [propext, Classical.choice, Quot.sound]
'Verif.ImageMem.stack_released' depends on axioms: [propext, Classical.choice, Quot.sound]
'Verif.ImageMem.stack_size' depends on axioms: [propext, Classical.choice, Quot.sound]
'Verif.ImageMem.image_placed' depends on axioms: [propext, Classical.choice, Quot.sound]
'Verif.ImageMem.access_of' depends on axioms: [propext, Quot.sound]
'Verif.ImageMem.section_reaches_out' depends on axioms: [propext]
'Verif.ImageMem.protected_not_freed' depends on axioms: [propext]
'Verif.ImageMem.odd_alignment_refused_late' depends on axioms: [propext]
'Verif.ImageMem.writable_code_is_read_only' depends on axioms: [propext, Quot.sound]
'Verif.ImageMem.failure_leaves_unprotected' depends on axioms: [propext]
'Verif.Paging.set_memory_attributes_effect' depends on axioms: [propext, Classical.choice, Quot.sound]
'Verif.Paging.clear_memory_attributes_effect' depends on axioms: [propext, Classical.choice, Quot.sound]
'Verif.Paging.andNot_bits' depends on axioms: [propext, Classical.choice, Quot.sound]
'Verif.Paging.bad_request_refused' depends on axioms: [propext, Classical.choice, Quot.sound]
'Verif.Paging.memory_attributes_returns' depends on axioms: [propext, Classical.choice, Quot.sound]
'Verif.Paging.memory_attributes_not_refused' depends on axioms: [propext, Classical.choice, Quot.sound]
'Verif.Paging.set_memory_attributes_succeeds' depends on axioms: [propext, Classical.choice, Quot.sound]
'Verif.Paging.clear_memory_attributes_succeeds' depends on axioms: [propext, Classical.choice, Quot.sound]
'Verif.Paging.get_memory_attributes_correct' depends on axioms: [propext, Classical.choice, Quot.sound]
'Verif.Paging.get_memory_attributes_succeeds' depends on axioms: [propext, Classical.choice, Quot.sound]
'Verif.Paging.set_not_reported' depends on axioms: [propext]
'Verif.Paging.part_not_reported' depends on axioms: [propext, Classical.choice, Quot.sound]
'Verif.Paging.set_read_protect_panics' depends on axioms: [propext]
'Verif.Paging.beyond_end_hangs' depends on axioms: [propext, Classical.choice, Quot.sound]
'Verif.Paging.set_page_attributes_effect' depends on axioms: [propext, Classical.choice, Quot.sound]
'Verif.Paging.set_page_attributes_refused' depends on axioms: [propext]
'Verif.Paging.set_page_attributes_returns' depends on axioms: [propext, Classical.choice, Quot.sound]
'Verif.Paging.set_page_attributes_succeeds' depends on axioms: [propext, Classical.choice, Quot.sound]
'Verif.Paging.get_page_attributes_correct' depends on axioms: [propext, Classical.choice, Quot.sound]
'Verif.Paging.get_page_uniform' depends on axioms: [propext, Classical.choice, Quot.sound]
'Verif.Paging.set_then_get' depends on axioms: [propext, Classical.choice, Quot.sound]
'Verif.Paging.no_access_twice_panics' depends on axioms: [propext]
'Verif.Paging.missing_reported_accessible' depends on axioms: [propext]
'Verif.Paging.equal_reported_inconsistent' depends on axioms: [propext]
'Verif.Paging.wrapped_reported' depends on axioms: [propext]
'Verif.Paging.unsupported_access_reported' depends on axioms: [propext]
'Verif.Paging.beyond_end_manager_hangs' depends on axioms: [propext, Classical.choice, Quot.sound]
'Verif.Tables.config_tables' depends on axioms: [propext, Classical.choice, Quot.sound]
'Verif.Tables.run_spec' depends on axioms: [propext, Classical.choice, Quot.sound]
'Verif.Tables.initial_ok' depends on axioms: [propext, Classical.choice, Quot.sound]
'Verif.Tables.install_cases' depends on axioms: [propext, Classical.choice, Quot.sound]
'Verif.Tables.install_table' depends on axioms: [propext, Classical.choice, Quot.sound]
'Verif.Tables.remove_table' depends on axioms: [propext, Classical.choice, Quot.sound]
'Verif.Tables.remove_missing' depends on axioms: [propext, Quot.sound]
'Verif.Tables.install_refused' depends on axioms: [propext]
'Verif.Tables.checksum_ok' depends on axioms: [propext, Classical.choice, Quot.sound]
'Verif.Tables.system_checksum' depends on axioms: [propext, Classical.choice, Quot.sound]
'Verif.Tables.services_checksum' depends on axioms: [propext, Classical.choice, Quot.sound]
'Verif.Tables.recomputed' depends on axioms: [propext, Classical.choice, Quot.sound]
'Verif.Tables.console_spoils_checksum' depends on axioms: [propext]
'Verif.Tables.no_memory_panics' depends on axioms: [propext, Quot.sound]
'Verif.Tables.Debug.debugger_sees' depends on axioms: [propext, Quot.sound]
'Verif.Tables.Debug.debugger_interrupts' depends on axioms: [propext, Quot.sound]
'Verif.Tables.Debug.add_image' depends on axioms: [propext, Quot.sound]
'Verif.Tables.Debug.remove_image' depends on axioms: [propext, Quot.sound]
'Verif.Tables.Debug.update_announced' depends on axioms: [propext, Quot.sound]
'Verif.Tables.Debug.settled_seen' depends on axioms: [propext, Quot.sound]
'Verif.Tables.Debug.initial_settled' depends on axioms: [propext]
'Verif.Tables.Debug.dangling_while_busy' depends on axioms: [propext, Quot.sound]
'Verif.Tables.Mat.mat_published' depends on axioms: [propext, Classical.choice, Quot.sound]
'Verif.Tables.Mat.mat_history' depends on axioms: [propext, Classical.choice, Quot.sound]
'Verif.Tables.Mat.install_steady' depends on axioms: [propext, Classical.choice, Quot.sound]
'Verif.Tables.Mat.build_describes' depends on axioms: [propext, Classical.choice, Quot.sound]
'Verif.Tables.Mat.never_writable_and_executable' depends on axioms: [propext]
'Verif.Tables.Mat.listed_protections' depends on axioms: [propext]
'Verif.Tables.Mat.no_leak' depends on axioms: [propext, Classical.choice, Quot.sound]
'Verif.Tables.Mat.steady_published' depends on axioms: [propext]
'Verif.Tables.Mat.attribute_change_not_listed' depends on axioms: [propext, Classical.choice, Quot.sound]
'Verif.Misc.stall_time' depends on axioms: [propext, Classical.choice, Quot.sound]
'Verif.Misc.stall_enough_iff' depends on axioms: [propext, Quot.sound]
'Verif.Misc.waits_sum' depends on axioms: [propext, Quot.sound]
'Verif.Misc.waits_fit' depends on axioms: [propext, Classical.choice, Quot.sound]
'Verif.Misc.waits_length' depends on axioms: [propext, Classical.choice, Quot.sound]
'Verif.Misc.stall_not_ready' depends on axioms: [propext, Quot.sound]
'Verif.Misc.watchdog_period' depends on axioms: [propext, Classical.choice, Quot.sound]
'Verif.Misc.watchdog_not_ready' does not depend on any axioms
'Verif.Misc.stall_too_short' depends on axioms: [propext, Quot.sound]
'Verif.Misc.stall_zero_period_panics' depends on axioms: [propext, Quot.sound]
'Verif.Runtime.runtime_lists' depends on axioms: [propext, Quot.sound]
'Verif.Runtime.run_good' depends on axioms: [propext, Quot.sound]
'Verif.Runtime.step_good' depends on axioms: [propext, Quot.sound]
'Verif.Runtime.update_good' depends on axioms: [propext, Quot.sound]
'Verif.Runtime.good_finds' depends on axioms: [propext, Quot.sound]
'Verif.Runtime.relink_linked' depends on axioms: [propext]
'Verif.Runtime.walk_seg' depends on axioms: [propext]
'Verif.Runtime.finalize_tells' does not depend on any axioms
'Verif.Runtime.event_refused' does not depend on any axioms
'Verif.Runtime.event_accepted' does not depend on any axioms
'Verif.Events.runtime_event_never_notified' depends on axioms: [propext, Classical.choice, Quot.sound]
'Verif.Images.entered_once' depends on axioms: [propext, Classical.choice, Quot.sound]
'Verif.Images.calls_nest' depends on axioms: [propext, Quot.sound]
'Verif.Images.run_good' depends on axioms: [propext, Quot.sound]
'Verif.Images.step_good' depends on axioms: [propext, Quot.sound]
'Verif.Images.start_enters' depends on axioms: [propext]
'Verif.Images.exit_refused' does not depend on any axioms
'Verif.Images.exit_unstarted' depends on axioms: [propext]
'Verif.Images.unload_unstarted' depends on axioms: [propext]
'Verif.Images.unload_refused' depends on axioms: [propext]
'Verif.Images.unload_asks' depends on axioms: [propext]
'Verif.Images.ends_stays' depends on axioms: [propext, Quot.sound]
'Verif.Images.ends_unloaded' depends on axioms: [propext, Quot.sound]
'Verif.Images.ends_asks' depends on axioms: [propext, Quot.sound]
'Verif.Images.gone_only' depends on axioms: [propext, Quot.sound]
'Verif.Images.second_start_unloads' depends on axioms: [propext]
'Verif.Images.running_unloaded' depends on axioms: [propext]
'Verif.Images.stale_way_out' depends on axioms: [propext]
'Verif.Images.unload_within_unload' does not depend on any axioms
'Verif.Perf.table_holds' depends on axioms: [propext, Classical.choice, Quot.sound]
'Verif.Perf.run_inv' depends on axioms: [propext, Classical.choice, Quot.sound]
'Verif.Perf.step_inv' depends on axioms: [propext, Classical.choice, Quot.sound]
'Verif.Perf.set_inv' depends on axioms: [propext]
'Verif.Perf.add_inv' depends on axioms: [propext, Classical.choice, Quot.sound]
'Verif.Perf.report_inv' depends on axioms: [propext, Classical.choice, Quot.sound]
'Verif.Perf.new_inv' depends on axioms: [propext]
'Verif.Perf.iter_records' depends on axioms: [propext, Classical.choice, Quot.sound]
'Verif.Perf.pushOwned_fits' depends on axioms: [propext, Classical.choice, Quot.sound]
'Verif.Perf.pushPublished_fits' depends on axioms: [propext, Classical.choice, Quot.sound]
'Verif.Perf.pushPublished_full' depends on axioms: [propext, Classical.choice, Quot.sound]
'Verif.Perf.merge_all' depends on axioms: [propext, Classical.choice, Quot.sound]
'Verif.Perf.parseHob_reads' depends on axioms: [propext, Classical.choice, Quot.sound]
'Verif.Perf.fetch_all' depends on axioms: [propext, Classical.choice, Quot.sound]
'Verif.Perf.addAll_adds' depends on axioms: [propext, Classical.choice, Quot.sound]
'Verif.Perf.too_long_spoils' depends on axioms: [propext]
'Verif.Perf.too_long_published' depends on axioms: [propext]
'Verif.Perf.second_report' depends on axioms: [propext, Classical.choice, Quot.sound]
'Verif.Perf.hob_size_panics' does not depend on any axioms
'Verif.Perf.fetch_never_ends' does not depend on any axioms
'Verif.Perf.fetch_too_much' does not depend on any axioms
'Verif.Perf.measure_adds' depends on axioms: [propext, Classical.choice, Quot.sound]
'Verif.Perf.id_refused' depends on axioms: [propext, Classical.choice, Quot.sound]
'Verif.Perf.id_known' depends on axioms: [propext, Classical.choice, Quot.sound]
'Verif.Perf.id_entry' depends on axioms: [propext, Classical.choice, Quot.sound]
'Verif.Perf.id_rule' depends on axioms: [propext, Classical.choice, Quot.sound]
'Verif.Perf.id_of_name' depends on axioms: [propext, Classical.choice, Quot.sound]
'Verif.Perf.id_other' depends on axioms: [propext, Classical.choice, Quot.sound]
'Verif.Perf.record_kinds' depends on axioms: [propext, Classical.choice, Quot.sound]
'Verif.Perf.known_iff' depends on axioms: [propext, Quot.sound]
'Verif.Perf.record_says' depends on axioms: [propext, Classical.choice, Quot.sound]
'Verif.Perf.record_fits' depends on axioms: [propext, Classical.choice, Quot.sound]
'Verif.Perf.loads_count' depends on axioms: [propext, Classical.choice, Quot.sound]
'Verif.Perf.start_id_taken' depends on axioms: [propext, Classical.choice, Quot.sound]
'Verif.Perf.start_id_kept' depends on axioms: [propext, Classical.choice, Quot.sound]
'Verif.Perf.refused_still_counts' depends on axioms: [propext, Classical.choice, Quot.sound]
'Verif.Perf.long_name_spoils' depends on axioms: [propext, Classical.choice, Quot.sound]
'Verif.Guid.parse_iff' depends on axioms: [propext, Classical.choice, Quot.sound]
'Verif.Guid.parse_errors' depends on axioms: [propext, Classical.choice, Quot.sound]
'Verif.Guid.parse_total' depends on axioms: [propext, Classical.choice, Quot.sound]
'Verif.Guid.display_shape' depends on axioms: [propext, Classical.choice, Quot.sound]
'Verif.Guid.parse_display' depends on axioms: [propext, Classical.choice, Quot.sound]
'Verif.Guid.display_inj' depends on axioms: [propext, Classical.choice, Quot.sound]
'Verif.Guid.fromBytes_bytes' depends on axioms: [propext, Classical.choice, Quot.sound]
'Verif.Guid.bytes_fromBytes' depends on axioms: [propext, Classical.choice, Quot.sound]
'Verif.Guid.eq_iff' depends on axioms: [propext, Classical.choice, Quot.sound]
'Verif.Guid.cmp_order' depends on axioms: [propext, Classical.choice, Quot.sound]
'Verif.Services.uninstall_refused' depends on axioms: [propext]
'Verif.Services.uninstall_closes' depends on axioms: [propext, Classical.choice, Quot.sound]
'Verif.Services.uninstall_denied' depends on axioms: [propext, Classical.choice, Quot.sound]
'Verif.Services.driver_found' depends on axioms: [propext, Classical.choice, Quot.sound]
'Verif.Services.uninstall_stops_driver' depends on axioms: [propext, Classical.choice, Quot.sound]
'Verif.Services.uninstall_gone' depends on axioms: [propext, Classical.choice, Quot.sound]
'Verif.Services.uninstall_made' depends on axioms: [propext, Classical.choice, Quot.sound]
'Verif.Services.uninstall_exact' depends on axioms: [propext, Classical.choice, Quot.sound]
'Verif.Services.uninstall_returns' depends on axioms: [propext, Classical.choice, Quot.sound]
'Verif.Services.reinstall_exact' depends on axioms: [propext, Classical.choice, Quot.sound]
'Verif.Services.reinstall_invalid' depends on axioms: [propext]
'Verif.Services.Witness.keeps_open_never_ends' depends on axioms: [propext]
'Verif.Services.Witness.gone_agent_blocks' depends on axioms: [propext, Classical.choice, Quot.sound]
'Verif.Services.open_plain' depends on axioms: [propext, Classical.choice, Quot.sound]
'Verif.Services.open_exclusive' depends on axioms: [propext, Classical.choice, Quot.sound]
'Verif.Services.handle_protocol_exact' depends on axioms: [propext, Classical.choice, Quot.sound]
'Verif.Services.close_protocol_exact' depends on axioms: [propext, Classical.choice, Quot.sound]
'Verif.Services.locate_exact' depends on axioms: [propext, Classical.choice, Quot.sound]
'Verif.Services.locate_prefix' depends on axioms: [propext, Classical.choice, Quot.sound]
'Verif.Services.locate_prefix_by_guid' depends on axioms: [propext, Classical.choice, Quot.sound]
'Verif.Services.locate_device_path_answers' depends on axioms: [propext]
'Verif.Services.path_taken_iff' depends on axioms: [propext, Classical.choice, Quot.sound]
'Verif.Services.path_taken_looks' depends on axioms: [propext, Classical.choice, Quot.sound]
'Verif.Services.paths_in_memory' depends on axioms: [propext, Classical.choice, Quot.sound]
'Verif.Services.Witness.looking_leaves_users' depends on axioms: [propext]
'Verif.Services.install_multiple_all_or_nothing' depends on axioms: [propext, Classical.choice, Quot.sound]
'Verif.Services.uninstall_multiple_all_or_nothing' depends on axioms: [propext, Classical.choice, Quot.sound]
'Verif.Services.uninstall_multiple_succeeds' depends on axioms: [propext, Classical.choice, Quot.sound]
'Verif.Services.Witness.undone_still_announced' depends on axioms: [propext]
'Verif.Services.Witness.not_restored' depends on axioms: [propext]
'Verif.Services.locate_handle_exact' depends on axioms: [propext, Classical.choice, Quot.sound]
'Verif.Services.locate_handle_retry' depends on axioms: [propext, Classical.choice, Quot.sound]
'Verif.Services.locate_handle_invalid' does not depend on any axioms
'Verif.Services.locate_handle_notify' depends on axioms: [propext, Quot.sound]
'Verif.Services.locate_handle_buffer_exact' depends on axioms: [propext, Classical.choice, Quot.sound]
'Verif.Services.locate_protocol_answers' depends on axioms: [propext, Classical.choice, Quot.sound]
'Verif.Services.locate_protocol_notify' depends on axioms: [propext, Quot.sound]
'Verif.Services.protocols_per_handle_exact' depends on axioms: [propext, Classical.choice, Quot.sound]
'Verif.Services.open_information_exact' depends on axioms: [propext, Quot.sound]
'Verif.Services.Witness.asked_twice_lost' depends on axioms: [propext]
'Verif.Services.Witness.locate_gone_panics' depends on axioms: [propext]
'Verif.Services.Witness.locate_other_panics' depends on axioms: [propext]
'Verif.Fv.block_describes' depends on axioms: [propext]
'Verif.Fv.block_refused' depends on axioms: [propext]
'Verif.Fv.block_beyond' depends on axioms: [propext, Classical.choice, Quot.sound]
'Verif.Fv.block_read_partial' depends on axioms: [propext, Classical.choice, Quot.sound]
'Verif.Fv.block_read_bounded' depends on axioms: [propext, Quot.sound]
'Verif.Fv.block_size_swapped' depends on axioms: [propext, Quot.sound]
'Verif.Fv.first_block_size_zero' depends on axioms: [propext, Quot.sound]
'Verif.Fv.read_behind_block' depends on axioms: [propext, Quot.sound]
'Verif.Fv.read_wrong_place' depends on axioms: [propext, Quot.sound]
'Verif.Fv.ends_of_drain' depends on axioms: [propext, Quot.sound]
'Verif.Fv.nth_begins' depends on axioms: [propext, Quot.sound]
'Verif.Fv.nth_ends' depends on axioms: [propext, Quot.sound]
'Verif.Fv.find_named' depends on axioms: [propext, Classical.choice, Quot.sound]
'Verif.Fv.find_error' depends on axioms: [propext, Classical.choice, Quot.sound]
'Verif.Fv.find_none' depends on axioms: [propext, Classical.choice, Quot.sound]
'Verif.Fv.read_file_found' depends on axioms: [propext, Classical.choice, Quot.sound]
'Verif.Fv.read_file_retry' depends on axioms: [propext, Classical.choice, Quot.sound]
'Verif.Fv.read_file_missing' depends on axioms: [propext, Classical.choice, Quot.sound]
'Verif.Fv.next_file_exact' depends on axioms: [propext, Quot.sound]
'Verif.Fv.enumerate_exact' depends on axioms: [propext, Quot.sound]
'Verif.Fv.enumerate_damaged' depends on axioms: [propext, Quot.sound]
'Verif.Fv.listed_named' depends on axioms: [propext, Classical.choice, Quot.sound]
'Verif.Fv.read_refused' depends on axioms: [propext, Quot.sound]
'Verif.Fv.built_volume_read' depends on axioms: [propext, Classical.choice, Quot.sound]
'Verif.Fv.file_attributes' depends on axioms: [propext, Quot.sound]
'Verif.Fv.sizes_differ' depends on axioms: [propext, Quot.sound]
'Verif.Fv.read_section_partial' depends on axioms: [propext, Classical.choice, Quot.sound]
'Verif.Fv.read_section_sound' depends on axioms: [propext, Classical.choice, Quot.sound]
'Verif.Fv.deliver_section' depends on axioms: [propext, Quot.sound]
'Verif.Fv.top_sections_listed' depends on axioms: [propext]
'Verif.Fv.read_section_damaged' depends on axioms: [propext, Quot.sound]
'Verif.Fv.read_section_garbage' depends on axioms: [propext, Quot.sound]
'Verif.Fv.withExtractor_eq' depends on axioms: [propext, Classical.choice, Quot.sound]
'Verif.Fv.larger_buffer_panics' depends on axioms: [propext]
'Verif.Fv.Witness.nested_missed' depends on axioms: [propext, Quot.sound]
'Verif.Fv.install_serves' depends on axioms: [propext, Classical.choice, Quot.sound]
'Verif.Fv.install_exact' depends on axioms: [propext, Classical.choice, Quot.sound]
'Verif.Fv.install_refused' depends on axioms: [propext]
'Verif.Fv.install_keeps' depends on axioms: [propext, Classical.choice, Quot.sound]
'Verif.Fv.volumePath_ok' depends on axioms: [propext, Quot.sound]
'Verif.Fv.volumePath_of_open' depends on axioms: [propext, Quot.sound]
'Verif.Fv.serves_answers' depends on axioms: [propext]
'Verif.Fv.file_path' depends on axioms: [propext, Classical.choice, Quot.sound]
'Verif.Fv.file_paths_differ' depends on axioms: [propext, Classical.choice, Quot.sound]
'Verif.Fv.hobs_installed' depends on axioms: [propext, Classical.choice, Quot.sound]
'Verif.Fv.damaged_hob_stops' depends on axioms: [propext]
'Verif.Fv.mmap_end_behind' depends on axioms: [propext, Classical.choice, Quot.sound]
'Verif.Variable.get_variable_value' depends on axioms: [propext, Classical.choice, Quot.sound]
'Verif.Variable.get_variable_exact_partial' depends on axioms: [propext, Classical.choice, Quot.sound]
'Verif.Variable.get_variable_absent' depends on axioms: [propext, Quot.sound]
'Verif.Variable.size_and_attributes' depends on axioms: [propext, Quot.sound]
'Verif.Variable.set_then_get' depends on axioms: [propext, Classical.choice, Quot.sound]
'Verif.Variable.unterminated_refused' depends on axioms: [propext, Quot.sound]
'Verif.Variable.set_reports' depends on axioms: [propext, Quot.sound]
'Verif.Variable.query_reports' depends on axioms: [propext]
'Verif.Variable.get_variable_large_hint' depends on axioms: [propext, Classical.choice, Quot.sound]
'Verif.Variable.get_variable_raced' depends on axioms: [propext, Quot.sound]
'Verif.Variable.Witness.reference_has' depends on axioms: [propext, Quot.sound]
'Verif.Variable.Witness.reference_sets' depends on axioms: [propext, Quot.sound]
'Verif.Variable.get_variable_error' depends on axioms: [propext, Quot.sound]
'Verif.Variable.iterator_lists' depends on axioms: [propext, Quot.sound]
'Verif.Variable.iterator_from_first_partial' depends on axioms: [propext, Quot.sound]
'Verif.Variable.iterator_from_variable_partial' depends on axioms: [propext, Quot.sound]
'Verif.Variable.next_call' depends on axioms: [propext, Quot.sound]
'Verif.Variable.next_in_bounds' depends on axioms: [propext, Quot.sound]
'Verif.Variable.next_passed_on' depends on axioms: [propext, Quot.sound]
'Verif.Variable.next_exact_refused' depends on axioms: [propext, Quot.sound]
'Verif.Variable.iterator_refused' depends on axioms: [propext, Quot.sound]
'Verif.Stack.X64.find_function' depends on axioms: [propext, Classical.choice, Quot.sound]
'Verif.Stack.X64.find_function_none' depends on axioms: [propext, Classical.choice, Quot.sound]
'Verif.Stack.X64.cut_table_panics' depends on axioms: [propext, Classical.choice, Quot.sound]
'Verif.Stack.X64.offset_codes' depends on axioms: [propext, Classical.choice, Quot.sound]
'Verif.Stack.X64.parse_record' depends on axioms: [propext, Quot.sound]
'Verif.Stack.X64.caller_computed' depends on axioms: [propext, Classical.choice, Quot.sound]
'Verif.Stack.X64.frame_partial' depends on axioms: [propext, Classical.choice, Quot.sound]
'Verif.Stack.X64.first_byte_misattributed' depends on axioms: [propext, Classical.choice, Quot.sound]
'Verif.Stack.X64.prologue_off' depends on axioms: [propext, Classical.choice, Quot.sound]
'Verif.Stack.X64.alloca_off' depends on axioms: [propext, Classical.choice, Quot.sound]
'Verif.Stack.X64.xmm_counted' depends on axioms: [propext, Classical.choice, Quot.sound]
'Verif.Stack.X64.xmm_wrong' depends on axioms: [propext, Classical.choice, Quot.sound]
'Verif.Stack.X64.machine_frame_ignored' depends on axioms: [propext, Classical.choice, Quot.sound]
'Verif.Stack.X64.unknown_panics' depends on axioms: [propext, Quot.sound]
'Verif.Stack.X64.outside_panics' depends on axioms: [propext, Quot.sound]
'Verif.Stack.X64.last_refused' depends on axioms: [propext, Classical.choice, Quot.sound]
'Verif.Stack.X64.chained_ignored' depends on axioms: [propext, Classical.choice, Quot.sound]
'Verif.Stack.Witness.x64_active1' depends on axioms: [propext, Quot.sound]
'Verif.Stack.Witness.x64_active2' depends on axioms: [propext, Quot.sound]
'Verif.Stack.A64.find_function' depends on axioms: [propext, Classical.choice, Quot.sound]
'Verif.Stack.A64.loop_codes' depends on axioms: [propext, Quot.sound]
'Verif.Stack.A64.parse_record' depends on axioms: [propext, Quot.sound]
'Verif.Stack.A64.parse_packed' depends on axioms: [propext, Quot.sound]
'Verif.Stack.A64.packed_computed' depends on axioms: [propext, Quot.sound]
'Verif.Stack.A64.record_computed' depends on axioms: [propext, Quot.sound]
'Verif.Stack.A64.frame_partial' depends on axioms: [propext, Classical.choice, Quot.sound]
'Verif.Stack.A64.loop_ends' depends on axioms: [propext, Quot.sound]
'Verif.Stack.A64.unknown_hangs' depends on axioms: [propext, Quot.sound]
'Verif.Stack.A64.fplr_x_misread' depends on axioms: [propext, Quot.sound]
'Verif.Stack.A64.lr_missed' depends on axioms: [propext, Quot.sound]
'Verif.Stack.A64.fregp_x_missed' depends on axioms: [propext, Quot.sound]
'Verif.Stack.A64.freg_x_odd' depends on axioms: [propext, Quot.sound]
'Verif.Stack.A64.packed_lr_misread' depends on axioms: [propext, Quot.sound]
'Verif.Stack.A64.cut_off_panics' depends on axioms: [propext, Quot.sound]
'Verif.Stack.Witness.a64_active1' depends on axioms: [propext, Quot.sound]
'Verif.Stack.Witness.a64_active2' depends on axioms: [propext, Quot.sound]
'Verif.Stack.locate_around' depends on axioms: [propext, Quot.sound]
'Verif.Stack.locate_sound' depends on axioms: [propext, Quot.sound]
'Verif.Stack.imageAt_named' depends on axioms: [propext, Quot.sound]
'Verif.Stack.locate_beyond' depends on axioms: [propext, Quot.sound]
'Verif.Stack.locate_stopped' depends on axioms: [propext, Quot.sound]
'Verif.Stack.tableSlice_ok' depends on axioms: [propext, Classical.choice, Quot.sound]
'Verif.Stack.table_missing' depends on axioms: [propext, Quot.sound]
'Verif.Stack.X64.trace_partial' depends on axioms: [propext, Classical.choice, Quot.sound]
'Verif.Stack.X64.trace_truncated' depends on axioms: [propext, Classical.choice, Quot.sound]
'Verif.Stack.A64.trace_partial' depends on axioms: [propext, Classical.choice, Quot.sound]
'Verif.Stack.A64.trace_truncated' depends on axioms: [propext, Classical.choice, Quot.sound]
'Verif.Stack.dump_lines' depends on axioms: [propext, Quot.sound]
'Verif.Stack.Witness.x64_calls' depends on axioms: [propext, Quot.sound]
'Verif.Stack.Witness.a64_calls' depends on axioms: [propext, Quot.sound]
'Verif.Stack.Witness.deep_calls' depends on axioms: [propext, Quot.sound]
'Verif.Pages.step_owner' depends on axioms: [propext, Classical.choice, Quot.sound]
'Verif.Pages.run_owner' depends on axioms: [propext, Classical.choice, Quot.sound]
'Verif.Pages.run_apart' depends on axioms: [propext, Classical.choice, Quot.sound]
'Verif.Pages.run_keeps' depends on axioms: [propext, Classical.choice, Quot.sound]
'Verif.Pages.run_no_leak' depends on axioms: [propext, Classical.choice, Quot.sound]
'Verif.Pages.lost_iff' depends on axioms: [propext, Quot.sound]
'Verif.Pages.held_apart' depends on axioms: [propext, Quot.sound]
'Verif.Pages.free_owned' depends on axioms: [propext, Classical.choice, Quot.sound]
'Verif.Pages.allocate_gives' depends on axioms: [propext, Quot.sound]
'Verif.Pages.into_box' depends on axioms: [propext, Classical.choice, Quot.sound]
'Verif.Pages.into_boxed_slice' depends on axioms: [propext, Classical.choice, Quot.sound]
'Verif.Pages.into_raw_ptr' depends on axioms: [propext, Classical.choice, Quot.sound]
'Verif.Pages.pointer_aligned' depends on axioms: [propext, Quot.sound]
'Verif.Pages.drop_frees' depends on axioms: [propext, Classical.choice, Quot.sound]
'Verif.Pages.free_refused' depends on axioms: [propext]
'Verif.Pages.step_panic' depends on axioms: [propext, Classical.choice, Quot.sound]
'Verif.Pages.bump_contract' depends on axioms: [propext, Classical.choice, Quot.sound]
'Verif.Pages.empty_box_leaks' depends on axioms: [propext]
'Verif.Pages.empty_box_lost' depends on axioms: [propext, Classical.choice, Quot.sound]
'Verif.Pages.large_alignment_ignored' depends on axioms: [propext]
'Verif.Pages.manager_allocates' depends on axioms: [propext, Classical.choice, Quot.sound]
'Verif.Pages.manager_keeps' depends on axioms: [propext, Classical.choice, Quot.sound]
'Verif.Pages.manager_refuses' depends on axioms: [propext, Classical.choice, Quot.sound]
'Verif.Pages.manager_frees' depends on axioms: [propext, Classical.choice, Quot.sound]
'Verif.Pages.manager_free_refuses' depends on axioms: [propext, Classical.choice, Quot.sound]
'Verif.Pages.alignment_not_ignored' depends on axioms: [propext]
'Verif.Interrupt.register_ok' depends on axioms: [propext, Quot.sound]
'Verif.Interrupt.register_effect' depends on axioms: [propext, Quot.sound]
'Verif.Interrupt.register_refused' depends on axioms: [propext, Quot.sound]
'Verif.Interrupt.unregister_ok' depends on axioms: [propext, Quot.sound]
'Verif.Interrupt.unregister_effect' depends on axioms: [propext, Quot.sound]
'Verif.Interrupt.unregister_refused' depends on axioms: [propext, Quot.sound]
'Verif.Interrupt.raise_calls' depends on axioms: [propext]
'Verif.Interrupt.service_spec' depends on axioms: [propext, Quot.sound]
'Verif.Interrupt.registered_called' depends on axioms: [propext, Classical.choice, Quot.sound]
'Verif.Interrupt.routed_iff' depends on axioms: [propext, Quot.sound]
'Verif.Interrupt.deliver_calls_partial' depends on axioms: [propext, Quot.sound]
'Verif.Interrupt.unrouted_not_called' depends on axioms: [propext, Classical.choice, Quot.sound]
'Verif.Interrupt.machine_check_lost' depends on axioms: [propext, Quot.sound]
'Verif.Interrupt.page_fault_taken' depends on axioms: [propext, Quot.sound]
'Verif.Interrupt.serror_has_no_handler' depends on axioms: [propext, Quot.sound]
'Verif.Interrupt.self_removal_hangs' depends on axioms: [propext, Quot.sound]
'Verif.Interrupt.intid_private' depends on axioms: [propext, Quot.sound]
'Verif.Interrupt.register_source_partial' depends on axioms: [propext, Quot.sound]
'Verif.Interrupt.unregister_source_partial' depends on axioms: [propext, Quot.sound]
'Verif.Interrupt.register_source_refused' depends on axioms: [propext]
'Verif.Interrupt.enable_source_partial' depends on axioms: [propext, Quot.sound]
'Verif.Interrupt.source_state_partial' depends on axioms: [propext, Quot.sound]
'Verif.Interrupt.set_trigger_partial' depends on axioms: [propext, Quot.sound]
'Verif.Interrupt.end_source_partial' depends on axioms: [propext, Quot.sound]
'Verif.Interrupt.interrupt_calls' depends on axioms: [propext, Quot.sound]
'Verif.Interrupt.interrupt_unhandled' depends on axioms: [propext, Quot.sound]
'Verif.Interrupt.signalled_called' depends on axioms: [propext, Classical.choice, Quot.sound]
'Verif.Interrupt.shared_enables_other' depends on axioms: [propext, Classical.choice, Quot.sound]
'Verif.Interrupt.shared_state' depends on axioms: [propext, Quot.sound]
'Verif.Interrupt.shared_not_ended' depends on axioms: [propext, Classical.choice, Quot.sound]
'Verif.Interrupt.failed_register_registers' depends on axioms: [propext, Quot.sound]
'Verif.Interrupt.last_refused' depends on axioms: [propext]
'Verif.Interrupt.last_not_ended' depends on axioms: [propext]
'Verif.Interrupt.trigger_read' depends on axioms: [propext, Quot.sound]
'Verif.Interrupt.register_in_handler' depends on axioms: [propext]
'Verif.Interrupt.device_interrupt_lost' depends on axioms: [propext]
'Verif.Interrupt.trigger_misread' does not depend on any axioms
'Verif.Entry.X64.handler_sees_partial' depends on axioms: [propext, Quot.sound]
'Verif.Entry.X64.program_resumes_partial' depends on axioms: [propext, Quot.sound]
'Verif.Entry.X64.unnoticed_partial' depends on axioms: [propext, Quot.sound]
'Verif.Entry.X64.noCode_iff' depends on axioms: [propext, Quot.sound]
'Verif.Entry.X64.shifted_frame' depends on axioms: [propext, Quot.sound]
'Verif.Entry.X64.shifted_vectors' depends on axioms: [propext, Quot.sound]
'Verif.Entry.X64.cr4_changed' depends on axioms: [propext, Quot.sound]
'Verif.Entry.A64.handler_sees_partial' depends on axioms: [propext, Quot.sound]
'Verif.Entry.A64.program_resumes' depends on axioms: [propext, Classical.choice, Quot.sound]
'Verif.Entry.A64.unnoticed' depends on axioms: [propext, Classical.choice, Quot.sound]
'Verif.Entry.A64.interrupted_called' depends on axioms: [propext, Quot.sound]
'Verif.Entry.A64.sp0_misreported' depends on axioms: [propext, Quot.sound]
'Verif.Debugger.read_right_partial' depends on axioms: [propext, Classical.choice, Quot.sound]
'Verif.Debugger.write_right_partial' depends on axioms: [propext, Classical.choice, Quot.sound]
'Verif.Debugger.write_refused' depends on axioms: [propext, Quot.sound]
'Verif.Debugger.checkPagingRange_spec' depends on axioms: [propext, Classical.choice, Quot.sound]
'Verif.Debugger.poke_iff' depends on axioms: [propext, Quot.sound]
'Verif.Debugger.last_bytes_refused' depends on axioms: [propext, Classical.choice, Quot.sound]
'Verif.Debugger.read_hole_crashes' depends on axioms: [propext, Classical.choice, Quot.sound]
'Verif.Debugger.second_page_lost' depends on axioms: [propext, Classical.choice, Quot.sound]
'Verif.Debugger.large_page_crashes' depends on axioms: [propext, Classical.choice, Quot.sound]
'Verif.Debugger.top_write_lost' depends on axioms: [propext, Classical.choice, Quot.sound]
'Verif.Debugger.empty_read_panics' depends on axioms: [propext, Quot.sound]
'Verif.Debugger.memory_with_breakpoints_partial' depends on axioms: [propext, Classical.choice, Quot.sound]
'Verif.Debugger.removed_breakpoints_leave_nothing_partial' depends on axioms: [propext, Classical.choice, Quot.sound]
'Verif.Debugger.removed_breakpoint_restores_partial' depends on axioms: [propext, Classical.choice, Quot.sound]
'Verif.Debugger.add_breakpoint_right_partial' depends on axioms: [propext, Classical.choice, Quot.sound]
'Verif.Debugger.slots_length' depends on axioms: [propext, Classical.choice, Quot.sound]
'Verif.Debugger.set_twice_stays' depends on axioms: [propext, Classical.choice, Quot.sound]
'Verif.Debugger.x64_shown_partial' depends on axioms: [propext, Classical.choice, Quot.sound]
'Verif.Debugger.x64_written' depends on axioms: [propext, Classical.choice, Quot.sound]
'Verif.Debugger.x64_short_refused' depends on axioms: [propext, Quot.sound]
'Verif.Debugger.a64_shown' depends on axioms: [propext, Classical.choice, Quot.sound]
'Verif.Debugger.a64_written' depends on axioms: [propext, Quot.sound]
'Verif.Debugger.a64_short_refused' depends on axioms: [propext, Quot.sound]
'Verif.Debugger.a64_edit_right' depends on axioms: [propext, Classical.choice, Quot.sound]
'Verif.Debugger.x64_segments_misread' depends on axioms: [propext, Classical.choice, Quot.sound]
'Verif.Debugger.x64_edit_ruins' depends on axioms: [propext, Classical.choice, Quot.sound]
'Verif.Debugger.x64_watched_partial' depends on axioms: [propext, Classical.choice, Quot.sound]
'Verif.Debugger.x64_results' depends on axioms: [propext, Classical.choice, Quot.sound]
'Verif.Debugger.a64_watched_partial' depends on axioms: [propext, Classical.choice, Quot.sound]
'Verif.Debugger.a64_results' depends on axioms: [propext, Quot.sound]
'Verif.Debugger.x64_four_watches_eight' depends on axioms: [propext, Classical.choice, Quot.sound]
'Verif.Debugger.x64_eight_watches_four' depends on axioms: [propext, Classical.choice, Quot.sound]
'Verif.Debugger.x64_second_lost' depends on axioms: [propext, Quot.sound]
'Verif.Debugger.a64_unaligned_misplaced' depends on axioms: [propext, Classical.choice, Quot.sound]
'Verif.Debugger.a64_eight_at_four' depends on axioms: [propext, Quot.sound]
