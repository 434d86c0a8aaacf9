unexpected: /tmp/tmp.s1qCLDbizH/a.lean:340:14: error(lean.unknownIdentifier): Unknown constant `PE.C81_accessors`
unexpected: /tmp/tmp.s1qCLDbizH/a.lean:341:14: error(lean.unknownIdentifier): Unknown constant `PE.C81_export_flags`
unexpected: /tmp/tmp.s1qCLDbizH/a.lean:342:14: error(lean.unknownIdentifier): Unknown constant `PE.C81_last_set`
unexpected: /tmp/tmp.s1qCLDbizH/a.lean:343:14: error(lean.unknownIdentifier): Unknown constant `PE.C81_minor_version`
# Axioms the theorems of MANIFEST.json depend on

Generated by tools/mk_axioms.sh (`#print axioms`).

## none

6 theorems: `C71_os_type`, `C71_unknown_ignored`, `C75_set_frame`, `C77_self_assignment`, `C78_leak`, `C78_self_assignment`

## propext

58 theorems: `C02_mapped_view_is_stale_after_resize`, `C05_rva_to_va_64_unchecked`, `C06_wrapping_section_not_found`, `C09_section_length_unsafe_above_2gb`, `C10_wrap_overlaps`, `C11_recalculate_leaves_size_behind`, `C12_count_above_16_is_ub`, `C12_exists_but_get_throws`, `C13_one_entry_too_few`, `C18_added_section_overread`, `C18_many_dirs_overread`, `C26_overlap_not_inverse`, `C29_table_at_end`, `C33_duplicates`, `C39_overread`, `C42_missing`, `C43_callbacks_overrun`, `C43_refuses`, `C43_short_data`, `C43_virtual_lost`, `C43_zero_fill_lost`, `C52_expand_shrinks`, `C58_counters_stale`, `C60_overread`, `C61_empty_group`, `C62_shared_images`, `C74_created`, `C74_headers_too_long`, `C75_set_get`, `C75_subsystem`, `C76_wrapped_address`, `C80_add_own_data`, `C80_add_own_dir`, `C80_assign_child`, `C80_assign_parent`, `C80_push_own_element`, `C83_no_resize`, `C83_stale_pointer`, `C83_stale_view`, `C85_bound_case`, `C85_config_case`, `C85_imports_case`, `C85_rebase_case`, `C85_rebuild_pe`, `C85_strip_case`, `C85_tls_case`, `C85_void_case`, `C86_bad`, `C86_elsewhere_case`, `C86_hang_case`, `C86_mask_case`, `C86_silent_case`, `C86_tail_case`, `C87_half_removed`, `C92_attached_iff`, `C95_bound_lost`, `C96_short_data_overread`, `C97_none_left`

## Quot.sound, propext

124 theorems: `C02_raw_data_unchanged`, `C02_virtual_is_raw_then_zeros`, `C03_name`, `C03_name_round_trip`, `C05_rva_to_va_64_partial`, `C08_read_is_safe`, `C09_length_is_safe`, `C11_fresh_image_too_small`, `C12_exists_then_get_partial`, `C12_remove`, `C12_remove_flags`, `C12_set_get`, `C15_first_unaligned`, `C15_sizeImage_unaligned`, `C15_wrap_accepted`, `C18_stale_pointer_shifts_data`, `C26_type_ignored`, `C27_empty_list`, `C27_end_of_section`, `C27_unnamed_forward`, `C27_zero_rva`, `C28_binary_search`, `C28_duplicates`, `C29_cuts_data`, `C29_fill_without_build`, `C29_ordinal_without_original`, `C29_zero_iat_value`, `C30_name_overread`, `C31_empty_at_end`, `C31_long_id`, `C32_overflow`, `C33_add_then_get`, `C33_add_throws`, `C34_remove_language`, `C34_remove_name`, `C34_remove_throws`, `C34_remove_type`, `C35_after_last`, `C35_collision`, `C35_first`, `C35_hang`, `C35_lowest_free`, `C35_wide_collision`, `C38_at`, `C38_identity`, `C38_short`, `C39_safe_partial`, `C40_at`, `C40_lookup`, `C41_zero_in_name`, `C42_get_after_set`, `C42_other_names`, `C42_other_tables`, `C43_recalculated`, `C44_no_terminator`, `C44_stripped_unreadable`, `C45_stripped_unreadable`, `C48_no_marker_overread`, `C48_safe_partial`, `C48_short`, `C55_list_agrees`, `C56_limits`, `C56_name_exists`, `C56_ordinal_exists`, `C58_add_ok`, `C59_index`, `C59_languages`, `C59_resources`, `C59_types`, `C60_read_groups`, `C60_single_cursor_partial`, `C60_single_icon`, `C63_hang`, `C63_over_read`, `C63_over_read_translation`, `C64_upper_case`, `C65_remove`, `C66_aux_as_symbol`, `C66_file_name_wrong`, `C66_strict_stream`, `C70_empty_table`, `C72_not_managed`, `C76_read_safe`, `C77_safe`, `C77_values`, `C78_no_leak`, `C78_values`, `C79_debug_masked`, `C79_debug_moves`, `C79_ended_stream`, `C79_failed_stream`, `C79_short`, `C79_short_masked`, `C79_truncated`, `C82_fill_overread`, `C83_loaded`, `C83_raw_then_resize`, `C84_checksum_short`, `C84_file_size`, `C85_expand_partial`, `C85_no_place`, `C85_no_place_case`, `C85_rebase`, `C85_rebase_prefix`, `C85_rebuild_pe_all`, `C85_resource_case`, `C85_same_edit`, `C85_same_rebuild`, `C85_strong`, `C86_exceptions`, `C87_orphan_images`, `C88_any_order`, `C88_commute`, `C88_independent`, `C88_tls_elsewhere`, `C91_count_above_16`, `C92_refused`, `C93_created`, `C94_limits`, `C94_save`, `C95_reopen_short`, `C98_names_lost`, `C99_missed`, `C99_spurious`

## Classical.choice, Quot.sound, propext

283 theorems: `C01_align_down`, `C01_align_up`, `C01_align_up_size_t`, `C01_align_up_wraps`, `C01_is_power_of_2`, `C02_virtual_length`, `C04_last_setter_wins`, `C04_other_bits_unchanged`, `C05_round_trip`, `C05_round_trip'`, `C05_rva_to_va_32`, `C05_va_to_rva`, `C06_section_lookup`, `C06_unique`, `C07_offset_rva_offset`, `C07_rva_offset_rva`, `C08_read_value`, `C09_section_length_is_safe_partial`, `C10_add_section_succeeds_iff`, `C10_add_sections_partial`, `C11_add_section_partial`, `C11_set_section_virtual_size`, `C11_update_image_size`, `C13_strip_partial`, `C14_factory_safe`, `C14_load_safe`, `C15_headers_partial`, `C15_sections_partial`, `C15_valid_table_partial`, `C16_headers`, `C16_sections`, `C16_zero_vsize_loses_data`, `C17_headers`, `C17_layout`, `C18_bound`, `C18_completes`, `C18_completes_iff`, `C18_completes_unsaved`, `C18_data_partial`, `C18_headers`, `C19_loaded_saveable`, `C19_save_load`, `C20_field_independent`, `C21_checksum_total`, `C21_checksum_value`, `C22_single_word_change`, `C23_item_round_trip`, `C24_absolute_filter`, `C24_blocks`, `C24_safe`, `C25_empty_list_unreadable`, `C25_round_trip_partial`, `C26_completes_partial`, `C26_frame_partial`, `C26_inverse_partial`, `C26_loaded_partial`, `C26_safe_partial`, `C26_value_partial`, `C26_wrapped_file`, `C27_round_trip_partial`, `C28_names_sorted`, `C29_round_trip_partial`, `C29_settings_partial`, `C30_safe_partial`, `C30_terminates`, `C31_round_trip_partial`, `C32_in_bounds_partial`, `C34_add_keeps`, `C34_add_keeps_directories`, `C35_fresh_partial`, `C36_add_more`, `C36_add_new`, `C36_file`, `C36_refused`, `C37_add_more_partial`, `C37_add_new_partial`, `C37_description`, `C37_file`, `C37_height`, `C37_same_description`, `C38_round_trip`, `C39_numbers`, `C39_sound`, `C39_string_at`, `C39_string_by_id`, `C40_complete`, `C40_last_number`, `C40_safe`, `C40_small_table`, `C40_sound`, `C41_format`, `C41_others_unchanged`, `C41_reads_format`, `C41_round_trip`, `C41_set_succeeds`, `C41_size`, `C41_too_large_is_lost`, `C42_sorted`, `C42_translations`, `C43_round_trip_partial`, `C44_round_trip_partial`, `C45_round_trip_partial`, `C45_tables_kept`, `C46_complete`, `C46_entries`, `C46_safe`, `C47_safe_partial`, `C47_short_misc`, `C48_exact_partial`, `C49_set_file_alignment`, `C50_entropy_bounds`, `C50_entropy_image`, `C50_entropy_perm`, `C50_entropy_section`, `C50_entropy_stream`, `C50_entropy_zero_iff`, `C51_config_safe`, `C52_expand_raw_partial`, `C52_expand_virtual_partial`, `C53_realign_file`, `C54_bound_safe`, `C55_exports_safe`, `C55_list_safe`, `C57_imports_safe`, `C58_added_is_stored`, `C58_same_lookup`, `C60_add`, `C61_found`, `C61_single`, `C62_other_groups`, `C62_remove_group`, `C63_reading_at_safe_partial`, `C63_reading_safe_partial`, `C64_add`, `C64_add_remove`, `C64_default_language`, `C64_ids_16bit`, `C64_list`, `C64_parse`, `C64_remove`, `C64_string_round_trip`, `C64_strings_differ`, `C64_text`, `C65_writer_bounds`, `C66_codeview_lost`, `C66_coff_partial`, `C66_end_of_image`, `C66_entries`, `C66_guid_eq`, `C66_present`, `C66_raw_data`, `C66_reads_partial`, `C66_understood_partial`, `C67_stale_addresses`, `C67_tls_contents`, `C67_tls_safe`, `C68_saved_directories`, `C69_bound_partial`, `C69_config_partial`, `C69_exports_partial`, `C69_import_settings_partial`, `C69_imports_partial`, `C69_relocations_partial`, `C69_resources_partial`, `C69_tls_partial`, `C70_absent`, `C70_removed`, `C71_flags`, `C71_string`, `C71_string_injective`, `C71_version_strings`, `C72_contents`, `C72_flags`, `C72_safe`, `C73_factory`, `C73_kind`, `C73_one_kind`, `C73_reopens`, `C74_from_scratch`, `C75_flags`, `C75_loaded`, `C75_low_half`, `C75_number_of_directories`, `C75_saved`, `C76_by_address`, `C76_elsewhere`, `C76_in_section`, `C76_named_section`, `C76_section_and_offset`, `C76_section_of_directory`, `C79_create`, `C79_embedded`, `C79_exception_partial`, `C79_factory`, `C79_load`, `C79_position`, `C79_success`, `C79_success_debug_partial`, `C79_type_success`, `C80_no_leak`, `C80_self_assignment`, `C80_values`, `C82_rich_set`, `C82_rich_stripped`, `C82_shorter`, `C82_strip_fill`, `C82_stub_saved`, `C83_ask`, `C83_change`, `C83_client`, `C83_independent`, `C83_reader`, `C83_relocations`, `C84_checksum_elsewhere`, `C84_checksum_partial`, `C84_checksum_signature`, `C84_checksum_unaligned`, `C84_entropy`, `C84_entropy_behind`, `C84_entropy_not_good`, `C85_converting_partial`, `C85_imports_partial`, `C85_imports_rewrite`, `C85_leaves_data`, `C85_rebuild_partial`, `C85_recalculate_partial`, `C86_complete_partial`, `C86_elsewhere`, `C86_saves_partial`, `C87_add`, `C87_add_orphans`, `C87_add_partial`, `C87_bitmap_version`, `C87_manager`, `C87_remove`, `C87_remove_partial`, `C88_all_read_partial`, `C89_last_section`, `C89_realign_raw_partial`, `C89_realign_reads`, `C89_workflow_partial`, `C90_imports_cut`, `C90_room_partial`, `C90_shared_partial`, `C90_tls_partial`, `C90_tls_room_partial`, `C90_tls_workflow_partial`, `C90_workflow_partial`, `C91_debug_partial`, `C91_frame`, `C91_headers`, `C91_origin_below`, `C91_readers_safe`, `C91_resources_partial`, `C91_sections`, `C92_added`, `C92_stays`, `C93_loaded`, `C94_bound`, `C94_config`, `C94_exports`, `C94_exports_empty`, `C94_history_partial`, `C94_imports`, `C94_relocations`, `C94_safe_partial`, `C94_tls`, `C95_again_partial`, `C95_checksum_partial`, `C95_reopen_partial`, `C95_stamp`, `C96_copy`, `C96_file_partial`, `C96_reads`, `C97_file_partial`, `C97_strip_reads`, `C98_kept_partial`, `C98_saved_partial`, `C99_appended`, `C99_dropped`, `C99_no_sections`, `C99_overlay_partial`, `C99_saved_partial`

