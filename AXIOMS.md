# Axioms of the theorems in MANIFEST.json

## Depends on axioms: [propext, Classical.choice, Quot.sound]

* `Clr.Args.C55_have_iff`
* `Clr.Attr.C46_collision_partial`
* `Clr.Attr.C46_well_formed_partial`
* `Clr.Attr.C47_trailing_comma_negation`
* `Clr.BinDB.C13_binary_roundtrip_partial`
* `Clr.BinDB.C13_long_text_cut`
* `Clr.Buffer.C25_contents_partial`
* `Clr.Buffer.C25_writes_concatenate_partial`
* `Clr.Buffer.C26_reads_back_what_was_written`
* `Clr.Buffer.C26_seek_underflow_reads_outside`
* `Clr.Build.C74_asserts`
* `Clr.Build.C74_first_class`
* `Clr.Build.C74_first_primitive`
* `Clr.Build.C74_inheritance_kept`
* `Clr.Build.C74_last_counts`
* `Clr.Build.C74_names`
* `Clr.Build.C74_saved_and_read`
* `Clr.Build.C74_sizes`
* `Clr.Build.C74_tables`
* `Clr.CArray.C24_deep_copy`
* `Clr.CArray.C24_stable_remove`
* `Clr.Call.C79_cdecl_partial`
* `Clr.Call.C79_reads_behind_object_undefined`
* `Clr.Call.C79_thiscall_partial`
* `Clr.Export.C17_alias_negation`
* `Clr.Export.C17_attribute_arrays_partial`
* `Clr.Export.C17_back_pointers_partial`
* `Clr.Export.C17_export_succeeds`
* `Clr.Export.C17_return_value`
* `Clr.Export.C17_scope_arrays_partial`
* `Clr.Export.C18_children_found`
* `Clr.Export.C18_global_namespace`
* `Clr.Export.C18_tables_sorted_partial`
* `Clr.Export.C18_types_found`
* `Clr.Export.C19_class_flags_partial`
* `Clr.Export.C19_flags_partial`
* `Clr.Export.C20_global_function_negation`
* `Clr.Export.C20_no_dangling_types_partial`
* `Clr.Export.C20_nothing_else_dropped`
* `Clr.Export.C59_base_types`
* `Clr.Export.C88_class_constructors`
* `Clr.Export.C88_containers_partial`
* `Clr.Export.C88_function_parents`
* `Clr.Export.C88_iterators_partial`
* `Clr.Export.C88_no_other_constructors`
* `Clr.Export.C88_template_type_constructors`
* `Clr.ExportLog.C92_text_log_partial`
* `Clr.ExportLog.C92_unwritable`
* `Clr.FileUtils.C10_decimal_large_wrong`
* `Clr.FileUtils.C10_decimal_reads`
* `Clr.FileUtils.C10_decimal_roundtrip_msvc`
* `Clr.FileUtils.C10_decimal_roundtrip_partial`
* `Clr.FileUtils.C52_remove_leaves_none`
* `Clr.FileUtils.C52_replace_all`
* `Clr.FileUtils.C53_long_token_writes_outside`
* `Clr.FileUtils.C53_parameter_token_partial`
* `Clr.FileUtils.C53_token_exact_partial`
* `Clr.Gen.C50_declared_partial`
* `Clr.Gen.C50_namespaces_partial`
* `Clr.Gen.C51_interrupted_early_partial`
* `Clr.Gen.C71_call_partial`
* `Clr.Gen.C71_getHash_partial`
* `Clr.Gen.C71_getType_partial`
* `Clr.Gen.C71_in_array_partial`
* `Clr.Gen.C71_typeHash_partial`
* `Clr.Hash.C03_mix_injective_left`
* `Clr.Hash.C03_overloads`
* `Clr.Hash.C03_uniqueId_differs_in_one_parameter`
* `Clr.Hash.C04_no_collision_within_one_block`
* `Clr.Hash.C04_short_names_never_collide`
* `Clr.Image.C84_child_lookup`
* `Clr.Image.C84_entry_lookup`
* `Clr.Image.C84_loaded`
* `Clr.Image.C84_name_lookup`
* `Clr.Image.C84_object_name`
* `Clr.Image.C84_type_lookup`
* `Clr.Image.C85_alignment_false`
* `Clr.Image.C85_allocations`
* `Clr.Image.C85_loaded_partial`
* `Clr.Image.C85_unowned_attribute_false`
* `Clr.Iter.C75_read_array`
* `Clr.Iter.C75_write_array`
* `Clr.JSON.C101_inside_partial`
* `Clr.JSON.C101_load_partial`
* `Clr.JSON.C101_terminates`
* `Clr.JSON.C102_class_partial`
* `Clr.JSON.C102_custom`
* `Clr.JSON.C102_integer_negation`
* `Clr.JSON.C102_round_trip_partial`
* `Clr.JSON.C102_token_back`
* `Clr.JSON.C27_next_token_partial`
* `Clr.JSON.C27_stream_ends_partial`
* `Clr.JSON.C28_hex_round_trip`
* `Clr.JSON.C28_object_round_trip_partial`
* `Clr.JSON.C28_signed_buffer_negation`
* `Clr.JSON.C28_signed_round_trip`
* `Clr.JSON.C28_unsigned_round_trip`
* `Clr.JSON.C29_double_round_trip`
* `Clr.JSON.C29_float_round_trip`
* `Clr.JSON.C30_field_round_trip_partial`
* `Clr.JSON.C30_flags_enum_partial`
* `Clr.JSON.C30_plain_enum`
* `Clr.JSON.C31_round_trip_partial`
* `Clr.JSON.C31_transient_untouched_partial`
* `Clr.JSON.C32_all_unknown`
* `Clr.JSON.C32_unknown_members_partial`
* `Clr.JSON.C33_accepted_is_json_partial`
* `Clr.JSON.C33_rejects_partial`
* `Clr.JSON.C33_terminates`
* `Clr.JSON.C34_sorted_partial`
* `Clr.JSON.C36_all_mappable_partial`
* `Clr.JSON.C36_unmappable`
* `Clr.JSON.C76_arguments_partial`
* `Clr.JSON.C76_separators_unchecked_false`
* `Clr.JSON.C76_string_ignored_false`
* `Clr.JSON.C76_too_few_refused`
* `Clr.JSON.C93_inside_partial`
* `Clr.JSON.C95_converted`
* `Clr.JSON.C96_line_partial`
* `Clr.JSON.C96_position`
* `Clr.JSON.C97_numbers`
* `Clr.JSON.C97_saved_text`
* `Clr.Layout.C58_array_slots_apart`
* `Clr.Logging.C77_deep_indent_undefined`
* `Clr.Logging.C77_file_drops_stdout_false`
* `Clr.Logging.C77_file_partial`
* `Clr.Logging.C77_long_text_false`
* `Clr.Logging.C77_name_by_address_false`
* `Clr.Logging.C77_never_fails`
* `Clr.Logging.C77_stdout`
* `Clr.Map.C62_function_address_partial`
* `Clr.Map.C62_gcc_function_line_partial`
* `Clr.Map.C62_gcc_function_partial`
* `Clr.Map.C62_gcc_method_line_partial`
* `Clr.Map.C62_gcc_method_partial`
* `Clr.Map.C62_method_address_partial`
* `Clr.Map.C62_msvc_line_partial`
* `Clr.Map.C62_no_such_function`
* `Clr.Map.C63_parser_ends`
* `Clr.Map.C63_plain_name_alone_partial`
* `Clr.Map.C63_plain_name_partial`
* `Clr.Map.C63_template_name_alone_partial`
* `Clr.Map.C63_template_name_partial`
* `Clr.Map.C63_template_return_partial`
* `Clr.Map.C64_gcc_get_type_partial`
* `Clr.Map.C64_get_type_partial`
* `Clr.MapFiles.C83_msvc_partial`
* `Clr.Merge.C05_different_text_different_name`
* `Clr.Merge.C05_empty_never_stored`
* `Clr.Merge.C05_interning_is_stable`
* `Clr.Merge.C05_same_text_same_name`
* `Clr.Merge.C06_destination_kept`
* `Clr.Merge.C06_order_kept`
* `Clr.Merge.C07_merge_goes_through`
* `Clr.Merge.C07_names`
* `Clr.Merge.C07_no_duplicates`
* `Clr.Merge.C07_nothing_invented`
* `Clr.Merge.C07_overloads_are_the_union`
* `Clr.Merge.C07_source_names_present`
* `Clr.Merge.C08_second_merge_changes_nothing_partial`
* `Clr.Merge.C08_self_merge_changes_nothing_partial`
* `Clr.Merge.C09_definition_wins`
* `Clr.Merge.C57_merge_order`
* `Clr.ObjectGroup.C40_group_contents`
* `Clr.ObjectGroup.C40_group_is_a_map`
* `Clr.ObjectGroup.C41_full_table_diverges`
* `Clr.ObjectGroup.C41_giving_up_means_endless`
* `Clr.ObjectGroup.C41_probing_terminates`
* `Clr.ObjectGroup.C42_removed_is_gone_partial`
* `Clr.ObjectGroup.C43_only_last_two_ids_count`
* `Clr.ObjectGroup.C43_search_parents_nearest`
* `Clr.ObjectGroup.C43_short_paths_resolve_partial`
* `Clr.ObjectIterator.C44_push_is_stack_push`
* `Clr.ObjectIterator.C44_recursive_visits_tree`
* `Clr.ObjectIterator.C44_single_visits_each_once`
* `Clr.ObjectLife.C99_create_partial`
* `Clr.ObjectLife.C99_destroyed_is_gone_partial`
* `Clr.ObjectLife.C99_objects_partial`
* `Clr.Params.C54_places_partial`
* `Clr.Params.C54_seventeenth_refused`
* `Clr.Params.C61_lifetimes_partial`
* `Clr.Params.C61_sixteen_negation`
* `Clr.Reloc.C14_relocation_partial`
* `Clr.Reloc.C14_start_pointer_lost`
* `Clr.Reloc.C15_crafted_file_outside`
* `Clr.Reloc.C15_rejected_iff`
* `Clr.Reloc.C15_stays_inside_partial`
* `Clr.Reloc.C15_truncated_rejected`
* `Clr.Reloc.C16_not_rebased`
* `Clr.Reloc.C16_rebased`
* `Clr.Runtime.C82_again`
* `Clr.Runtime.C82_all_given_back`
* `Clr.Runtime.C82_count`
* `Clr.Runtime.C82_end`
* `Clr.Runtime.C82_failed_load_false`
* `Clr.Runtime.C82_kept`
* `Clr.Runtime.C82_loaded`
* `Clr.Runtime.C82_memory`
* `Clr.Runtime.C82_undefined_only`
* `Clr.Scan.C48_reflected_partial`
* `Clr.Scan.C49_only_written`
* `Clr.Scan.C49_recorded_partial`
* `Clr.ScanStore.C91_database_partial`
* `Clr.ScanStore.C91_source_to_memory_partial`
* `Clr.ScanTool.C80_containers`
* `Clr.ScanTool.C80_nothing_else`
* `Clr.ScanTool.C80_specs`
* `Clr.ScanTool.C81_base_types_repeated_false`
* `Clr.ScanTool.C81_binary_read_back_partial`
* `Clr.ScanTool.C81_format`
* `Clr.ScanTool.C81_specs_carry_over_false`
* `Clr.ScanTool.C81_text_read_back`
* `Clr.ScanTypes.C66_array_recorded`
* `Clr.ScanTypes.C66_supported_recorded`
* `Clr.ScanTypes.C67_const_argument_false`
* `Clr.ScanTypes.C67_once_partial`
* `Clr.ScanTypes.C70_value_iff`
* `Clr.ScanUnit.C90_ends`
* `Clr.ScanUnit.C90_exact`
* `Clr.ScanUnit.C90_scanned_partial`
* `Clr.StackAlloc.C23_assertion_iff_too_big`
* `Clr.TextDB.C11_text_roundtrip_partial`
* `Clr.TextDB.C12_no_version_accepted`
* `Clr.TextDB.C12_other_versions_rejected_partial`
* `Clr.TextDB.C12_what_is_accepted`
* `Clr.TextDB.C12_written_files_accepted`
* `Clr.Tools.C72_every_symbol`
* `Clr.Tools.C72_input_loaded`
* `Clr.Tools.C72_option_behind_input_false`
* `Clr.Tools.C72_output_is_the_merge_partial`
* `Clr.Tools.C72_unwritable_output_undefined`
* `Clr.Tools.C73_export_saved`
* `Clr.Tools.C73_scan_to_lookup_partial`
* `Clr.Tools.C73_unwritable_output_false`
* `Clr.Tools.C85_file_written`
* `Clr.Tools.C85_map_file`
* `Clr.Tools.C85_unwritable`
* `Clr.Tools.C86_details_partial`
* `Clr.Tools.C86_scan_to_memory_partial`
* `Clr.Tools.C87_contents_partial`
* `Clr.Tools.C89_linux_partial`
* `Clr.Tools.C89_loaded_partial`
* `Clr.Tools.C89_macos_partial`
* `Clr.Types.C21_derives_from_exact`
* `Clr.Types.C21_not_its_own_base`
* `Clr.Types.C22_value_name`
* `Clr.VBin.C100_custom_partial`
* `Clr.VBin.C100_saved_partial`
* `Clr.VBin.C103_reach`
* `Clr.VBin.C103_round_trip_partial`
* `Clr.VBin.C103_versions_partial`
* `Clr.VBin.C37_round_trip_partial`
* `Clr.VBin.C37_transient_untouched_partial`
* `Clr.VBin.C38_new_fields_keep_partial`
* `Clr.VBin.C38_other_type_skipped_partial`
* `Clr.VBin.C38_versions_partial`
* `Clr.VBin.C39_ends_low_partial`
* `Clr.VBin.C39_ends_partial`
* `Clr.VBin.C39_negative_size_negation`
* `Clr.VBin.C39_peek_negation`
* `Clr.VBin.C94_inside_partial`
* `Clr.VBin.C98_header`
* `Clr.VBin.C98_same_bytes`
* `Clr.VBin.C98_saved_bytes`
* `Clr.Visit.C45_stop_partial`

## Depends on axioms: [propext, Quot.sound]

* `Clr.Args.C55_index_of_occurrence`
* `Clr.Args.C55_property_value`
* `Clr.Attr.C46_exponent_negation`
* `Clr.Attr.C46_long_text_negation`
* `Clr.Attr.C46_negative_negation`
* `Clr.Attr.C46_upper_hex_negation`
* `Clr.Attr.C47_ends_partial`
* `Clr.Attr.C47_not_ascii_negation`
* `Clr.Attr.C47_overflow_negation`
* `Clr.Attr.C47_safe_partial`
* `Clr.BinDB.C13_attributes_undefined`
* `Clr.BinDB.C13_recognised_iff`
* `Clr.BinDB.C13_shared_text_wrong`
* `Clr.Buffer.C25_four_gigabytes_overflow`
* `Clr.Buffer.C25_growth_ends_or_never`
* `Clr.Buffer.C25_tiny_capacity_never_returns`
* `Clr.Buffer.C26_read_exact`
* `Clr.Buffer.C26_reads_inside_partial`
* `Clr.Build.C74_as_added`
* `Clr.Build.C74_every_inheritance_kept_false`
* `Clr.Build.C74_unnamed_container_false`
* `Clr.CArray.C24_unstable_remove`
* `Clr.Call.C79_count_refused`
* `Clr.Call.C79_no_address_undefined`
* `Clr.Call.C79_null_this_leaves_stack_false`
* `Clr.Call.C79_sixteen_asserts`
* `Clr.Export.C17_orphan_field_ub`
* `Clr.Export.C17_overload_attributes`
* `Clr.Export.C17_primitive_attribute_keeps_hash`
* `Clr.Export.C19_cyclic_never_ends`
* `Clr.Export.C19_transient_not_inherited`
* `Clr.Export.C88_claimed_function`
* `Clr.ExportLog.C92_everything_listed`
* `Clr.FileUtils.C10_hex_case`
* `Clr.FileUtils.C10_hex_injective`
* `Clr.FileUtils.C10_hex_reads`
* `Clr.FileUtils.C10_hex_roundtrip`
* `Clr.FileUtils.C52_empty_pattern_never_returns`
* `Clr.FileUtils.C52_startswith_iff`
* `Clr.FileUtils.C56_lines_exact`
* `Clr.Gen.C50_long_name_negation`
* `Clr.Gen.C51_first_line_decides_negation`
* `Clr.Gen.C51_interrupted_negation`
* `Clr.Gen.C51_missing`
* `Clr.Gen.C51_negation`
* `Clr.Gen.C51_other_file_partial`
* `Clr.Gen.C51_replaced_partial`
* `Clr.Gen.C51_untouched`
* `Clr.Gen.C71_long_name_negation`
* `Clr.Gen.C71_no_types_negation`
* `Clr.Hash.C03_fmix_bijective`
* `Clr.Hash.C03_mix_injective_right`
* `Clr.Hash.C03_qualified_text_injective`
* `Clr.Hash.C04_data`
* `Clr.Hash.C04_hash_defined_iff_terminated`
* `Clr.Hash.C04_hash_depends_only_on_text`
* `Clr.Image.C85_too_large_false`
* `Clr.Iter.C75_second_use_false`
* `Clr.JSON.C101_array_negation`
* `Clr.JSON.C101_base_negation`
* `Clr.JSON.C101_empty_negation`
* `Clr.JSON.C101_error_negation`
* `Clr.JSON.C101_no_functions`
* `Clr.JSON.C101_object_negation`
* `Clr.JSON.C101_pointer_negation`
* `Clr.JSON.C101_top_negation`
* `Clr.JSON.C102_base_negation`
* `Clr.JSON.C102_elements`
* `Clr.JSON.C102_no_functions`
* `Clr.JSON.C102_order_negation`
* `Clr.JSON.C102_quote_negation`
* `Clr.JSON.C102_refused`
* `Clr.JSON.C102_top_negation`
* `Clr.JSON.C102_transient`
* `Clr.JSON.C27_unfinished_exponent_negation`
* `Clr.JSON.C30_overlapping_flags_negation`
* `Clr.JSON.C31_dictionary_from_numbers_negation`
* `Clr.JSON.C31_dictionary_of_numbers_negation`
* `Clr.JSON.C31_empty_container_negation`
* `Clr.JSON.C31_shadowed_name_negation`
* `Clr.JSON.C31_transient_class_negation`
* `Clr.JSON.C31_two_bases_negation`
* `Clr.JSON.C33_dictionary_negation`
* `Clr.JSON.C33_mismatched_negation`
* `Clr.JSON.C33_unclosed_negation`
* `Clr.JSON.C34_equal_offsets_negation`
* `Clr.JSON.C35_dispatch`
* `Clr.JSON.C35_other_names_negation`
* `Clr.JSON.C36_negation`
* `Clr.JSON.C60_at_end`
* `Clr.JSON.C60_decimal`
* `Clr.JSON.C60_double_bits`
* `Clr.JSON.C60_hex`
* `Clr.JSON.C60_negative`
* `Clr.JSON.C76_no_list_refused`
* `Clr.JSON.C93_object_for_pointer_negation`
* `Clr.JSON.C93_small_enum_negation`
* `Clr.JSON.C95_out_of_range_undefined`
* `Clr.JSON.C96_container_negation`
* `Clr.Logging.C77_tags_overwrite_false`
* `Clr.Map.C62_const_method_false`
* `Clr.Map.C62_gcc_const_iff`
* `Clr.Map.C62_gcc_const_reference_false`
* `Clr.Map.C62_gcc_long_long_false`
* `Clr.Map.C62_one_address`
* `Clr.Map.C62_template_operator_false`
* `Clr.Map.C62_two_arguments_false`
* `Clr.Map.C62_wide_address_false`
* `Clr.Map.C63_call_operator_false`
* `Clr.Map.C63_conversion_operator_false`
* `Clr.Map.C63_repeated_template_false`
* `Clr.Map.C64_constructor_partial`
* `Clr.Map.C64_template_false`
* `Clr.Map.C65_empty_file_false`
* `Clr.Map.C65_long_symbol_false`
* `Clr.Map.C65_long_type_false`
* `Clr.Map.C65_parameter_shorter`
* `Clr.Map.C65_parameters_end`
* `Clr.Map.C65_short_signatures_partial`
* `Clr.MapFiles.C83_linux_partial`
* `Clr.MapFiles.C83_literal_false`
* `Clr.MapFiles.C83_macos_partial`
* `Clr.MapFiles.C83_new_linker_false`
* `Clr.MapFiles.C83_no_code`
* `Clr.MapFiles.C83_no_file`
* `Clr.MapFiles.C83_other_format`
* `Clr.MapFiles.C83_unfinished_line_false`
* `Clr.Merge.C08_nan_attribute_duplicates`
* `Clr.Mod.C78_copied_undefined`
* `Clr.Mod.C78_lifetimes_partial`
* `Clr.Mod.C78_loaded_twice_false`
* `Clr.Mod.C78_nothing_left_partial`
* `Clr.Mod.C78_null_host_asserts`
* `Clr.Mod.C78_stale_database_false`
* `Clr.ObjectIterator.C44_listing_is_inside`
* `Clr.ObjectIterator.C44_pop_is_stack_pop`
* `Clr.ObjectLife.C99_group_first_negation`
* `Clr.ObjectLife.C99_no_destructor_negation`
* `Clr.ObjectLife.C99_no_id_negation`
* `Clr.ObjectLife.C99_not_an_object_negation`
* `Clr.ObjectLife.C99_same_id_negation`
* `Clr.Reloc.C14_registered`
* `Clr.Reloc.C16_back`
* `Clr.Reloc.C16_module_back`
* `Clr.Runtime.C82_once`
* `Clr.Scan.C48_forward_negation`
* `Clr.Scan.C48_siblings`
* `Clr.Scan.C49_spec_negation`
* `Clr.Scan.C49_unreflected_recorded`
* `Clr.ScanTool.C80_dash_false`
* `Clr.ScanTool.C80_key_false`
* `Clr.ScanTool.C81_defined`
* `Clr.ScanTool.C81_outcome`
* `Clr.ScanTool.C81_unwritable_undefined`
* `Clr.ScanTypes.C66_recorded_means`
* `Clr.ScanTypes.C66_unsupported_rejected`
* `Clr.ScanTypes.C67_four_arguments_false`
* `Clr.ScanTypes.C67_instances_described`
* `Clr.ScanTypes.C67_recursive_base_never`
* `Clr.ScanTypes.C67_supported_recorded`
* `Clr.ScanTypes.C68_all_or_nothing`
* `Clr.ScanTypes.C68_function_partial`
* `Clr.ScanTypes.C68_method_partial`
* `Clr.ScanTypes.C68_redeclared`
* `Clr.ScanTypes.C68_reference_return_false`
* `Clr.ScanTypes.C68_supported_added`
* `Clr.ScanTypes.C68_void_pointer_false`
* `Clr.ScanTypes.C69_array_counts`
* `Clr.ScanTypes.C69_members_partial`
* `Clr.ScanTypes.C69_offsets_partial`
* `Clr.ScanTypes.C70_constants_partial`
* `Clr.ScanUnit.C90_left_over_false`
* `Clr.ScanUnit.C90_order_false`
* `Clr.Search.C01_lookup_exact`
* `Clr.Search.C01_lookup_safe`
* `Clr.Search.C01_lookup_unique`
* `Clr.Search.C01_search_overflow_above_bound`
* `Clr.Search.C02_overload_range_exact`
* `Clr.StackAlloc.C23_blocks_disjoint_partial`
* `Clr.TextDB.C11_alike_floats_lost`
* `Clr.TextDB.C11_empty_text_undefined`
* `Clr.TextDB.C11_large_size_wrong`
* `Clr.TextDB.C11_negative_offset_wrong`
* `Clr.TextDB.C11_newline_undefined`
* `Clr.TextDB.C11_tab_cuts_text`
* `Clr.TextDB.C12_headerless_loads`
* `Clr.Tools.C72_any_file_false`
* `Clr.Tools.C72_exit_code`
* `Clr.Tools.C72_missing_input`
* `Clr.Tools.C72_short_file_undefined`
* `Clr.Tools.C73_exit_code`
* `Clr.VBin.C100_save_only_negation`
* `Clr.VBin.C103_chunks`
* `Clr.VBin.C103_none`
* `Clr.VBin.C37_class_keys_negation`
* `Clr.VBin.C37_narrow_enum_negation`
* `Clr.VBin.C37_pointer_elements_negation`
* `Clr.VBin.C37_pointer_negation`
* `Clr.VBin.C37_two_bases_negation`
* `Clr.VBin.C37_unnamed_value_negation`
* `Clr.VBin.C37_wide_enum_negation`
* `Clr.VBin.C38_array_type_negation`
* `Clr.VBin.C38_becomes_array_negation`
* `Clr.VBin.C38_becomes_single_negation`
* `Clr.VBin.C94_pointer_negation`
* `Clr.Visit.C45_each_leaf_once_partial`
* `Clr.Visit.C45_pointers_partial`
* `Clr.Visit.C45_reference_negation`
* `Clr.Visit.C45_second_base_negation`

## Depends on axioms: [propext]

* `Clr.Call.C79_no_arguments_unchecked_false`
* `Clr.Call.C79_templates`
* `Clr.FileUtils.C52_spec_deterministic`
* `Clr.Gen.C50_orphan_negation`
* `Clr.Hash.C03_qualified_text`
* `Clr.Image.C84_unresolved_stops`
* `Clr.Iter.C75_full_size_refused`
* `Clr.Iter.C75_read_life_partial`
* `Clr.Iter.C75_unused_reader_undefined_false`
* `Clr.Iter.C75_write_life_partial`
* `Clr.Mod.C78_not_loaded_asserts`
* `Clr.ObjectGroup.C42_duplicate_ids_leave_dangling`
* `Clr.ObjectGroup.C42_duplicate_ids_remove_wrong_object`
* `Clr.ObjectGroup.C43_three_ids_fail`
* `Clr.Reloc.C14_registered_twice_stops`
* `Clr.ScanTypes.C66_pointer_to_pointer`
* `Clr.ScanTypes.C66_spec_deterministic`
* `Clr.ScanTypes.C66_typedef_array_false`
* `Clr.ScanTypes.C66_uninstantiated_silent`
* `Clr.ScanTypes.C67_left_over_false`
* `Clr.ScanTypes.C67_twice_false`
* `Clr.ScanTypes.C68_return_partial`
* `Clr.ScanTypes.C69_anonymous_struct_false`
* `Clr.ScanTypes.C70_scoped_clash_false`
* `Clr.ScanTypes.C70_small_negative_false`
* `Clr.StackAlloc.C23_wrapping_request_overlaps`
* `Clr.TextDB.C12_headerless_accepted`
* `Clr.TextDB.C12_missing_file_rejected`
* `Clr.Tools.C86_numbers`

## Does not depend on any axioms

* `Clr.Iter.C75_array_places`
* `Clr.Iter.C75_unsized_elements_false`
* `Clr.Layout.C58_every_pointer_registered`
* `Clr.Layout.C58_loader_layout`
* `Clr.Map.C62_prefix_in_name_false`
* `Clr.Params.C54_unaligned_negation`
* `Clr.Params.C61_unpaired_negation`
* `Clr.Reloc.C16_zero_lost`
* `Clr.ScanTool.C81_three_characters_false`
