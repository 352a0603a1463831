{
 "claims": [
  {
   "property": "C01",
   "status": "proved",
   "theorems": [
    "Clr.Search.C01_lookup_exact",
    "Clr.Search.C01_lookup_unique",
    "Clr.Search.C01_lookup_safe",
    "Clr.Search.C01_search_overflow_above_bound"
   ],
   "note": "All sorted tables up to 2^30 entries; the bound is shown tight."
  },
  {
   "property": "C02",
   "status": "proved",
   "theorems": [
    "Clr.Search.C02_overload_range_exact"
   ],
   "note": ""
  },
  {
   "property": "C03",
   "status": "proved",
   "theorems": [
    "Clr.Hash.C03_fmix_bijective",
    "Clr.Hash.C03_mix_injective_left",
    "Clr.Hash.C03_mix_injective_right",
    "Clr.Hash.C03_uniqueId_differs_in_one_parameter",
    "Clr.Hash.C03_qualified_text_injective",
    "Clr.Hash.C03_qualified_text",
    "Clr.Hash.C03_overloads"
   ],
   "note": ""
  },
  {
   "property": "C04",
   "status": "proved",
   "theorems": [
    "Clr.Hash.C04_hash_depends_only_on_text",
    "Clr.Hash.C04_hash_defined_iff_terminated",
    "Clr.Hash.C04_data",
    "Clr.Hash.C04_no_collision_within_one_block",
    "Clr.Hash.C04_short_names_never_collide"
   ],
   "note": ""
  },
  {
   "property": "C05",
   "status": "proved",
   "theorems": [
    "Clr.Merge.C05_interning_is_stable",
    "Clr.Merge.C05_same_text_same_name",
    "Clr.Merge.C05_different_text_different_name",
    "Clr.Merge.C05_empty_never_stored"
   ],
   "note": "Over all histories of interning calls; a hash collision is the distinct assertion outcome."
  },
  {
   "property": "C06",
   "status": "proved",
   "theorems": [
    "Clr.Merge.C06_destination_kept",
    "Clr.Merge.C06_order_kept"
   ],
   "note": "All 16 entry kinds and names; forward-declared classes may be upgraded to a definition."
  },
  {
   "property": "C07",
   "status": "proved",
   "theorems": [
    "Clr.Merge.C07_source_names_present",
    "Clr.Merge.C07_no_duplicates",
    "Clr.Merge.C07_nothing_invented",
    "Clr.Merge.C07_overloads_are_the_union",
    "Clr.Merge.C07_names",
    "Clr.Merge.C07_merge_goes_through"
   ],
   "note": "Names, no invention, no duplicates, overload union (no hash collisions, no -0.0 float attribute, no function address yet), goes through without assertion."
  },
  {
   "property": "C08",
   "status": "partial",
   "theorems": [
    "Clr.Merge.C08_second_merge_changes_nothing_partial",
    "Clr.Merge.C08_self_merge_changes_nothing_partial",
    "Clr.Merge.C08_nan_attribute_duplicates"
   ],
   "note": "Proved for databases without NaN float attributes; negation with a NaN attribute."
  },
  {
   "property": "C09",
   "status": "proved",
   "theorems": [
    "Clr.Merge.C09_definition_wins"
   ],
   "note": "Over every list of input databases."
  },
  {
   "property": "C10",
   "status": "partial",
   "theorems": [
    "Clr.FileUtils.C10_hex_roundtrip",
    "Clr.FileUtils.C10_hex_injective",
    "Clr.FileUtils.C10_hex_case",
    "Clr.FileUtils.C10_decimal_roundtrip_partial",
    "Clr.FileUtils.C10_decimal_large_wrong",
    "Clr.FileUtils.C10_decimal_roundtrip_msvc",
    "Clr.FileUtils.C10_hex_reads",
    "Clr.FileUtils.C10_decimal_reads"
   ],
   "note": "Hexadecimal texts round-trip for all 2^32 values, and decimal ones as compiled by Microsoft's compiler. With other compilers (snprintf size 10) every value >= 10^9, so every negative number, loses its last digit: C10_decimal_large_wrong is the negation, the partial theorem covers values below 10^9."
  },
  {
   "property": "C11",
   "status": "partial",
   "theorems": [
    "Clr.TextDB.C11_text_roundtrip_partial",
    "Clr.TextDB.C11_tab_cuts_text",
    "Clr.TextDB.C11_empty_text_undefined",
    "Clr.TextDB.C11_newline_undefined",
    "Clr.TextDB.C11_negative_offset_wrong",
    "Clr.TextDB.C11_large_size_wrong",
    "Clr.TextDB.C11_alike_floats_lost"
   ],
   "note": "Proved for storable databases (texts without NUL/tab/newline and non-empty, sizes below 4 GiB, numbers below 10^9 unless MSVC, floats that survive %f). The excluded cases are lost or undefined: C11_tab_cuts_text, C11_empty_text_undefined, C11_newline_undefined, C11_negative_offset_wrong, C11_large_size_wrong, C11_alike_floats_lost."
  },
  {
   "property": "C12",
   "status": "partial",
   "theorems": [
    "Clr.TextDB.C12_what_is_accepted",
    "Clr.TextDB.C12_other_versions_rejected_partial",
    "Clr.TextDB.C12_missing_file_rejected",
    "Clr.TextDB.C12_written_files_accepted",
    "Clr.TextDB.C12_headerless_accepted",
    "Clr.TextDB.C12_no_version_accepted",
    "Clr.TextDB.C12_headerless_loads"
   ],
   "note": "C12_what_is_accepted is the exact set of accepted files; every written file is accepted for every database; other versions are rejected. 'Only files with the header' is false of the code: C12_headerless_accepted, C12_no_version_accepted."
  },
  {
   "property": "C13",
   "status": "partial",
   "theorems": [
    "Clr.BinDB.C13_binary_roundtrip_partial",
    "Clr.BinDB.C13_attributes_undefined",
    "Clr.BinDB.C13_shared_text_wrong",
    "Clr.BinDB.C13_long_text_cut",
    "Clr.BinDB.C13_recognised_iff"
   ],
   "note": "Full round trip of every table for storable databases (names interned, texts distinct and at most 1023 bytes) when there are no attributes, for any padding bytes. Missing: attributes - the real build gives Attribute a virtual destructor so the Primitive base sits 8 bytes in while the serialiser's offsets do not, and C13_attributes_undefined proves the write is then undefined for every database with an attribute; C13_shared_text_wrong and C13_long_text_cut prove two further failures."
  },
  {
   "property": "C14",
   "status": "partial",
   "theorems": [
    "Clr.Reloc.C14_relocation_partial",
    "Clr.Reloc.C14_start_pointer_lost",
    "Clr.Reloc.C14_registered_twice_stops",
    "Clr.Reloc.C14_registered"
   ],
   "note": "Round trip through makeRelative, the file and loading at any base for every image with disjoint in-range slots. Missing: pointers to the very first byte of the image, which the real code turns into null (C14_start_pointer_lost, proved for all images)."
  },
  {
   "property": "C15",
   "status": "partial",
   "theorems": [
    "Clr.Reloc.C15_rejected_iff",
    "Clr.Reloc.C15_truncated_rejected",
    "Clr.Reloc.C15_stays_inside_partial",
    "Clr.Reloc.C15_crafted_file_outside"
   ],
   "note": "Exact rejection condition and rejection of every truncated file are proved for all files; staying inside is proved for files whose instructions name slots inside the image. False in general: C15_crafted_file_outside gives for every image and every outside offset a file that makes the loader access it."
  },
  {
   "property": "C16",
   "status": "proved",
   "theorems": [
    "Clr.Reloc.C16_rebased",
    "Clr.Reloc.C16_not_rebased",
    "Clr.Reloc.C16_back",
    "Clr.Reloc.C16_module_back",
    "Clr.Reloc.C16_zero_lost"
   ],
   "note": "Whole Database::Load at byte level, for images whose arrays lie inside and apart."
  },
  {
   "property": "C17",
   "status": "partial",
   "theorems": [
    "Clr.Export.C17_export_succeeds",
    "Clr.Export.C17_scope_arrays_partial",
    "Clr.Export.C17_attribute_arrays_partial",
    "Clr.Export.C17_back_pointers_partial",
    "Clr.Export.C17_return_value",
    "Clr.Export.C17_alias_negation",
    "Clr.Export.C17_orphan_field_ub",
    "Clr.Export.C17_overload_attributes",
    "Clr.Export.C17_primitive_attribute_keeps_hash"
   ],
   "note": "Proved for well-formed databases without ambiguous parents, laid out so that no object's address has a name hash as its low half: child arrays of every scope and attribute arrays are exact and duplicate free, back pointers, null parents of orphans, return values. Negations: C17_alias_negation (address aliasing), C17_orphan_field_ub, C17_overload_attributes, C17_primitive_attribute_keeps_hash."
  },
  {
   "property": "C18",
   "status": "partial",
   "theorems": [
    "Clr.Export.C18_tables_sorted_partial",
    "Clr.Export.C18_types_found",
    "Clr.Export.C18_children_found",
    "Clr.Export.C18_global_namespace"
   ],
   "note": "All child and attribute arrays and the type table sorted and permutations; runtime lookups of types and children exact; the global namespace arrays exact. Under the layout conditions of C17. The base type arrays are filled after the sort and are not sorted (the runtime scans them)."
  },
  {
   "property": "C19",
   "status": "partial",
   "theorems": [
    "Clr.Export.C19_flags_partial",
    "Clr.Export.C19_class_flags_partial",
    "Clr.Export.C19_transient_not_inherited",
    "Clr.Export.C19_cyclic_never_ends"
   ],
   "note": "Every flag bit characterised for enums, fields, functions and classes, with inheritance along every chain of bases, under the conditions of C17. Negations of naive readings: C19_transient_not_inherited, C19_cyclic_never_ends; attributes of overloads go to the first (C17_overload_attributes)."
  },
  {
   "property": "C20",
   "status": "partial",
   "theorems": [
    "Clr.Export.C20_no_dangling_types_partial",
    "Clr.Export.C20_nothing_else_dropped",
    "Clr.Export.C20_global_function_negation"
   ],
   "note": "No dangling type in class fields, parameters and return values of methods and namespace functions, and nothing else dropped, under the conditions of C17. Negation: functions of the global namespace are not checked (C20_global_function_negation)."
  },
  {
   "property": "C21",
   "status": "proved",
   "theorems": [
    "Clr.Types.C21_derives_from_exact",
    "Clr.Types.C21_not_its_own_base"
   ],
   "note": "For every acyclic inheritance graph, any depth and width."
  },
  {
   "property": "C22",
   "status": "proved",
   "theorems": [
    "Clr.Types.C22_value_name"
   ],
   "note": "First constant with the value; null exactly when there is none."
  },
  {
   "property": "C23",
   "status": "partial",
   "theorems": [
    "Clr.StackAlloc.C23_blocks_disjoint_partial",
    "Clr.StackAlloc.C23_assertion_iff_too_big",
    "Clr.StackAlloc.C23_wrapping_request_overlaps"
   ],
   "note": "Proved for requests below 4 GiB together. The 32-bit offset wraps for larger ones and the assertion does not notice: C23_wrapping_request_overlaps."
  },
  {
   "property": "C24",
   "status": "proved",
   "theorems": [
    "Clr.CArray.C24_stable_remove",
    "Clr.CArray.C24_unstable_remove",
    "Clr.CArray.C24_deep_copy"
   ],
   "note": "Both removals and deep copy, any element type."
  },
  {
   "property": "C25",
   "status": "partial",
   "theorems": [
    "Clr.Buffer.C25_contents_partial",
    "Clr.Buffer.C25_writes_concatenate_partial",
    "Clr.Buffer.C25_tiny_capacity_never_returns",
    "Clr.Buffer.C25_growth_ends_or_never",
    "Clr.Buffer.C25_four_gigabytes_overflow"
   ],
   "note": "Contents proved for every operation sequence with initial capacity of at least two and sizes where the 32-bit capacity arithmetic does not overflow. Capacities 0 and 1 never grow (C25_tiny_capacity_never_returns) and requests above 2/3 of 4 GiB overflow (C25_four_gigabytes_overflow)."
  },
  {
   "property": "C26",
   "status": "partial",
   "theorems": [
    "Clr.Buffer.C26_reads_inside_partial",
    "Clr.Buffer.C26_read_exact",
    "Clr.Buffer.C26_seek_underflow_reads_outside",
    "Clr.Buffer.C26_reads_back_what_was_written"
   ],
   "note": "Reads stay inside the buffer as long as no seek moves before its start; a seek before the start makes later reads leave the buffer (C26_seek_underflow_reads_outside)."
  },
  {
   "property": "C27",
   "status": "partial",
   "theorems": [
    "Clr.JSON.C27_next_token_partial",
    "Clr.JSON.C27_stream_ends_partial",
    "Clr.JSON.C27_unfinished_exponent_negation"
   ],
   "note": "C27_next_token_partial: on every input that does not end in 'e' or 'E' (optionally followed by nothing) LexerNextToken reads no byte outside the buffer, trips no assertion, consumes at least one byte for every valid token, and keeps the first error. C27_stream_ends_partial: repeated calls reach the end of the stream. C27_unfinished_exponent_negation: on \"1.5e\" at the end of the buffer VerifyDecimal reads one byte outside it, so the property fails without the restriction. The strtod result is a parameter."
  },
  {
   "property": "C28",
   "status": "partial",
   "theorems": [
    "Clr.JSON.C28_signed_round_trip",
    "Clr.JSON.C28_signed_buffer_negation",
    "Clr.JSON.C28_unsigned_round_trip",
    "Clr.JSON.C28_hex_round_trip",
    "Clr.JSON.C28_object_round_trip_partial"
   ],
   "note": "C28_signed_round_trip, C28_unsigned_round_trip, C28_hex_round_trip: every value for which saving is defined is read back. C28_object_round_trip_partial: the same for the bytes of an object of every registered integer type. C28_signed_buffer_negation: every int64 at or below -10^18 writes before the 20 byte array, so the property is false for those."
  },
  {
   "property": "C29",
   "status": "proved",
   "theorems": [
    "Clr.JSON.C29_double_round_trip",
    "Clr.JSON.C29_float_round_trip"
   ],
   "note": "C29_double_round_trip for all 2^64 patterns. C29_float_round_trip for all floats that are not signalling NaNs (a conversion quiets those on IEEE hardware, Floats.Ieee states what is assumed of the conversions and ieee_exists that it can be met)."
  },
  {
   "property": "C30",
   "status": "partial",
   "theorems": [
    "Clr.JSON.C30_plain_enum",
    "Clr.JSON.C30_flags_enum_partial",
    "Clr.JSON.C30_field_round_trip_partial",
    "Clr.JSON.C30_overlapping_flags_negation"
   ],
   "note": "Plain enums: proved in full for every enum with distinct names/values. Flags: proved for values that are unions of non-overlapping constants; C30_overlapping_flags_negation shows that overlapping constants lose the value."
  },
  {
   "property": "C31",
   "status": "partial",
   "theorems": [
    "Clr.JSON.C31_round_trip_partial",
    "Clr.JSON.C31_transient_untouched_partial",
    "Clr.JSON.C31_two_bases_negation",
    "Clr.JSON.C31_shadowed_name_negation",
    "Clr.JSON.C31_empty_container_negation",
    "Clr.JSON.C31_transient_class_negation",
    "Clr.JSON.C31_dictionary_of_numbers_negation",
    "Clr.JSON.C31_dictionary_from_numbers_negation"
   ],
   "note": "Every supported class of any depth saves and loads back with no error, containers and dictionaries from enums to classes included; transient and pointer fields untouched. Excluded: other dictionaries, pointer maps, non-hex floats, enums not of 4 bytes, two overlapping bases, duplicate names; negation theorems give witnesses for the excluded cases where the code is wrong (dictionaries of numbers are not loaded, dictionaries from numbers are no JSON and not loaded inside containers)."
  },
  {
   "property": "C32",
   "status": "partial",
   "theorems": [
    "Clr.JSON.C32_unknown_members_partial",
    "Clr.JSON.C32_all_unknown"
   ],
   "note": "Any unknown or transient member, of any value in the grammar, can be added or removed without changing the effect of loading. Types without dictionaries."
  },
  {
   "property": "C33",
   "status": "partial",
   "theorems": [
    "Clr.JSON.C33_accepted_is_json_partial",
    "Clr.JSON.C33_rejects_partial",
    "Clr.JSON.C33_terminates",
    "Clr.JSON.C33_unclosed_negation",
    "Clr.JSON.C33_mismatched_negation",
    "Clr.JSON.C33_dictionary_negation"
   ],
   "note": "Every text accepted without an error is JSON up to the token after the last top-level member (soundness of lexer and parser), and loading ends on every text. The top-level closing brace is not checked by the code: negations with witnesses. Dictionaries excluded (separators unchecked: negation)."
  },
  {
   "property": "C34",
   "status": "partial",
   "theorems": [
    "Clr.JSON.C34_sorted_partial",
    "Clr.JSON.C34_equal_offsets_negation"
   ],
   "note": "For every class with distinct field offsets the sorted output is a permutation in increasing offset order and contains each written field once; C34_equal_offsets_negation: fields at the same offset (empty classes, unions) are dropped."
  },
  {
   "property": "C35",
   "status": "partial",
   "theorems": [
    "Clr.JSON.C35_dispatch",
    "Clr.JSON.C35_other_names_negation"
   ],
   "note": "C35_dispatch: after setup every registered built-in type name has the functions registered for it and setup trips no collision assertion. C35_other_names_negation: the slot is hash mod 47 without a check of the name, so unregistered names are dispatched to other types' functions (8 byte writes into 4 byte enums) and signed char asserts on save."
  },
  {
   "property": "C36",
   "status": "partial",
   "theorems": [
    "Clr.JSON.C36_all_mappable_partial",
    "Clr.JSON.C36_unmappable",
    "Clr.JSON.C36_negation"
   ],
   "note": "All elements mappable: the text is the JSON array of the mapped hashes, in order. C36_unmappable/C36_negation: after an unmappable element the iterator is not advanced, so the rest is not written and the text is malformed."
  },
  {
   "property": "C37",
   "status": "partial",
   "theorems": [
    "Clr.VBin.C37_round_trip_partial",
    "Clr.VBin.C37_transient_untouched_partial",
    "Clr.VBin.C37_pointer_negation",
    "Clr.VBin.C37_pointer_elements_negation",
    "Clr.VBin.C37_unnamed_value_negation",
    "Clr.VBin.C37_wide_enum_negation",
    "Clr.VBin.C37_narrow_enum_negation",
    "Clr.VBin.C37_two_bases_negation",
    "Clr.VBin.C37_class_keys_negation"
   ],
   "note": "C37_round_trip_partial: every supported type (nested classes with bases, C arrays, containers, dictionaries with primitive or enum keys, enums of 4 bytes with named values; no pointers) of any depth is loaded back from what was saved, consuming exactly the written bytes, and nothing but the loadable fields changes. Negations with witnesses: pointers, arrays of pointers, unnamed enum values, enums of 8 and of 1 byte, two base classes, dictionaries with class keys."
  },
  {
   "property": "C38",
   "status": "partial",
   "theorems": [
    "Clr.VBin.C38_versions_partial",
    "Clr.VBin.C38_new_fields_keep_partial",
    "Clr.VBin.C38_other_type_skipped_partial",
    "Clr.VBin.C38_array_type_negation",
    "Clr.VBin.C38_becomes_array_negation",
    "Clr.VBin.C38_becomes_single_negation"
   ],
   "note": "C38_versions_partial for every pair of compatible versions of any depth: shared fields get the saved value (enums by name), others, and native types whose size has changed, keep theirs, the stream stays aligned; C38_other_type_skipped_partial. Excluded, with negations: changing between C array and single value, changing the element type of a C array (the skip is applied after the container header was read)."
  },
  {
   "property": "C39",
   "status": "partial",
   "theorems": [
    "Clr.VBin.C39_ends_partial",
    "Clr.VBin.C39_ends_low_partial",
    "Clr.VBin.C39_negative_size_negation",
    "Clr.VBin.C39_peek_negation"
   ],
   "note": "C39_ends_partial: on every input loading returns unless it seeks backwards; it runs forever only after a backward seek. C39_ends_low_partial: for inputs without bytes >= 128 it always ends, normally, at an assertion or at the over-read. Negations: for every class an input that loops for ever; a container whose data ends at its header is read past the buffer's end."
  },
  {
   "property": "C40",
   "status": "proved",
   "theorems": [
    "Clr.ObjectGroup.C40_group_is_a_map",
    "Clr.ObjectGroup.C40_group_contents"
   ],
   "note": "All histories of add/remove with distinct non-zero ids, all growth and purge steps; refinement to a partial map."
  },
  {
   "property": "C41",
   "status": "proved",
   "theorems": [
    "Clr.ObjectGroup.C41_probing_terminates",
    "Clr.ObjectGroup.C41_giving_up_means_endless",
    "Clr.ObjectGroup.C41_full_table_diverges"
   ],
   "note": "All histories, including repeated ids and removal of absent objects."
  },
  {
   "property": "C42",
   "status": "partial",
   "theorems": [
    "Clr.ObjectGroup.C42_removed_is_gone_partial",
    "Clr.ObjectGroup.C42_duplicate_ids_leave_dangling",
    "Clr.ObjectGroup.C42_duplicate_ids_remove_wrong_object"
   ],
   "note": "Proved for histories with distinct ids. The full claim (repeated ids) is false of the code: C42_duplicate_ids_leave_dangling."
  },
  {
   "property": "C43",
   "status": "partial",
   "theorems": [
    "Clr.ObjectGroup.C43_short_paths_resolve_partial",
    "Clr.ObjectGroup.C43_three_ids_fail",
    "Clr.ObjectGroup.C43_only_last_two_ids_count",
    "Clr.ObjectGroup.C43_search_parents_nearest"
   ],
   "note": "Proved for paths of one or two ids and for parent search. Longer paths are false of the code: C43_three_ids_fail; C43_only_last_two_ids_count says what it computes instead."
  },
  {
   "property": "C44",
   "status": "proved",
   "theorems": [
    "Clr.ObjectIterator.C44_single_visits_each_once",
    "Clr.ObjectIterator.C44_recursive_visits_tree",
    "Clr.ObjectIterator.C44_listing_is_inside",
    "Clr.ObjectIterator.C44_push_is_stack_push",
    "Clr.ObjectIterator.C44_pop_is_stack_pop"
   ],
   "note": "All tables and all finite trees of groups; the array holding pending groups is modelled too."
  },
  {
   "property": "C45",
   "status": "partial",
   "theorems": [
    "Clr.Visit.C45_each_leaf_once_partial",
    "Clr.Visit.C45_stop_partial",
    "Clr.Visit.C45_pointers_partial",
    "Clr.Visit.C45_second_base_negation",
    "Clr.Visit.C45_reference_negation"
   ],
   "note": "C45_each_leaf_once_partial: for every type tree and every memory, the calls are exactly one per path to a selected leaf (pointers; basic and enum values when asked for), with the place that path leads to; C45_stop_partial, C45_pointers_partial are consequences. Assumed: no reference fields, bases at the start of the object, containers keep their iterator contract. Negations with witnesses: fields of a second base are visited at the wrong address; a reference's own bytes are visited as the object it refers to."
  },
  {
   "property": "C46",
   "status": "partial",
   "theorems": [
    "Clr.Attr.C46_well_formed_partial",
    "Clr.Attr.C46_collision_partial",
    "Clr.Attr.C46_upper_hex_negation",
    "Clr.Attr.C46_negative_negation",
    "Clr.Attr.C46_exponent_negation",
    "Clr.Attr.C46_long_text_negation"
   ],
   "note": "C46_well_formed_partial: every list of well-formed items (flags, decimal, 0x hex, float with a point, symbol, quoted text; names and values up to 1023 characters, decimals below 2^31), with any blanks between the parts, parses to exactly its attributes in order, with the names interned; C46_collision_partial: otherwise the name-collision assertion fails. What %f reads is a parameter. Negations with witnesses: 0X hex gives 0, a negative number drops the whole list, 1e5 becomes 1, long texts are cut."
  },
  {
   "property": "C47",
   "status": "partial",
   "theorems": [
    "Clr.Attr.C47_safe_partial",
    "Clr.Attr.C47_ends_partial",
    "Clr.Attr.C47_trailing_comma_negation",
    "Clr.Attr.C47_not_ascii_negation",
    "Clr.Attr.C47_overflow_negation"
   ],
   "note": "C47_safe_partial: for every ASCII text whose last visible character is not a comma, parsing ends and reads no token past the end (it returns, or the name assertion fails, or atoi gets a number out of range); C47_ends_partial: it ends for every text. C47_trailing_comma_negation: behind every well-formed list a comma makes the parser read past the token list; also undefined: isalpha on a negative char, atoi out of range."
  },
  {
   "property": "C48",
   "status": "partial",
   "theorems": [
    "Clr.Scan.C48_reflected_partial",
    "Clr.Scan.C48_siblings",
    "Clr.Scan.C48_forward_negation"
   ],
   "note": "Proved for every declaration tree: everything in the database comes from a declaration that is visible (marked or inside a scope marked reflect, or itself reflect_part), and every such declaration is in the database; the reflection state is restored after each declaration (unconditional). Excluded: forward declarations marked noreflect (reflected anyway: negation proved) and attribute names whose hash is by chance that of one of the three control words."
  },
  {
   "property": "C49",
   "status": "partial",
   "theorems": [
    "Clr.Scan.C49_recorded_partial",
    "Clr.Scan.C49_only_written",
    "Clr.Scan.C49_spec_negation",
    "Clr.Scan.C49_unreflected_recorded"
   ],
   "note": "Proved when the symbol is not named by a reflection spec or says itself whether it is reflected; nothing else is recorded than what was written. Negation proved: with a spec, the first attribute is dropped. Also proved: attributes of unreflected symbols are recorded."
  },
  {
   "property": "C50",
   "status": "partial",
   "theorems": [
    "Clr.Gen.C50_declared_partial",
    "Clr.Gen.C50_namespaces_partial",
    "Clr.Gen.C50_long_name_negation",
    "Clr.Gen.C50_orphan_negation"
   ],
   "note": "For databases in which every name spells the place of its symbol (parents present, parts of at most 498 characters): reading the generated lines back gives exactly the declarations expected of the database, as multisets, and exactly the namespaces with something below them, each once. Fails, with witnesses, for longer names (declaration cut at 511 characters) and for namespaces whose parent is missing."
  },
  {
   "property": "C51",
   "status": "partial",
   "theorems": [
    "Clr.Gen.C51_untouched",
    "Clr.Gen.C51_missing",
    "Clr.Gen.C51_replaced_partial",
    "Clr.Gen.C51_other_file_partial",
    "Clr.Gen.C51_first_line_decides_negation",
    "Clr.Gen.C51_interrupted_negation",
    "Clr.Gen.C51_interrupted_early_partial",
    "Clr.Gen.C51_negation"
   ],
   "note": "The file that holds the generated text is never touched; a missing file, a file without the comment and a file generated from a text with another hash are replaced; a write interrupted before the hash is complete is repaired. Fails: any file with the right first line is kept, in particular any file truncated after the hash by an interrupted write."
  },
  {
   "property": "C52",
   "status": "proved",
   "theorems": [
    "Clr.FileUtils.C52_replace_all",
    "Clr.FileUtils.C52_spec_deterministic",
    "Clr.FileUtils.C52_empty_pattern_never_returns",
    "Clr.FileUtils.C52_remove_leaves_none",
    "Clr.FileUtils.C52_startswith_iff"
   ],
   "note": "Every text, pattern and replacement; the empty pattern never returns (C52_empty_pattern_never_returns), which the statement excludes."
  },
  {
   "property": "C53",
   "status": "partial",
   "theorems": [
    "Clr.FileUtils.C53_token_exact_partial",
    "Clr.FileUtils.C53_long_token_writes_outside",
    "Clr.FileUtils.C53_parameter_token_partial"
   ],
   "note": "Exact when the token is shorter than the buffer; for every token as long as the buffer or longer the terminator is written behind its end: C53_long_token_writes_outside."
  },
  {
   "property": "C54",
   "status": "partial",
   "theorems": [
    "Clr.Params.C54_places_partial",
    "Clr.Params.C54_unaligned_negation",
    "Clr.Params.C54_seventeenth_refused"
   ],
   "note": "C54_places_partial: for every history of uses of the cache for functions of up to 15 parameters, then a function of up to 16: the parameters are in call order, all in the buffer's one current block (nothing has moved), inside it, and disjoint; also when loading stops early. Missing: a cache used before for 16 parameters (the assertion in GetParameter stops the next use, C61_sixteen_negation). Storage is not aligned (C54_unaligned_negation)."
  },
  {
   "property": "C55",
   "status": "proved",
   "theorems": [
    "Clr.Args.C55_index_of_occurrence",
    "Clr.Args.C55_have_iff",
    "Clr.Args.C55_property_value"
   ],
   "note": "Every argument list and occurrence number."
  },
  {
   "property": "C56",
   "status": "proved",
   "theorems": [
    "Clr.FileUtils.C56_lines_exact"
   ],
   "note": "Every file."
  },
  {
   "property": "C57",
   "status": "proved",
   "theorems": [
    "Clr.Merge.C57_merge_order"
   ],
   "note": "Same names of every kind; same overloadable entries without hash collisions."
  },
  {
   "property": "C58",
   "status": "proved",
   "theorems": [
    "Clr.Layout.C58_every_pointer_registered",
    "Clr.Layout.C58_loader_layout",
    "Clr.Layout.C58_array_slots_apart"
   ],
   "note": "LP64 layout; the finite table of exported types is complete, arrays of any length."
  },
  {
   "property": "C59",
   "status": "proved",
   "theorems": [
    "Clr.Export.C59_base_types"
   ],
   "note": "Exact, for well-formed databases with unique type names under the layout conditions of C17."
  },
  {
   "property": "C60",
   "status": "proved",
   "theorems": [
    "Clr.JSON.C60_decimal",
    "Clr.JSON.C60_negative",
    "Clr.JSON.C60_hex",
    "Clr.JSON.C60_double_bits",
    "Clr.JSON.C60_at_end"
   ],
   "note": "C60_decimal, C60_negative, C60_hex: for every digit string and every context, with blanks in front; C60_at_end shows that the delimiter is needed (a number that ends with the text is an error)."
  },
  {
   "property": "C61",
   "status": "partial",
   "theorems": [
    "Clr.Params.C61_lifetimes_partial",
    "Clr.Params.C61_sixteen_negation",
    "Clr.Params.C61_unpaired_negation"
   ],
   "note": "C61_lifetimes_partial: for every history of uses with up to 15 parameters each and any loading outcomes, followed by the destructor, the log of constructor and destructor calls is balanced, without overlap and without use after release. C61_sixteen_negation: with exactly 16 parameters the cache can be built but neither destroyed nor reused (GetParameter asserts on the number of parameters)."
  },
  {
   "property": "C62",
   "status": "partial",
   "theorems": [
    "Clr.Map.C62_function_address_partial",
    "Clr.Map.C62_method_address_partial",
    "Clr.Map.C62_no_such_function",
    "Clr.Map.C62_one_address",
    "Clr.Map.C62_msvc_line_partial",
    "Clr.Map.C62_gcc_function_partial",
    "Clr.Map.C62_gcc_method_partial",
    "Clr.Map.C62_gcc_const_reference_false",
    "Clr.Map.C62_gcc_long_long_false",
    "Clr.Map.C62_template_operator_false",
    "Clr.Map.C62_two_arguments_false",
    "Clr.Map.C62_const_method_false",
    "Clr.Map.C62_wide_address_false",
    "Clr.Map.C62_prefix_in_name_false",
    "Clr.Map.C62_gcc_function_line_partial",
    "Clr.Map.C62_gcc_method_line_partial",
    "Clr.Map.C62_gcc_const_iff"
   ],
   "note": "Proved: for signatures of the grammar in MapFileSpec (named, signed, 64-bit and one-argument template types, const, pointer and reference, as Microsoft's undecorator prints them, and the part of it GCC prints unambiguously) the first function with the name and id gets the address and nothing else changes; symbols of other functions change nothing; from the line on for Microsoft and from the signature on for GCC. False in general (negations): GCC's `float const&` and `long long`, operators in template arguments, two template arguments, Microsoft const methods, 64-bit Microsoft addresses, names that end in a keyword."
  },
  {
   "property": "C63",
   "status": "partial",
   "theorems": [
    "Clr.Map.C63_plain_name_partial",
    "Clr.Map.C63_plain_name_alone_partial",
    "Clr.Map.C63_template_name_partial",
    "Clr.Map.C63_template_name_alone_partial",
    "Clr.Map.C63_template_return_partial",
    "Clr.Map.C63_parser_ends",
    "Clr.Map.C63_repeated_template_false",
    "Clr.Map.C63_conversion_operator_false",
    "Clr.Map.C63_call_operator_false"
   ],
   "note": "Proved: names without template arguments for every parameter list; names or return types with one list of template arguments; the loops end for every signature. False in general (negations): the same arguments twice, conversion and call operators. Missing: several different lists of template arguments."
  },
  {
   "property": "C64",
   "status": "partial",
   "theorems": [
    "Clr.Map.C64_get_type_partial",
    "Clr.Map.C64_constructor_partial",
    "Clr.Map.C64_template_false",
    "Clr.Map.C64_gcc_get_type_partial"
   ],
   "note": "Proved for types whose names have no blank, star or closing angle bracket, from the signature on for GetType and GetTypeNameHash. False for template types (negation)."
  },
  {
   "property": "C65",
   "status": "partial",
   "theorems": [
    "Clr.Map.C65_parameters_end",
    "Clr.Map.C65_parameter_shorter",
    "Clr.Map.C65_short_signatures_partial",
    "Clr.Map.C65_long_type_false",
    "Clr.Map.C65_long_symbol_false",
    "Clr.Map.C65_empty_file_false"
   ],
   "note": "Termination proved for all texts; buffers for signatures under 512 characters. False for longer ones and empty files (negations)."
  },
  {
   "property": "C66",
   "status": "partial",
   "theorems": [
    "Clr.ScanTypes.C66_recorded_means",
    "Clr.ScanTypes.C66_spec_deterministic",
    "Clr.ScanTypes.C66_supported_recorded",
    "Clr.ScanTypes.C66_array_recorded",
    "Clr.ScanTypes.C66_unsupported_rejected",
    "Clr.ScanTypes.C66_pointer_to_pointer",
    "Clr.ScanTypes.C66_typedef_array_false",
    "Clr.ScanTypes.C66_uninstantiated_silent"
   ],
   "note": "Proved: what is recorded is what is declared, one meaning per type, every supported type and array of supported types is recorded, unsupported ones never. False for arrays by way of a typedef (C66_typedef_array_false) and passed over for types not instantiated yet."
  },
  {
   "property": "C67",
   "status": "partial",
   "theorems": [
    "Clr.ScanTypes.C67_instances_described",
    "Clr.ScanTypes.C67_once_partial",
    "Clr.ScanTypes.C67_supported_recorded",
    "Clr.ScanTypes.C67_recursive_base_never",
    "Clr.ScanTypes.C67_const_argument_false",
    "Clr.ScanTypes.C67_four_arguments_false",
    "Clr.ScanTypes.C67_twice_false",
    "Clr.ScanTypes.C67_left_over_false"
   ],
   "note": "Proved: recorded instances are described with all they are made of, supported instances are recorded, and with no instance in itself and distinct names the scan ends with each entry once. False otherwise: see the C67_*_false and C67_recursive_base_never theorems."
  },
  {
   "property": "C68",
   "status": "partial",
   "theorems": [
    "Clr.ScanTypes.C68_function_partial",
    "Clr.ScanTypes.C68_method_partial",
    "Clr.ScanTypes.C68_all_or_nothing",
    "Clr.ScanTypes.C68_supported_added",
    "Clr.ScanTypes.C68_redeclared",
    "Clr.ScanTypes.C68_return_partial",
    "Clr.ScanTypes.C68_reference_return_false",
    "Clr.ScanTypes.C68_void_pointer_false"
   ],
   "note": "Proved for parameters, this, numbers and all-or-nothing; return types as declared for pointers and values. False for returned references and void* (C68_*_false)."
  },
  {
   "property": "C69",
   "status": "partial",
   "theorems": [
    "Clr.ScanTypes.C69_members_partial",
    "Clr.ScanTypes.C69_offsets_partial",
    "Clr.ScanTypes.C69_array_counts",
    "Clr.ScanTypes.C69_anonymous_struct_false"
   ],
   "note": "Proved: all fields are recorded, with their offset in the struct they are declared in, which is that in the class when anonymous structs start at offset 0. False otherwise (C69_anonymous_struct_false)."
  },
  {
   "property": "C70",
   "status": "partial",
   "theorems": [
    "Clr.ScanTypes.C70_constants_partial",
    "Clr.ScanTypes.C70_value_iff",
    "Clr.ScanTypes.C70_small_negative_false",
    "Clr.ScanTypes.C70_scoped_clash_false"
   ],
   "note": "Proved: all constants in order, and exactly when the value recorded is right (C70_value_iff). False for small negative values and names in scoped enums."
  },
  {
   "property": "C71",
   "status": "partial",
   "theorems": [
    "Clr.Gen.C71_getType_partial",
    "Clr.Gen.C71_getHash_partial",
    "Clr.Gen.C71_typeHash_partial",
    "Clr.Gen.C71_in_array_partial",
    "Clr.Gen.C71_call_partial",
    "Clr.Gen.C71_long_name_negation",
    "Clr.Gen.C71_no_types_negation"
   ],
   "note": "Proved for databases whose names spell their scopes and have at most 430 characters. False for longer names (lines are cut at 511 characters) and for a database without types (array of no elements)."
  },
  {
   "property": "C72",
   "status": "partial",
   "theorems": [
    "Clr.Tools.C72_input_loaded",
    "Clr.Tools.C72_output_is_the_merge_partial",
    "Clr.Tools.C72_every_symbol",
    "Clr.Tools.C72_exit_code",
    "Clr.Tools.C72_missing_input",
    "Clr.Tools.C72_unwritable_output_undefined",
    "Clr.Tools.C72_any_file_false",
    "Clr.Tools.C72_short_file_undefined",
    "Clr.Tools.C72_option_behind_input_false"
   ],
   "note": "Proved for databases whose values fit the format and whose names do not collide; exit codes and untouched files for every run. False for outputs that can not be written (undefined), for files that are no databases (accepted as empty, or undefined when short) and for options behind inputs."
  },
  {
   "property": "C73",
   "status": "partial",
   "theorems": [
    "Clr.Tools.C73_export_saved",
    "Clr.Tools.C73_scan_to_lookup_partial",
    "Clr.Tools.C73_exit_code",
    "Clr.Tools.C73_unwritable_output_false"
   ],
   "note": "C73_scan_to_lookup_partial composes clmerge, clexport and the runtime lookup for any number of inputs; it asks of the merged database what C17 asks (no ambiguous parents, no cyclic bases, tables placed away from name hashes: C17_alias_negation) and for no map file (C89 is with one). C73_exit_code is for all arguments and files. C73_unwritable_output_false: an output that can not be written is not reported."
  },
  {
   "property": "C74",
   "status": "proved",
   "theorems": [
    "Clr.Build.C74_tables",
    "Clr.Build.C74_first_primitive",
    "Clr.Build.C74_first_class",
    "Clr.Build.C74_as_added",
    "Clr.Build.C74_sizes",
    "Clr.Build.C74_names",
    "Clr.Build.C74_last_counts",
    "Clr.Build.C74_asserts",
    "Clr.Build.C74_saved_and_read",
    "Clr.Build.C74_inheritance_kept",
    "Clr.Build.C74_every_inheritance_kept_false",
    "Clr.Build.C74_unnamed_container_false"
   ],
   "note": "All histories, all kinds of primitives. Beside it, two shortcomings the statement allows for: inheritances under one text replace each other, and containers without a name are stored."
  },
  {
   "property": "C75",
   "status": "partial",
   "theorems": [
    "Clr.Iter.C75_read_array",
    "Clr.Iter.C75_write_array",
    "Clr.Iter.C75_array_places",
    "Clr.Iter.C75_unsized_elements_false",
    "Clr.Iter.C75_write_life_partial",
    "Clr.Iter.C75_read_life_partial",
    "Clr.Iter.C75_unused_reader_undefined_false",
    "Clr.Iter.C75_second_use_false",
    "Clr.Iter.C75_full_size_refused"
   ],
   "note": "C arrays proved in full; lives of implementations for iterators initialised once. False, for every case: read iterators without an implementation are undefined when destroyed (C75_unused_reader_undefined_false); iterators initialised twice (C75_second_use_false)."
  },
  {
   "property": "C76",
   "status": "partial",
   "theorems": [
    "Clr.JSON.C76_arguments_partial",
    "Clr.JSON.C76_too_few_refused",
    "Clr.JSON.C76_no_list_refused",
    "Clr.JSON.C76_separators_unchecked_false",
    "Clr.JSON.C76_string_ignored_false"
   ],
   "note": "Proved for every function of at most 16 parameters passed by value (classes, numbers, enums, containers, arrays as in C31), whatever order the database lists them in: one fresh object per parameter in call order with the saved value, apart from each other, nothing else touched; too few values and texts that are not lists are refused. Missing: pointers. False of the code and proved so: separators and anything after the last value are unchecked; a string for a parameter that is not an enum is accepted and ignored."
  },
  {
   "property": "C77",
   "status": "partial",
   "theorems": [
    "Clr.Logging.C77_stdout",
    "Clr.Logging.C77_file_partial",
    "Clr.Logging.C77_never_fails",
    "Clr.Logging.C77_file_drops_stdout_false",
    "Clr.Logging.C77_tags_overwrite_false",
    "Clr.Logging.C77_long_text_false",
    "Clr.Logging.C77_deep_indent_undefined",
    "Clr.Logging.C77_name_by_address_false"
   ],
   "note": "C77_stdout: for every history the standard output is exactly the messages, as often as it was set since a file was. C77_file_partial: a file set for one name and tag holds exactly its messages after every call. C77_never_fails for the three tags and depths below 128. False, each for all texts: a file drops the streams set before; a file for several tags is overwritten; texts are cut at 511 bytes; deep indentation is undefined; names are addresses."
  },
  {
   "property": "C78",
   "status": "partial",
   "theorems": [
    "Clr.Mod.C78_lifetimes_partial",
    "Clr.Mod.C78_nothing_left_partial",
    "Clr.Mod.C78_not_loaded_asserts",
    "Clr.Mod.C78_loaded_twice_false",
    "Clr.Mod.C78_stale_database_false",
    "Clr.Mod.C78_copied_undefined",
    "Clr.Mod.C78_null_host_asserts"
   ],
   "note": "C78_lifetimes_partial, C78_nothing_left_partial: every history over any number of modules and libraries in which no module is loaded again after it was loaded, none is copied and hosts are not null. False otherwise: C78_loaded_twice_false, C78_stale_database_false, C78_copied_undefined, C78_null_host_asserts."
  },
  {
   "property": "C79",
   "status": "partial",
   "theorems": [
    "Clr.Call.C79_cdecl_partial",
    "Clr.Call.C79_thiscall_partial",
    "Clr.Call.C79_count_refused",
    "Clr.Call.C79_templates",
    "Clr.Call.C79_no_arguments_unchecked_false",
    "Clr.Call.C79_reads_behind_object_undefined",
    "Clr.Call.C79_no_address_undefined",
    "Clr.Call.C79_null_this_leaves_stack_false",
    "Clr.Call.C79_sixteen_asserts"
   ],
   "note": "C79_cdecl_partial and C79_thiscall_partial: all lists of up to 15 parameters, if the function has an address and whole words can be read of each argument. C79_count_refused, C79_templates in full. False: over-read of objects that do not fill words, missing address, null this, 16 parameters, the template without arguments."
  },
  {
   "property": "C80",
   "status": "partial",
   "theorems": [
    "Clr.ScanTool.C80_containers",
    "Clr.ScanTool.C80_nothing_else",
    "Clr.ScanTool.C80_specs",
    "Clr.ScanTool.C80_dash_false",
    "Clr.ScanTool.C80_key_false"
   ],
   "note": "C80_containers, C80_nothing_else, C80_specs: any files, macros and walks, for macros whose texts have no dash and whose key info is haskey or nokey. C80_dash_false and C80_key_false: all others are dropped."
  },
  {
   "property": "C81",
   "status": "partial",
   "theorems": [
    "Clr.ScanTool.C81_format",
    "Clr.ScanTool.C81_three_characters_false",
    "Clr.ScanTool.C81_outcome",
    "Clr.ScanTool.C81_text_read_back",
    "Clr.ScanTool.C81_binary_read_back_partial",
    "Clr.ScanTool.C81_defined",
    "Clr.ScanTool.C81_unwritable_undefined",
    "Clr.ScanTool.C81_base_types_repeated_false",
    "Clr.ScanTool.C81_specs_carry_over_false"
   ],
   "note": "C81_outcome, C81_format (names of other than three characters), C81_text_read_back, C81_defined for any files and any walk. C81_binary_read_back_partial needs a database without attributes (C13). False: three character names, unwritable outputs, base types once per file, specs carry over to later files."
  },
  {
   "property": "C82",
   "status": "partial",
   "theorems": [
    "Clr.Runtime.C82_memory",
    "Clr.Runtime.C82_kept",
    "Clr.Runtime.C82_loaded",
    "Clr.Runtime.C82_count",
    "Clr.Runtime.C82_all_given_back",
    "Clr.Runtime.C82_end",
    "Clr.Runtime.C82_undefined_only",
    "Clr.Runtime.C82_once",
    "Clr.Runtime.C82_again",
    "Clr.Runtime.C82_failed_load_false"
   ],
   "note": "Proved over all histories: which blocks are in use, by whom, and with what content; giving back is never undefined; everything is given back if no file ends early. False of the code and proved so: a load that fails after the header leaves blocks behind. Allocators are assumed to give fresh blocks and never null."
  },
  {
   "property": "C83",
   "status": "partial",
   "theorems": [
    "Clr.MapFiles.C83_linux_partial",
    "Clr.MapFiles.C83_macos_partial",
    "Clr.MapFiles.C83_msvc_partial",
    "Clr.MapFiles.C83_other_format",
    "Clr.MapFiles.C83_no_file",
    "Clr.MapFiles.C83_no_code",
    "Clr.MapFiles.C83_new_linker_false",
    "Clr.MapFiles.C83_literal_false",
    "Clr.MapFiles.C83_unfinished_line_false"
   ],
   "note": "Proved for all files of the three formats as specified, with any other lines in them. False of the code and proved so: files of newer GNU linkers, texts of the program that look like a table's title (macOS), an unfinished last line. Lines over 4095 characters and fields over 1023 are excluded (C65)."
  },
  {
   "property": "C84",
   "status": "proved",
   "theorems": [
    "Clr.Image.C84_loaded",
    "Clr.Image.C84_type_lookup",
    "Clr.Image.C84_child_lookup",
    "Clr.Image.C84_entry_lookup",
    "Clr.Image.C84_name_lookup",
    "Clr.Image.C84_object_name",
    "Clr.Image.C84_unresolved_stops"
   ],
   "note": "Hypotheses: the image holds the database (Represents), its areas do not overlap (Laid), its pointers are null or lead to objects (Linked), it is smaller than 4 GB; sorted tables for the look-ups (C18). That the export passes build such an image is C17/C18 and, for the bytes, not modelled: the allocator's addresses are the parameter Place."
  },
  {
   "property": "C85",
   "status": "partial",
   "theorems": [
    "Clr.Image.C85_allocations",
    "Clr.Image.C85_loaded_partial",
    "Clr.Image.C85_too_large_false",
    "Clr.Tools.C85_file_written",
    "Clr.Tools.C85_unwritable",
    "Clr.Tools.C85_map_file",
    "Clr.Image.C85_alignment_false",
    "Clr.Image.C85_unowned_attribute_false"
   ],
   "note": "Asks of the database that everything it refers to is in it, that nothing has two possible parents and that no object's address ends in the hash of a name (Fits); proved for every such database, every arena and every load address. The map file parser is a parameter (C83 proves it on its own, C89 puts it in)."
  },
  {
   "property": "C86",
   "status": "partial",
   "theorems": [
    "Clr.Tools.C86_scan_to_memory_partial",
    "Clr.Tools.C86_numbers",
    "Clr.Tools.C86_details_partial"
   ],
   "note": "Composition of C72, C73, C84 and C85 for the command lines without a map file; asks of the merged database what C85 asks. C86_details_partial adds base types, parameters, return values, attributes and sizes; template arguments in memory are in C85 only."
  },
  {
   "property": "C87",
   "status": "partial",
   "theorems": [
    "Clr.Tools.C87_contents_partial"
   ],
   "note": "Asks of the database what C85 asks (Fits), and that its table of names has the names of everything once (databases that were read from files have, and still after a map file); base types, inherited flags, containers and iterators also that no two types share a name."
  },
  {
   "property": "C88",
   "status": "partial",
   "theorems": [
    "Clr.Export.C88_class_constructors",
    "Clr.Export.C88_template_type_constructors",
    "Clr.Export.C88_no_other_constructors",
    "Clr.Export.C88_function_parents",
    "Clr.Export.C88_containers_partial",
    "Clr.Export.C88_iterators_partial",
    "Clr.Export.C88_claimed_function"
   ],
   "note": "Asks of the database what C17 asks (Ready), and for containers that no two types share a name (UniqueTypes). C88_claimed_function: a method named as a template type's constructor has that type for parent, though its class still lists it."
  },
  {
   "property": "C89",
   "status": "partial",
   "theorems": [
    "Clr.Tools.C89_linux_partial",
    "Clr.Tools.C89_macos_partial",
    "Clr.Tools.C89_loaded_partial"
   ],
   "note": "C89_loaded_partial is for the command line with a map file of a Linux or macOS linker; it asks that the lines are spelled as C62 to C64 ask (Items), and of the database with what the map file adds what C85 asks (Fits). Microsoft's map files are read by C83_msvc_partial and C62 but not composed here."
  },
  {
   "property": "C90",
   "status": "partial",
   "theorems": [
    "Clr.ScanUnit.C90_scanned_partial",
    "Clr.ScanUnit.C90_exact",
    "Clr.ScanUnit.C90_ends",
    "Clr.ScanUnit.C90_left_over_false",
    "Clr.ScanUnit.C90_order_false"
   ],
   "note": "The tables after the walk over any translation unit are those read off the declarations. Partial because the code leaves base classes of classes it does not record (C90_left_over_false) and because an instance of a template is taken to be supported if one of the same name has been recorded (C90_order_false); C90_exact is without the second under a condition on each declaration alone. Assumes, as C48 and C66 do, that no attribute has the hash of reflect by chance and that names in types are what they can be in C++."
  },
  {
   "property": "C91",
   "status": "partial",
   "theorems": [
    "Clr.ScanStore.C91_database_partial",
    "Clr.ScanStore.C91_source_to_memory_partial"
   ],
   "note": "Asks what C86 asks: no two texts with one hash, and a merged database that fits (C85). C91_database_partial says what the scanner's database records of each declaration, attributes, bases, parameters and template arguments included; in memory these are said in terms of the databases (C86_details_partial), not of the declarations."
  },
  {
   "property": "C92",
   "status": "partial",
   "theorems": [
    "Clr.ExportLog.C92_text_log_partial",
    "Clr.ExportLog.C92_unwritable",
    "Clr.ExportLog.C92_everything_listed"
   ],
   "note": "Databases with names or texts of at most 240 bytes nested at most 126 deep; beyond that the logger cuts lines or writes behind its indentation (C77)."
  },
  {
   "property": "C93",
   "status": "partial",
   "theorems": [
    "Clr.JSON.C93_inside_partial",
    "Clr.JSON.C93_object_for_pointer_negation",
    "Clr.JSON.C93_small_enum_negation"
   ],
   "note": "Whatever the text, only the object and what is allocated for its containers changes. False of the code, with witnesses, for objects given for pointers to classes and for enums of less than four bytes."
  },
  {
   "property": "C94",
   "status": "partial",
   "theorems": [
    "Clr.VBin.C94_inside_partial",
    "Clr.VBin.C94_pointer_negation"
   ],
   "note": "Whatever the bytes and however loading ends, only the object and what is allocated for its containers changes. False of the code, with a witness, for pointers to types larger than pointers; nothing is said of enums of less than four bytes."
  },
  {
   "property": "C95",
   "status": "proved",
   "theorems": [
    "Clr.JSON.C95_converted",
    "Clr.JSON.C95_out_of_range_undefined"
   ],
   "note": "C95_converted: any layout, any order and repetition of members. C95_out_of_range_undefined: decimals outside the type's range have no defined conversion."
  },
  {
   "property": "C96",
   "status": "partial",
   "theorems": [
    "Clr.JSON.C96_position",
    "Clr.JSON.C96_line_partial",
    "Clr.JSON.C96_container_negation"
   ],
   "note": "C96_position: every error of every text and type is located. C96_line_partial: line and column, for types without containers other than dictionaries and arrays; false of the code, with a witness, for containers."
  },
  {
   "property": "C97",
   "status": "proved",
   "theorems": [
    "Clr.JSON.C97_saved_text",
    "Clr.JSON.C97_numbers"
   ],
   "note": "Proved of every save that returns, for the types of the statement. Lists of pointers of which some cannot be mapped are C36; a field whose type is a transient class has no text after its name (C31_transient_class_negation); values that cannot be saved at all are C28."
  },
  {
   "property": "C98",
   "status": "proved",
   "theorems": [
    "Clr.VBin.C98_saved_bytes",
    "Clr.VBin.C98_same_bytes",
    "Clr.VBin.C98_header"
   ],
   "note": "Proved of every save that returns, for every type. Of a pointer the code saves what would be there if it were not one, and of the elements of a list of pointers nothing (C37_pointer_negation, C37_pointer_elements_negation): Encodes says so."
  },
  {
   "property": "C99",
   "status": "partial",
   "theorems": [
    "Clr.ObjectLife.C99_objects_partial",
    "Clr.ObjectLife.C99_create_partial",
    "Clr.ObjectLife.C99_destroyed_is_gone_partial",
    "Clr.ObjectLife.C99_same_id_negation",
    "Clr.ObjectLife.C99_group_first_negation",
    "Clr.ObjectLife.C99_no_id_negation",
    "Clr.ObjectLife.C99_not_an_object_negation",
    "Clr.ObjectLife.C99_no_destructor_negation"
   ],
   "note": "Proved for histories in which the ids within a group differ, objects placed in groups have an id, classes derive from Object, and groups are destroyed after their members; each restriction is needed (negations)."
  },
  {
   "property": "C100",
   "status": "partial",
   "theorems": [
    "Clr.VBin.C100_custom_partial",
    "Clr.VBin.C100_saved_partial",
    "Clr.VBin.C100_save_only_negation"
   ],
   "note": "Fields saved by a function must be loaded by one if loaded (C100_save_only_negation); functions only for fields of the outermost class and its bases; loading functions as in Behaves; other fields as in C38."
  },
  {
   "property": "C101",
   "status": "partial",
   "theorems": [
    "Clr.JSON.C101_no_functions",
    "Clr.JSON.C101_terminates",
    "Clr.JSON.C101_inside_partial",
    "Clr.JSON.C101_load_partial",
    "Clr.JSON.C101_top_negation",
    "Clr.JSON.C101_array_negation",
    "Clr.JSON.C101_pointer_negation",
    "Clr.JSON.C101_object_negation",
    "Clr.JSON.C101_error_negation",
    "Clr.JSON.C101_empty_negation",
    "Clr.JSON.C101_base_negation"
   ],
   "note": "Termination, confinement and equality without functions in full; what a text does for objects within objects, containers and C arrays, with one value per load function. Dictionaries are not covered; the object itself, C arrays of classes with load functions, pointers and objects given to load functions are refuted."
  },
  {
   "property": "C102",
   "status": "partial",
   "theorems": [
    "Clr.JSON.C102_no_functions",
    "Clr.JSON.C102_custom",
    "Clr.JSON.C102_refused",
    "Clr.JSON.C102_transient",
    "Clr.JSON.C102_class_partial",
    "Clr.JSON.C102_elements",
    "Clr.JSON.C102_token_back",
    "Clr.JSON.C102_round_trip_partial",
    "Clr.JSON.C102_top_negation",
    "Clr.JSON.C102_quote_negation",
    "Clr.JSON.C102_integer_negation",
    "Clr.JSON.C102_base_negation",
    "Clr.JSON.C102_order_negation"
   ],
   "note": "Proved: which functions are called, when and for what; which text is written; the token comes back; the round trip for objects with values of the types of C31 and of classes with inverse functions, in objects, containers and C arrays to any depth. Missing: in the round trip pre_save and post_load functions of what is inside of the object, dictionaries with functions, mapped pointers, and a post_load function that fails; C arrays of pointers in the text of a class."
  },
  {
   "property": "C103",
   "status": "partial",
   "theorems": [
    "Clr.VBin.C103_chunks",
    "Clr.VBin.C103_round_trip_partial",
    "Clr.VBin.C103_none",
    "Clr.VBin.C103_versions_partial",
    "Clr.VBin.C103_reach"
   ],
   "note": "Proved for functions of fields in classes at any depth (fields of class type, base classes, elements of containers, dictionaries and C arrays), and for types that have changed between saving and loading, primitive types of another size among them; missing: containers and C arrays of pointers, and a loading function for a field that was saved without one."
  }
 ]
}