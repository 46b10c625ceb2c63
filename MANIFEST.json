{"claims": [
 {"property": "C01", "status": "proved", "theorems": ["Afs.C01_frame_ranges_cover_exactly", "Afs.C01_no_files", "Afs.C01_full_film_overflows", "Afs.C01_undefined_position_gives_garbage", "Afs.C01_merge_empty_range_invents_frame"], "note": ""},
 {"property": "C02", "status": "proved", "theorems": ["Afs.C02_frame_ranges_canonical", "Afs.C02_frame_ranges_shortest", "Afs.C02_frame_ranges_depend_only_on_frames", "Afs.C02_frame_ranges_order_independent"], "note": ""},
 {"property": "C03", "status": "proved", "theorems": ["Afs.C03_frame_range_clone", "Afs.C03_frame_ranges_clone", "Afs.C03_preview_section_clone", "Afs.C03_preview_sections_clone", "Afs.C03_layout_definition_clone", "Afs.C03_layout_definitions_clone", "Afs.C03_preview_page_clone", "Afs.C03_preview_clone", "Afs.C03_file_metadata_source_clone", "Afs.C03_file_metadata_clone", "Afs.C03_file_clone", "Afs.C03_files_clone", "Afs.C03_reel_clone", "Afs.C03_reels_clone", "Afs.C03_metadata_source_clone", "Afs.C03_metadata_clone", "Afs.C03_toc_clone"], "note": ""},
 {"property": "C04", "status": "proved", "theorems": ["Afs.C04_frame_range_equivalence", "Afs.C04_frame_ranges_equivalence", "Afs.C04_preview_section_equivalence", "Afs.C04_preview_sections_equivalence", "Afs.C04_layout_definition_equivalence", "Afs.C04_layout_definitions_equivalence", "Afs.C04_preview_page_equivalence", "Afs.C04_preview_equivalence", "Afs.C04_file_metadata_source_equivalence", "Afs.C04_file_metadata_equivalence", "Afs.C04_file_equivalence", "Afs.C04_files_equivalence", "Afs.C04_reel_equivalence", "Afs.C04_reels_equivalence", "Afs.C04_metadata_source_equivalence", "Afs.C04_metadata_equivalence", "Afs.C04_toc_equivalence"], "note": ""},
 {"property": "C05", "status": "proved", "theorems": ["Afs.C05_frame_range_equal_iff", "Afs.C05_frame_ranges_equal_iff", "Afs.C05_preview_section_equal_iff", "Afs.C05_preview_sections_equal_iff", "Afs.C05_layout_definition_equal_iff", "Afs.C05_layout_definitions_equal_iff", "Afs.C05_preview_page_equal_iff", "Afs.C05_preview_equal_iff", "Afs.C05_file_metadata_source_equal_iff", "Afs.C05_file_metadata_equal_iff", "Afs.C05_file_equal_iff", "Afs.C05_files_equal_iff", "Afs.C05_reel_equal_iff", "Afs.C05_reels_equal_iff", "Afs.C05_metadata_source_equal_iff", "Afs.C05_metadata_equal_iff", "Afs.C05_toc_equal_iff", "Afs.C05_file_not_equal", "Afs.C05_equal_files_may_differ_in_validity"], "note": ""},
 {"property": "C06", "status": "proved", "theorems": ["Afs.C06_files_add", "Afs.C06_files", "Afs.C06_reel_add", "Afs.C06_reel", "Afs.C06_reels_add", "Afs.C06_reels", "Afs.C06_preview_add", "Afs.C06_preview", "Afs.C06_file_metadata_add", "Afs.C06_file_metadata", "Afs.C06_metadata_add", "Afs.C06_metadata", "Afs.C06_frame_ranges", "Afs.C06_toc_reels", "Afs.C06_toc_metadata", "Afs.C06_null", "Afs.C06_empty", "Afs.C06_null_validity", "Afs.C06_sections_add_result", "Afs.C06_sections"], "note": ""},
 {"property": "C07", "status": "proved", "theorems": ["Afs.C07_sections_disjoint", "Afs.C07_layout_definition_disjoint", "Afs.C07_wraparound_overlap_accepted", "Afs.C07_validity_ignores_duplicate_ids", "Afs.C07_sections_valid_iff"], "note": "The wrap-around counterexample outside the stated 32-bit domain is C07_wraparound_overlap_accepted."},
 {"property": "C08", "status": "proved", "theorems": ["Afs.C08_layouts", "Afs.C08_add_result", "Afs.C08_unique_ids_exact_lookup", "Afs.C08_add_list", "Afs.C08_add_list_refused", "Afs.C08_lookup_by_name"], "note": ""},
 {"property": "C09", "status": "proved", "theorems": ["Afs.C09_reel_file_by_id", "Afs.C09_toc_file_by_id", "Afs.C09_reel_file_by_unique_id", "Afs.C09_unique_id_null", "Afs.C09_toc_unique_id_null", "Afs.C09_toc_file_by_unique_id", "Afs.C09_null_unique_id_is_undefined", "Afs.C09_reel_by_id"], "note": "Unique-id lookup needs non-NULL unique ids; C09_null_unique_id_is_undefined shows exactly when the call is undefined."},
 {"property": "C10", "status": "proved", "theorems": ["Afs.C10_selection", "Afs.C10_partition", "Afs.C10_child_files_include_standalone"], "note": "get_child_files also returns standalone files (C10_child_files_include_standalone), so the partition is parents / children, with standalone files the parentless children."},
 {"property": "C11", "status": "proved", "theorems": ["Afs.C11_file", "Afs.C11_file_off_film", "Afs.C11_preview", "Afs.C11_files", "Afs.C11_reel", "Afs.C11_toc", "Afs.C11_toc_compose", "Afs.C11_toc_zero", "Afs.C11_toc_undo", "Afs.C11_duration", "Afs.C11_leaving_film_is_irreversible", "Afs.C11_half_positioned_files_differ"], "note": "Domain: positions stay on film; C11_leaving_film_is_irreversible shows the domain is needed."},
 {"property": "C12", "status": "proved", "theorems": ["Afs.C12_digital_exact", "Afs.C12_digital_bounds", "Afs.C12_digital_none", "Afs.C12_null", "Afs.C12_storage_order_matters", "Afs.C12_full_film_overflows", "Afs.C12_preview_first", "Afs.C12_preview_last_never_known", "Afs.C12_files_preview_last", "Afs.C12_files_preview_none", "Afs.C12_missing_preview_is_undefined", "Afs.C12_all_first", "Afs.C12_all_last", "Afs.C12_toc_first_last", "Afs.C12_toc_frame_count", "Afs.C12_toc_file_count", "Afs.C12_sections"], "note": "Digital section in full; the reel API never knows the last preview frame (C12_preview_last_never_known)."},
 {"property": "C13", "status": "proved", "theorems": ["Afs.C13_frames_count", "Afs.C13_sections_on_frame", "Afs.C13_no_section_lost", "Afs.C13_refused", "Afs.C13_frames_count_wraps"], "note": ""},
 {"property": "C14", "status": "proved", "theorems": ["Afs.C14_used_layouts_exact", "Afs.C14_used_layouts_null"], "note": ""},
 {"property": "C15", "status": "proved", "theorems": ["Afs.C15_sha1_is_fips180", "Afs.C15_digest_length", "Afs.C15_words_exceed_32_bits", "Afs.C15_padding_is_minimal", "Afs.C15_self_test", "Afs.C15_self_test_detects"], "note": "For messages below 2^64 bits, the FIPS 180-4 domain."},
 {"property": "C16", "status": "proved", "theorems": ["Afs.C16_sha256_is_fips180", "Afs.C16_digest_length", "Afs.C16_round_constants_are_cube_roots", "Afs.C16_self_test"], "note": "For messages below 2^64 bits, the FIPS 180-4 domain."},
 {"property": "C17", "status": "proved", "theorems": ["Afs.C17_sha1_any_chunking", "Afs.C17_sha256_any_chunking", "Afs.C17_chunkings_agree"], "note": ""},
 {"property": "C18", "status": "proved", "theorems": ["Afs.C18_sha1_region", "Afs.C18_sha256_region", "Afs.C18_to_end", "Afs.C18_whole_file", "Afs.C18_outside_is_null", "Afs.C18_no_file", "Afs.C18_start_past_end_accepted", "Afs.C18_negative_size_overruns"], "note": "For sizes >= 0 and -1. Outside: C18_start_past_end_accepted and C18_negative_size_overruns show what the missing checks do."},
 {"property": "C19", "status": "proved", "theorems": ["Afs.C19_hex_matches_spec", "Afs.C19_hex_length", "Afs.C19_hex_lower_case", "Afs.C19_hex_injective"], "note": ""},
 {"property": "C20", "status": "proved", "theorems": ["Afs.C20_text_and_attribute_survive", "Afs.C20_written_text_has_no_markup", "Afs.C20_set_attribute", "Afs.C20_control_character_lost", "Afs.C20_bom_dropped"], "note": "Characters the reader refuses are excluded; C20_control_character_lost and C20_bom_dropped show that and how they are lost."},
 {"property": "C21", "status": "proved", "theorems": ["Afs.C21_roundtrip", "Afs.C21_roundtrip_exact", "Afs.C21_roundtrip_document", "Afs.C21_reader_normal_form", "Afs.C21_special_nodes_are_leaves", "Afs.C21_leading_declaration_contains_the_rest", "Afs.C21_no_control_characters", "Afs.C21_unquoted_value_garbled", "Afs.C21_quoted_name_written", "Afs.C21_quoted_name_refused", "Afs.C21_two_roots_rejected", "Afs.C21_reader_always_returns", "Afs.C21_cdata_end_mark_breaks", "Afs.C21_adjacent_texts_merge"], "note": "Clean trees with any white-space callback; C21_cdata_end_mark_breaks and C21_adjacent_texts_merge show the domain is needed."},
 {"property": "C22", "status": "proved", "theorems": ["Afs.C22_page_general", "Afs.C22_page", "Afs.C22_one_zero_lost", "Afs.C22_preview"], "note": ""},
 {"property": "C23", "status": "proved", "theorems": ["Afs.C23_section", "Afs.C23_sections", "Afs.C23_layout", "Afs.C23_layouts", "Afs.C23_built_sections_storable", "Afs.C23_duplicate_ids_not_loadable", "Afs.C23_empty_list_becomes_null", "Afs.C23_name_trimmed"], "note": ""},
 {"property": "C24", "status": "proved", "theorems": ["Afs.C24_source", "Afs.C24_metadata", "Afs.C24_file_source", "Afs.C24_file_metadata", "Afs.C24_cdata_end_cuts", "Afs.C24_format_without_data_lost", "Afs.C24_empty_tags_lost", "Afs.C24_plain_text_data"], "note": ""},
 {"property": "C25", "status": "proved", "theorems": ["Afs.C25_file_general", "Afs.C25_file", "Afs.C25_files_general", "Afs.C25_files", "Afs.C25_indented_file_is_undefined", "Afs.C25_indented_files_are_undefined", "Afs.C25_checksum_without_data_lost", "Afs.C25_old_format_drops_checksum"], "note": ""},
 {"property": "C26", "status": "proved", "theorems": ["Afs.C26_reel_general", "Afs.C26_reel", "Afs.C26_reels_general", "Afs.C26_reels", "Afs.C26_toc_general", "Afs.C26_toc", "Afs.C26_toc_equal"], "note": ""},
 {"property": "C27", "status": "proved", "theorems": ["Afs.C27_print_is_decimal", "Afs.C27_int", "Afs.C27_int06", "Afs.C27_int06_width", "Afs.C27_unsigned", "Afs.C27_int64", "Afs.C27_pair", "Afs.C27_injective", "Afs.C27_leading_space", "Afs.C27_atoi_range", "Afs.C27_not_a_number", "Afs.C27_int64_saturates", "Afs.C27_overflow_wraps"], "note": ""},
 {"property": "C28", "status": "proved", "theorems": ["Afs.C28_trim", "Afs.C28_trim_unique", "Afs.C28_idempotent", "Afs.C28_keeps", "Afs.C28_indent", "Afs.C28_cut", "Afs.C28_cut_outside"], "note": ""},
 {"property": "C29", "status": "proved", "theorems": ["Afs.C29_rounding_nearest", "Afs.C29_floats_normal", "Afs.C29_frame_exists", "Afs.C29_mark_inside", "Afs.C29_mark_geometry", "Afs.C29_image", "Afs.C29_image_is_mark", "Afs.C29_odd_width_wider", "Afs.C29_no_mark_ub"], "note": ""},
 {"property": "C30", "status": "proved", "theorems": ["Afs.C30_legal_programs_are_safe", "Afs.C30_count_is_number_of_references", "Afs.C30_allocated_iff_reachable", "Afs.C30_no_leak", "Afs.C30_free_destroys_on_last_reference", "Afs.C30_double_free_is_undefined", "Afs.C30_clone_shares_nothing", "Afs.C30_set_part_defined_iff", "Afs.C30_example_legal", "Afs.C30_set_own_preview_is_undefined", "Afs.C30_free_of_borrowed_part_is_undefined", "Afs.C30_free_after_hand_over_is_undefined"], "note": "Heap model of kinds, counts and ownership; plain data left out; add outcomes are parameters. Loaders are not part of this model."},
 {"property": "C31", "status": "proved", "theorems": ["Afs.C31_section_save", "Afs.C31_sections_save", "Afs.C31_layout_definition_save", "Afs.C31_layout_definitions_save", "Afs.C31_preview_save", "Afs.C31_metadata_source_save", "Afs.C31_metadata_save", "Afs.C31_file_metadata_source_save", "Afs.C31_file_metadata_save", "Afs.C31_file_save", "Afs.C31_files_save", "Afs.C31_reel_save", "Afs.C31_reels_save", "Afs.C31_toc_save", "Afs.C31_section_load", "Afs.C31_metadata_source_load", "Afs.C31_file_metadata_source_load", "Afs.C31_sections_load", "Afs.C31_layout_definitions_load", "Afs.C31_preview_load", "Afs.C31_metadata_load", "Afs.C31_file_metadata_load", "Afs.C31_files_load", "Afs.C31_reels_load", "Afs.C31_toc_load", "Afs.C31_invalid_objects_loaded"], "note": ""},
 {"property": "C32", "status": "proved", "theorems": ["Afs.C32_set_get_tags", "Afs.C32_create_get_tags", "Afs.C32_tags_of_list"], "note": "Rests on the stated assumption about the external boxing_string_split (keeps empty pieces)."},
 {"property": "C33", "status": "proved", "theorems": ["Afs.C33_number_cell", "Afs.C33_digit_counts", "Afs.C33_file_table", "Afs.C33_file_table_empty", "Afs.C33_file_table_null", "Afs.C33_file_table_long_format", "Afs.C33_location_table", "Afs.C33_location_table_empty", "Afs.C33_location_table_dimension_overflow", "Afs.C33_location_table_overlap_overflow", "Afs.C33_location_table_null", "Afs.C33_metadata_table", "Afs.C33_metadata_table_null_list", "Afs.C33_metadata_cell", "Afs.C33_metadata_table_null", "Afs.C33_source_table", "Afs.C33_source_table_null", "Afs.C33_source_table_ub", "Afs.C33_layout_table", "Afs.C33_layout_table_null"], "note": "Findings: C33_location_table_dimension_overflow, C33_location_table_overlap_overflow (heap overflow for valid files), C33_file_table_long_format (stack overflow), C33_*_null (NULL strings of valid objects)."},
 {"property": "C34", "status": "proved", "theorems": ["Afs.C34_frames_suffice", "Afs.C34_no_frame_wasted", "Afs.C34_least_sufficient", "Afs.C34_too_few_from_4GiB", "Afs.C34_no_capacity"], "note": "Finding: C34_too_few_from_4GiB, for every file from 4 GiB on."},
 {"property": "C35", "status": "proved", "theorems": ["Afs.C35_size_is_sum", "Afs.C35_reversed_file_gives_zero", "Afs.C35_extent_overflows", "Afs.C35_valid_multi_frame_file_counts_zero"], "note": ""},
 {"property": "C36", "status": "proved", "theorems": ["Afs.C36_extract", "Afs.C36_null", "Afs.C36_no_sections", "Afs.C36_wrap_reads_outside"], "note": ""},
 {"property": "C37", "status": "proved", "theorems": ["Afs.C37_section", "Afs.C37_sections", "Afs.C37_layout", "Afs.C37_layouts", "Afs.C37_page", "Afs.C37_preview", "Afs.C37_file_metadata_source", "Afs.C37_file_metadata", "Afs.C37_file", "Afs.C37_files", "Afs.C37_reel", "Afs.C37_reels", "Afs.C37_metadata_source", "Afs.C37_metadata", "Afs.C37_toc", "Afs.C37_toc_parts"], "note": ""},
 {"property": "C38", "status": "proved", "theorems": ["Afs.C38_first", "Afs.C38_enumerate", "Afs.C38_progress", "Afs.C38_document_order"], "note": ""},
 {"property": "C39", "status": "proved", "theorems": ["Afs.C39_depth_suffices", "Afs.C39_depth_is_least", "Afs.C39_symbols_per_pixel_exact", "Afs.C39_one_level"], "note": "At least one level; with 0 levels the C loop does not terminate. powf is taken as exact."},
 {"property": "C40", "status": "proved", "theorems": ["Afs.C40_entity_lookup_exact", "Afs.C40_entity_names_unique", "Afs.C40_escapes_invert", "Afs.C40_numeric", "Afs.C40_one_number", "Afs.C40_named", "Afs.C40_html", "Afs.C40_wraps", "Afs.C40_rest_ignored"], "note": ""},
 {"property": "C41", "status": "proved", "theorems": ["Afs.C41_content_size", "Afs.C41_skew_is_empty", "Afs.C41_section_size_equal"], "note": ""},
 {"property": "C42", "status": "proved", "theorems": ["Afs.C42_frames_count", "Afs.C42_unknown_layout_fails"], "note": ""},
 {"property": "C43", "status": "proved", "theorems": ["Afs.C43_file_duration", "Afs.C43_files_duration", "Afs.C43_digital_duration", "Afs.C43_files_duration_none"], "note": ""},
 {"property": "C44", "status": "proved", "theorems": ["Afs.C44_parent_kinds", "Afs.C44_set_preview", "Afs.C44_add_type"], "note": ""},
 {"property": "C45", "status": "proved", "theorems": ["Afs.C45_saved_string_complete"], "note": ""},
 {"property": "C46", "status": "proved", "theorems": ["Afs.C46_files", "Afs.C46_reels", "Afs.C46_metadata", "Afs.C46_file_metadata", "Afs.C46_preview", "Afs.C46_sections", "Afs.C46_no_list", "Afs.C46_layout_definition", "Afs.C46_file", "Afs.C46_layout_definitions", "Afs.C46_reel", "Afs.C46_toc_data"], "note": ""},
 {"property": "C47", "status": "proved", "theorems": ["Afs.C47_file", "Afs.C47_reel_preview", "Afs.C47_toc", "Afs.C47_admin", "Afs.C47_file_metadata_source", "Afs.C47_tags", "Afs.C47_types"], "note": ""},
 {"property": "C48", "status": "proved", "theorems": ["Afs.C48_roundtrip", "Afs.C48_save_total", "Afs.C48_equal_iff", "Afs.C48_clone", "Afs.C48_setters", "Afs.C48_load_refused", "Afs.C48_load_file_refused", "Afs.C48_load_replaces", "Afs.C48_spaces_trimmed"], "note": ""},
 {"property": "C49", "status": "proved", "theorems": ["Afs.C49_roundtrip_general", "Afs.C49_roundtrip", "Afs.C49_equal_iff", "Afs.C49_equal_configs", "Afs.C49_set_config", "Afs.C49_describes", "Afs.C49_describes_nothing", "Afs.C49_load_refused", "Afs.C49_clone_equal_iff", "Afs.C49_clone_null", "Afs.C49_clone_clone", "Afs.C49_alias_loses_properties", "Afs.C49_clone_unequal_occurs", "Afs.C49_alias_loss_occurs"], "note": "The boxing library is a parameter with the laws LawfulConfig; an instance shows that the laws can be met."},
 {"property": "C50", "status": "proved", "theorems": ["Afs.C50_roundtrip_general", "Afs.C50_roundtrip", "Afs.C50_incomplete_refused", "Afs.C50_clone_equal", "Afs.C50_equal_iff", "Afs.C50_load_success_iff", "Afs.C50_applications_dropped", "Afs.C50_format_dropped", "Afs.C50_tocs_failure"], "note": "As C49."},
 {"property": "C51", "status": "proved", "theorems": ["Afs.C51_roundtrip_general", "Afs.C51_roundtrip", "Afs.C51_incomplete_refused", "Afs.C51_clone_equal", "Afs.C51_equal_iff", "Afs.C51_load_success_iff", "Afs.C51_technical_failure_hidden", "Afs.C51_missing_technical", "Afs.C51_missing_administrative"], "note": "As C49."},
 {"property": "C52", "status": "proved", "theorems": ["Afs.C52_utf16_file", "Afs.C52_file_as_string", "Afs.C52_utf8_mark", "Afs.C52_objects", "Afs.C52_dfff_refused"], "note": ""},
 {"property": "C53", "status": "proved", "theorems": ["Afs.C53_inside", "Afs.C53_nothing_else", "Afs.C53_le_mark_reads_behind", "Afs.C53_be_mark_reads_behind", "Afs.C53_utf16_inside", "Afs.C53_utf16le_text", "Afs.C53_utf16be_refused", "Afs.C53_utf16be_document"], "note": ""},
 {"property": "C54", "status": "proved", "theorems": ["Afs.C54_reads", "Afs.C54_reads_utf16", "Afs.C54_unambiguous", "Afs.C54_refused", "Afs.C54_not_read"], "note": "Grammar in Spec/Grammar.lean written from the XML recommendation; unread parts shown in C54_not_read."},
 {"property": "C55", "status": "proved", "theorems": ["Afs.C55_page", "Afs.C55_preview", "Afs.C55_section", "Afs.C55_sections", "Afs.C55_layout", "Afs.C55_layouts", "Afs.C55_source", "Afs.C55_metadata", "Afs.C55_file_source", "Afs.C55_file_metadata", "Afs.C55_file", "Afs.C55_files", "Afs.C55_reel", "Afs.C55_reels", "Afs.C55_toc", "Afs.C55_admin", "Afs.C55_format", "Afs.C55_technical", "Afs.C55_control_not_wellFormed"], "note": "Control data shown never well-formed (C55_control_not_wellFormed)."},
 {"property": "C56", "status": "proved", "theorems": ["Afs.C56_any", "Afs.C56_section", "Afs.C56_layout", "Afs.C56_source", "Afs.C56_file_source", "Afs.C56_reel", "Afs.C56_technical", "Afs.C56_page", "Afs.C56_preview", "Afs.C56_sections", "Afs.C56_layouts", "Afs.C56_metadata", "Afs.C56_file_metadata", "Afs.C56_file", "Afs.C56_toc", "Afs.C56_admin", "Afs.C56_format", "Afs.C56_files", "Afs.C56_reels", "Afs.C56_control", "Afs.C56_toc_loss", "Afs.C56_admin_loss", "Afs.C56_files_loss", "Afs.C56_reels_loss", "Afs.C56_control_loss", "Afs.C56_string_loss"], "note": "For every object type the cut theorem, and for table of contents, administrative metadata, files, reels and control data the theorem that the excepted cut loads with success (C56_*_loss). C56_any covers every text that begins with the declaration."},
 {"property": "C57", "status": "proved", "theorems": ["Afs.C57_new", "Afs.C57_add", "Afs.C57_remove", "Afs.C57_null", "Afs.C57_always", "Afs.C57_listing", "Afs.C57_no_node", "Afs.C57_child_loop", "Afs.C57_successor", "Afs.C57_self_loop"], "note": "Pointer-level model of node memory (Model/Xml/Links.lean) against the specification Spec/Links.lean; C57_always covers every sequence of calls; C57_self_loop shows why adding relative to itself is excluded."},
 {"property": "C58", "status": "proved", "theorems": ["Afs.C58_delete", "Afs.C58_delete_safe", "Afs.C58_gone", "Afs.C58_release", "Afs.C58_retain", "Afs.C58_null", "Afs.C58_example"], "note": "C58_delete gives the freed list, its order, and the heap behind it; C58_delete_safe for every reachable heap."},
 {"property": "C59", "status": "proved", "theorems": ["Afs.C59_tree", "Afs.C59_order", "Afs.C59_walk", "Afs.C59_find", "Afs.C59_write", "Afs.C59_write_example", "Afs.C59_write_sibling", "Afs.C59_walk_example"], "note": "C59_write connects the pointer loop of mxml_write_node with the recursive text used by C20-C26; C59_write_sibling shows that saving a node with a next sibling runs off the tree."},
 {"property": "C60", "status": "proved", "theorems": ["Afs.C60_of_list", "Afs.C60_read_string", "Afs.C60_read_file", "Afs.C60_read_then_delete", "Afs.C60_fresh_exists", "Afs.C60_root_with_bad_attributes_is_lost", "Afs.C60_text_behind_the_root_is_lost"], "note": "The reader with its buffers and linked nodes (Model/Xml/ParseMem.lean) simulates the reader on values used by C20-C56; the two leaks are shown by C60_root_with_bad_attributes_is_lost and C60_text_behind_the_root_is_lost; malloc is assumed to succeed."},
 {"property": "C61", "status": "proved", "theorems": ["Afs.C61_page", "Afs.C61_preview", "Afs.C61_file", "Afs.C61_files", "Afs.C61_reel", "Afs.C61_reels", "Afs.C61_toc", "Afs.C61_source", "Afs.C61_metadata", "Afs.C61_file_source", "Afs.C61_file_metadata", "Afs.C61_section", "Afs.C61_sections", "Afs.C61_layout", "Afs.C61_layouts", "Afs.C61_empty_reel", "Afs.C61_layout_id", "Afs.C61_file_exceptions"], "note": "Exact characterisation (iff) for all fifteen kinds; the schema is transcribed in Spec/Schema.lean; lists of files and a file entry saved to a file only compact (the indented form is undefined behaviour, C25)."},
 {"property": "C62", "status": "proved", "theorems": ["Afs.C62_library_any", "Afs.C62_library_full", "Afs.C62_library_good", "Afs.C62_library_lost_space", "Afs.C62_section", "Afs.C62_sections", "Afs.C62_layout", "Afs.C62_layouts", "Afs.C62_page", "Afs.C62_preview", "Afs.C62_source", "Afs.C62_metadata", "Afs.C62_file_source", "Afs.C62_file_metadata", "Afs.C62_file", "Afs.C62_files", "Afs.C62_reel", "Afs.C62_reels", "Afs.C62_toc", "Afs.C62_admin", "Afs.C62_format", "Afs.C62_technical", "Afs.C62_control", "Afs.C62_toc_loss", "Afs.C62_toc_after", "Afs.C62_toc_full", "Afs.C62_control_loss", "Afs.C62_reel_after"], "note": "Writes fail byte by byte as seen through putc; what a buffered stream loses at fclose is a smaller k. The old contents are lost by fopen \"w+\". A file entry and a list of files only compact (otherwise undefined behaviour, C25)."},
 {"property": "C63", "status": "proved", "theorems": ["Afs.C63_loading_programs_are_safe", "Afs.C63_count_is_number_of_references", "Afs.C63_reachable_is_allocated", "Afs.C63_allocated_iff_reachable_or_lost", "Afs.C63_result_and_loss", "Afs.C63_lost_is_never_freed", "Afs.C63_no_leak", "Afs.C63_success_on_a_new_object_loses_nothing", "Afs.C63_loading_touches_only_the_object", "Afs.C63_example_legal", "Afs.C63_failed_load_leaks", "Afs.C63_loading_a_reel_twice_leaks", "Afs.C63_loading_a_table_twice_is_clean", "Afs.C63_reported_success_can_leak"], "note": "Ownership only: what a document holds is a parameter of the loaders (every document is covered, and more). Known leaks are theorems."},
 {"property": "C64", "status": "proved", "theorems": ["Afs.C64_index", "Afs.C64_index_string", "Afs.C64_index_file", "Afs.C64_index_same", "Afs.C64_file", "Afs.C64_reel", "Afs.C64_preview", "Afs.C64_pages", "Afs.C64_file_metadata", "Afs.C64_metadata", "Afs.C64_layouts", "Afs.C64_section", "Afs.C64_example", "Afs.C64_text_in_cdata_is_lost", "Afs.C64_text_with_comment_is_cut", "Afs.C64_size_forms_refused", "Afs.C64_source_without_ids_refused", "Afs.C64_large_numbers_wrap", "Afs.C64_preview_without_pages"], "note": "Schema transcribed by hand in Spec/Schema.lean (C61). Hypotheses beyond the schema are PlainDoc; each is shown needed by a counterexample."},
 {"property": "C65", "status": "proved", "theorems": ["Afs.C65_no_undefined_behaviour", "Afs.C65_each_as_if_alone", "Afs.C65_every_thread_finishes", "Afs.C65_shared_objects_unchanged", "Afs.C65_no_data_race", "Afs.C65_alone_is_C30", "Afs.C65_lost_reference", "Afs.C65_references_in_turn", "Afs.C65_sharing_breaks_counts", "Afs.C65_freeing_together_is_undefined", "Afs.C65_example"], "note": "Accesses as in Model/Threads.lean (pointer fields of an object in one access, static types free); sequentially consistent interleaving, justified by the absence of races. Plain data and mini-XML globals are outside."},
 {"property": "C66", "status": "proved", "theorems": ["Afs.C66_every_schedule", "Afs.C66_short_reads_do_not_matter", "Afs.C66_missing_data_goes_unnoticed", "Afs.C66_read_error_is_undefined", "Afs.C66_seek_failure_is_null", "Afs.C66_without_failures_is_C18"], "note": "Short reads never matter; a read that delivers nothing is not reported (findings)."},
 {"property": "C67", "status": "proved", "theorems": ["Afs.C67_admin", "Afs.C67_published_format_is_lost", "Afs.C67_format", "Afs.C67_technical", "Afs.C67_control", "Afs.C67_saved_admin", "Afs.C67_saved_format", "Afs.C67_saved_technical", "Afs.C67_saved_control", "Afs.C67_control_string", "Afs.C67_control_file", "Afs.C67_example_written", "Afs.C67_example_published", "Afs.C67_example_refused", "Afs.C67_example_saved"], "note": "Both directions; the published edition is not what the library writes (findings)."},
 {"property": "C68", "status": "proved", "theorems": ["Afs.C68_text", "Afs.C68_loads", "Afs.C68_settings", "Afs.C68_roundtrip"], "note": "What the texts say was found with another XML parser (tools/builtin.py); the kernel runs the model of the reader on them."},
 {"property": "C69", "status": "proved", "theorems": ["Afs.C69_preview", "Afs.C69_layouts", "Afs.C69_metadata", "Afs.C69_files", "Afs.C69_toc", "Afs.C69_control", "Afs.C69_text", "Afs.C69_loads", "Afs.C69_relation", "Afs.C69_start_counts"], "note": "CDATA sections inside data elements of metadata sources are content, not layout."},
 {"property": "C70", "status": "proved", "theorems": ["Afs.C70_for_ever", "Afs.C70_page", "Afs.C70_preview", "Afs.C70_layouts", "Afs.C70_metadata", "Afs.C70_file", "Afs.C70_files", "Afs.C70_reel", "Afs.C70_reels", "Afs.C70_toc", "Afs.C70_file_same", "Afs.C70_files_same", "Afs.C70_reel_same", "Afs.C70_reels_same", "Afs.C70_toc_same", "Afs.C70_admin", "Afs.C70_format", "Afs.C70_technical", "Afs.C70_control", "Afs.C70_wellFormed", "Afs.C70_toc_text", "Afs.C70_control_text", "Afs.C70_example", "Afs.C70_control_example", "Afs.C70_not_kept", "Afs.C70_section_end"], "note": "Lists of files, and file entries saved to files, are copied compact only (indented is undefined behaviour, C25). Equality of formats uses the laws assumed of the boxing library's configurations."},
 {"property": "C71", "status": "proved", "theorems": ["Afs.C71_refused", "Afs.C71_refused_after", "Afs.C71_second_root", "Afs.C71_no_character", "Afs.C71_objects", "Afs.C71_example", "Afs.C71_not_enforced"], "note": "Texts with U+FEFF are left out (the reader skips that character); the names of known entities are those of HTML 4, apos and four older ones (Spec/Html, C40_html)."},
 {"property": "C72", "status": "proved", "theorems": ["Afs.C72_memory", "Afs.C72_after_all", "Afs.C72_no_leak", "Afs.C72_no_load_no_loss", "Afs.C72_fresh_load", "Afs.C72_toc_load", "Afs.C72_load_file", "Afs.C72_load_string", "Afs.C72_set_own_string", "Afs.C72_get_tags", "Afs.C72_reload_leaks", "Afs.C72_reload_leaks_memory"], "note": "Freed addresses are never reused in the model, parts of objects are objects of their own (C30, C63 for their references), allocation does not fail."},
 {"property": "C73", "status": "proved", "theorems": ["Afs.C73_histories", "Afs.C73_defined", "Afs.C73_files_closed", "Afs.C73_only_named", "Afs.C73_last_save", "Afs.C73_copy_toc", "Afs.C73_copy_admin", "Afs.C73_copy_control", "Afs.C73_lost", "Afs.C73_nothing_lost", "Afs.C73_closed_loses", "Afs.C73_closed_deleted", "Afs.C73_wrong_text_loses", "Afs.C73_save_string_loses_nothing"], "note": "Indented saving of files and lists of files is undefined (C25) and excluded from the histories that are shown to run; a read error is the end of the file and lasts (it does not go away in the same load), allocation does not fail, names stand for different files."},
 {"property": "C74", "status": "proved", "theorems": ["Afs.C74_section", "Afs.C74_layout", "Afs.C74_source", "Afs.C74_file_source", "Afs.C74_reel", "Afs.C74_technical", "Afs.C74_page", "Afs.C74_preview", "Afs.C74_sections", "Afs.C74_layouts", "Afs.C74_metadata", "Afs.C74_file_metadata", "Afs.C74_file", "Afs.C74_toc", "Afs.C74_admin", "Afs.C74_format", "Afs.C74_files", "Afs.C74_reels", "Afs.C74_control", "Afs.C74_session_toc", "Afs.C74_session_admin", "Afs.C74_session_control", "Afs.C74_gap"], "note": "A write or read that fails is a putc or getc that returns EOF; buffering by stdio is not modelled (a failing flush loses whole blocks); a read error lasts until the file is closed. Lists: C74_files and C74_reels leave the outcome open when the file stops by the outermost name."},
 {"property": "C75", "status": "proved", "theorems": ["Afs.C75_preview", "Afs.C75_file_metadata", "Afs.C75_toc_metadata", "Afs.C75_sections", "Afs.C75_file", "Afs.C75_files", "Afs.C75_reel", "Afs.C75_reels", "Afs.C75_layout", "Afs.C75_layouts", "Afs.C75_toc", "Afs.C75_technical", "Afs.C75_control", "Afs.C75_nothing_is_left", "Afs.C75_saved_and_loaded", "Afs.C75_created", "Afs.C75_example_value", "Afs.C75_example"], "note": "Lists of layouts and tables of contents where loading is defined (C46). Loading into objects that already own parts is C63."},
 {"property": "C76", "status": "proved", "theorems": ["Afs.C76_not_given_not_changed", "Afs.C76_footprint", "Afs.C76_copy_is_new", "Afs.C76_copy_stays", "Afs.C76_original_stays", "Afs.C76_set_part_copies", "Afs.C76_example", "Afs.C76_example_copy", "Afs.C76_adding_shares"], "note": "The heap model of C30 and C63: objects, counts and parts. The values in the objects are pure in the value models (C03); their strings are C72."},
 {"property": "C77", "status": "proved", "theorems": ["Afs.C77_programs_defined", "Afs.C77_call_defined", "Afs.C77_counts", "Afs.C77_reads", "Afs.C77_name_within", "Afs.C77_equal_save", "Afs.C77_effects", "Afs.C77_free_destroys", "Afs.C77_configs_owned", "Afs.C77_no_leak", "Afs.C77_set_config_own", "Afs.C77_init_unset", "Afs.C77_example", "Afs.C77_own_config_example"], "note": "Configurations (unboxinglib) are blocks with a value; their text lives as long as they do."},
 {"property": "C78", "status": "proved", "theorems": ["Afs.C78_sources", "Afs.C78_sources_tags", "Afs.C78_sources_valid", "Afs.C78_lists", "Afs.C78_layouts", "Afs.C78_from_saved", "Afs.C78_new_objects", "Afs.C78_from_node", "Afs.C78_failure_hidden", "Afs.C78_control_objects"], "note": "boxing_string_split (unboxinglib, not in the repository) is taken to split at every separator, and to give NULL for NULL."},
 {"property": "C79", "status": "proved", "theorems": ["Afs.C79_programs", "Afs.C79_nothing_left", "Afs.C79_set_again_leaks", "Afs.C79_failed_init_then_free", "Afs.C79_out_of_memory", "Afs.C79_no_memory_for_frame", "Afs.C79_example"], "note": "Programs of calls over a memory of blocks with an arbitrary allocator (addresses reused, NULL possible), refined by values without addresses."},
 {"property": "C80", "status": "proved", "theorems": ["Afs.C80_lists", "Afs.C80_lists_again", "Afs.C80_page", "Afs.C80_replaced", "Afs.C80_sources", "Afs.C80_reel", "Afs.C80_technical", "Afs.C80_toc", "Afs.C80_file", "Afs.C80_again", "Afs.C80_toc_again", "Afs.C80_file_again", "Afs.C80_layouts_again", "Afs.C80_sources_again", "Afs.C80_stale", "Afs.C80_example"], "note": "Every loader compared with the load into a new object; a source with data keeps them against plain text data (C80_stale)."},
 {"property": "C81", "status": "proved", "theorems": ["Afs.C81_layout", "Afs.C81_layouts", "Afs.C81_add_layout", "Afs.C81_page", "Afs.C81_preview", "Afs.C81_edit_preview", "Afs.C81_file_metadata", "Afs.C81_add_source", "Afs.C81_file", "Afs.C81_edit_file", "Afs.C81_files", "Afs.C81_edit_files", "Afs.C81_reel", "Afs.C81_reel_files", "Afs.C81_saved_file", "Afs.C81_saved_files", "Afs.C81_saved_reel", "Afs.C81_saved_toc", "Afs.C81_saved_reels", "Afs.C81_saved_parts", "Afs.C81_saved_built", "Afs.C81_saved_format", "Afs.C81_reels", "Afs.C81_add_reel", "Afs.C81_metadata", "Afs.C81_add_metadata", "Afs.C81_toc", "Afs.C81_edit_toc", "Afs.C81_add_layouts", "Afs.C81_exceptions"], "note": "Every query and edit factors through the normal form that decides equality (C05); C81_exceptions shows where equality is coarser than behaviour."},
 {"property": "C82", "status": "proved", "theorems": ["Afs.C82_no_growth_refused", "Afs.C82_growths_granted", "Afs.C82_growth_refused", "Afs.C82_safe_iff", "Afs.C82_first_refused", "Afs.C82_nothing_refused", "Afs.C82_all_or_nothing", "Afs.C82_attribute_dropped", "Afs.C82_cut_behind_comment"], "note": "The memory-level reader of C60 with a choice of refusals at every character; strdup of names and values (whose failure the code does not look at) is not refused."},
 {"property": "C83", "status": "proved", "theorems": ["Afs.C83_end", "Afs.C83_taken_for", "Afs.C83_three_ways", "Afs.C83_memory", "Afs.C83_other_document", "Afs.C83_other_text", "Afs.C83_other_declaration"], "note": "Failures are at character boundaries of the decoded text; a failure inside a multi-byte character is an end of file there, and the rest of the character is then part of the continuation."},
 {"property": "C84", "status": "proved", "theorems": ["Afs.C84_accepted", "Afs.C84_bytes_read", "Afs.C84_text", "Afs.C84_text_utf16", "Afs.C84_unambiguous", "Afs.C84_objects", "Afs.C84_recommendation", "Afs.C84_bytes", "Afs.C84_no_markup", "Afs.C84_example"], "note": "The value of a reference (entityChar), the bytes of a character and the decoding of bytes into characters are taken from the model; the value of a reference is characterised in C40 (C40_numeric, C40_one_number, C40_named), the bytes in C84_bytes, the decoding in C52/C53."},
 {"property": "C85", "status": "proved", "theorems": ["Afs.C85_alone", "Afs.C85_breaks", "Afs.C85_same_tree", "Afs.C85_objects", "Afs.C85_toc", "Afs.C85_threads", "Afs.C85_side_effect"], "note": "Reads and sets of the margin are sequentially consistent; the column is a natural number; that afs calls mxmlSetWrapMargin(0) before each save is the hypothesis SetsFirst."},
 {"property": "C86", "status": "proved", "theorems": ["Afs.C86_sound", "Afs.C86_pixels", "Afs.C86_layout_lookup", "Afs.C86_layout_by_name", "Afs.C86_toc_defined", "Afs.C86_layouts_defined", "Afs.C86_preview_frames_defined", "Afs.C86_last_frame_defined", "Afs.C86_lists_valid", "Afs.C86_file_valid", "Afs.C86_toc_valid", "Afs.C86_toc_saves", "Afs.C86_shift_off_film", "Afs.C86_vectors_unchecked"], "note": "Objects are values: an object is not changed through another reference after it was put into a list. Constructors handed a whole vector and direct writes to struct fields are left out; both can break the claim (C86_vectors_unchecked), and so can moving frames off film (C86_shift_off_film)."},
 {"property": "C87", "status": "proved", "theorems": ["Afs.C87_preview", "Afs.C87_layouts", "Afs.C87_metadata", "Afs.C87_file", "Afs.C87_files", "Afs.C87_reel", "Afs.C87_reels", "Afs.C87_toc", "Afs.C87_file_same", "Afs.C87_toc_same", "Afs.C87_load_string", "Afs.C87_load_file"], "note": "Objects are values, as in C86; loading a text is loading its document (C87_load_string, C87_load_file)."},
 {"property": "C88", "status": "proved", "theorems": ["Afs.C88_admin", "Afs.C88_format", "Afs.C88_technical", "Afs.C88_control"], "note": "Copies of a boxing format made by afs_boxing_format_clone are covered when a frame can be made for the configuration (otherwise a copy may differ, C49). The fields of technical metadata have no setters and are written directly. Lists of files taken out of technical metadata are not fed back into tables of contents."},
 {"property": "C89", "status": "proved", "theorems": ["Afs.C89_preview", "Afs.C89_layouts", "Afs.C89_metadata", "Afs.C89_files", "Afs.C89_toc", "Afs.C89_control", "Afs.C89_text", "Afs.C89_loads", "Afs.C89_relation", "Afs.C89_added", "Afs.C89_attribute", "Afs.C89_inside_counts", "Afs.C89_saved_toc", "Afs.C89_saved_file", "Afs.C89_built", "Afs.C89_schema"], "note": "Spec/Extended lists the known names; C69 (layout) is derived from it. C89_inside_counts shows that the condition on what unknown elements hold is needed."},
 {"property": "C90", "status": "proved", "theorems": ["Afs.C90_preview", "Afs.C90_layouts", "Afs.C90_metadata", "Afs.C90_file", "Afs.C90_toc", "Afs.C90_toc_iff", "Afs.C90_admin", "Afs.C90_control"], "note": "Complete: previews and metadata are there exactly when the kind of an entry says so, the entry has data on the medium and a format, no container is without entries. For control data a copy of the technical metadata is one in the sense of C88 (boxing formats may be written differently by the library that is not in /repo)."},
 {"property": "C91", "status": "proved", "theorems": ["Afs.C91_attributes", "Afs.C91_nothing_left", "Afs.C91_same_model", "Afs.C91_buffer_lost", "Afs.C91_array_lost"], "note": "The element's list of attributes is modelled as addresses in a memory with allocation and freeing, and C91_same_model ties it to the lists of Model/Xml/Node. Formatted texts are shorter than 2^31 - 1 bytes (otherwise the size of the buffer overflows) and are given as texts; afs itself never deletes an attribute."},
 {"property": "C92", "status": "proved", "theorems": ["Afs.C92_held", "Afs.C92_files_closed", "Afs.C92_nothing_left", "Afs.C92_same_save", "Afs.C92_same_load", "Afs.C92_string_lost"], "note": "FILEs and documents are things that are made, used and given back; C92_same_save and C92_same_load tie the answers and the file's contents to Model/Io. Making a document is assumed to succeed; that a document is freed as a whole is C57/C60. What the objects themselves leak when they do not load is C63."},
 {"property": "C93", "status": "proved", "theorems": ["Afs.C93_everywhere", "Afs.C93_children", "Afs.C93_beside", "Afs.C93_value_alone", "Afs.C93_path", "Afs.C93_no_path", "Afs.C93_unambiguous", "Afs.C93_no_way_back"], "note": "The node the search is confined to is the one it starts from (both arguments of mxmlFindElement). C93_no_way_back: an element that is there is not found by its path if an element of the name of its parent comes before its parent."},
 {"property": "C94", "status": "proved", "theorems": ["Afs.C94_callbacks", "Afs.C94_html", "Afs.C94_removed", "Afs.C94_full"], "note": "Callbacks are functions of the name (they do not themselves add or remove callbacks). NULL is never added. After the library's callback is removed, no name is known, also not amp (C94_removed)."},
 {"property": "C95", "status": "proved", "theorems": ["Afs.C95_find", "Afs.C95_enum", "Afs.C95_no_attribute", "Afs.C95_value_alone_missed", "Afs.C95_sorted", "Afs.C95_complete"], "note": "Which elements an index holds is C93 (they are found by mxmlFindElement). C95_value_alone_missed: a value without a name is not found reliably, because the index is in the order of the names first."}
]}
