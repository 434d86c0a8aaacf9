{
 "claims": [
  {
   "property": "C01",
   "status": "proved",
   "theorems": [
    "PE.C01_align_down",
    "PE.C01_align_up",
    "PE.C01_align_up_wraps",
    "PE.C01_align_up_size_t",
    "PE.C01_is_power_of_2"
   ],
   "note": "align_down/align_up characterised for every power-of-two alignment; the 32-bit wrap of align_up near 4 GiB is stated exactly."
  },
  {
   "property": "C02",
   "status": "proved",
   "theorems": [
    "PE.C02_raw_data_unchanged",
    "PE.C02_virtual_is_raw_then_zeros",
    "PE.C02_virtual_length",
    "PE.C02_mapped_view_is_stale_after_resize"
   ],
   "note": "For every sequence of view requests; the staleness of a mapped view after a size change is shown as a separate fact."
  },
  {
   "property": "C03",
   "status": "proved",
   "theorems": [
    "PE.C03_name",
    "PE.C03_name_round_trip"
   ],
   "note": "First 8 bytes, up to the first NUL."
  },
  {
   "property": "C04",
   "status": "proved",
   "theorems": [
    "PE.C04_last_setter_wins",
    "PE.C04_other_bits_unchanged"
   ],
   "note": "Last setter wins for every history of setters; all other bits unchanged."
  },
  {
   "property": "C05",
   "status": "partial",
   "theorems": [
    "PE.C05_rva_to_va_32",
    "PE.C05_rva_to_va_64_partial",
    "PE.C05_rva_to_va_64_unchecked",
    "PE.C05_va_to_rva",
    "PE.C05_round_trip",
    "PE.C05_round_trip'"
   ],
   "note": "Exact for PE32 and for PE32+ with image base + rva below 2^64; the unchecked 64-bit overflow is shown as counterexample."
  },
  {
   "property": "C06",
   "status": "proved",
   "theorems": [
    "PE.C06_section_lookup",
    "PE.C06_unique",
    "PE.C06_wrapping_section_not_found"
   ],
   "note": "For sections ending below 4 GiB; a section whose range wraps is shown not to be found."
  },
  {
   "property": "C07",
   "status": "proved",
   "theorems": [
    "PE.C07_offset_rva_offset",
    "PE.C07_rva_offset_rva"
   ],
   "note": "Both directions, for layouts with disjoint ranges."
  },
  {
   "property": "C08",
   "status": "proved",
   "theorems": [
    "PE.C08_read_is_safe",
    "PE.C08_read_value"
   ],
   "note": "No undefined behaviour for any image; exact characterisation of the value read."
  },
  {
   "property": "C09",
   "status": "partial",
   "theorems": [
    "PE.C09_length_is_safe",
    "PE.C09_section_length_is_safe_partial",
    "PE.C09_section_length_unsafe_above_2gb"
   ],
   "note": "Address variant: every image. Section variant: virtual ranges up to 2 GiB; counterexample above."
  },
  {
   "property": "C10",
   "status": "partial",
   "theorems": [
    "PE.C10_add_sections_partial",
    "PE.C10_add_section_succeeds_iff",
    "PE.C10_wrap_overlaps"
   ],
   "note": "For images and new sections whose layout stays below 4 GiB; the 32-bit wrap-around is shown as a counterexample."
  },
  {
   "property": "C11",
   "status": "partial",
   "theorems": [
    "PE.C11_add_section_partial",
    "PE.C11_update_image_size",
    "PE.C11_set_section_virtual_size",
    "PE.C11_fresh_image_too_small",
    "PE.C11_recalculate_leaves_size_behind"
   ],
   "note": "SizeOfImage is right after update_image_size and set_section_virtual_size and stays right through add_section; false for a freshly created image and after recalculate_section_sizes (counterexamples)."
  },
  {
   "property": "C12",
   "status": "partial",
   "theorems": [
    "PE.C12_exists_then_get_partial",
    "PE.C12_set_get",
    "PE.C12_remove",
    "PE.C12_remove_flags",
    "PE.C12_exists_but_get_throws",
    "PE.C12_count_above_16_is_ub"
   ],
   "note": "For headers with 1 to 16 directories; counterexamples for 0 and for more than 16. Removing a directory is characterised bit by bit, with its effect on the characteristics."
  },
  {
   "property": "C13",
   "status": "partial",
   "theorems": [
    "PE.C13_strip_partial",
    "PE.C13_one_entry_too_few"
   ],
   "note": "Keeps every used directory and the requested minimum except for the exact off-by-one shown as counterexample."
  },
  {
   "property": "C14",
   "status": "proved",
   "theorems": [
    "PE.C14_load_safe",
    "PE.C14_factory_safe"
   ],
   "note": "For every byte string, both kinds, file or memory dump, with or without debug data. Allocation failure is outside the model."
  },
  {
   "property": "C15",
   "status": "partial",
   "theorems": [
    "PE.C15_headers_partial",
    "PE.C15_sections_partial",
    "PE.C15_valid_table_partial",
    "PE.C15_sizeImage_unaligned",
    "PE.C15_wrap_accepted",
    "PE.C15_first_unaligned"
   ],
   "note": "All documented invariants except the ones the loader does not establish: SizeOfImage alignment, 32-bit wrap of section ends, alignment of the first section (three counterexamples). With those excluded the section table is valid."
  },
  {
   "property": "C16",
   "status": "proved",
   "theorems": [
    "PE.C16_sections",
    "PE.C16_headers",
    "PE.C16_zero_vsize_loses_data"
   ],
   "note": "Every header field and data byte is traced to the file; SizeOfRawData may be cut to the virtual size, and a zero virtual size loses the data (proved)."
  },
  {
   "property": "C17",
   "status": "proved",
   "theorems": [
    "PE.C17_layout",
    "PE.C17_headers"
   ],
   "note": "C17_layout and C17_headers hold for every image whose written file is smaller than 4 GiB and whose stub is smaller than 2 GiB."
  },
  {
   "property": "C18",
   "status": "partial",
   "theorems": [
    "PE.C18_data_partial",
    "PE.C18_headers",
    "PE.C18_bound",
    "PE.C18_completes",
    "PE.C18_stale_pointer_shifts_data",
    "PE.C18_added_section_overread",
    "PE.C18_many_dirs_overread",
    "PE.C18_completes_iff",
    "PE.C18_completes_unsaved"
   ],
   "note": "Section data, headers, bound import bytes and completion are proved, the latter as an equivalence (C18_completes_iff); the data theorem needs NoStalePointers (a section without raw data whose raw pointer is stale shifts later data: C18_stale_pointer_shifts_data), and the writer reads behind the data of freshly added sections (C18_added_section_overread) and behind the headers for more than 16 directories (C18_many_dirs_overread)."
  },
  {
   "property": "C19",
   "status": "proved",
   "theorems": [
    "PE.C19_save_load",
    "PE.C19_loaded_saveable"
   ],
   "note": "For every image satisfying Saveable (well-formed: valid table, sections holding the data they announce, file below 4 GiB, no stale raw pointers); C19_loaded_saveable shows that loaded images satisfy it. Freshly added sections with unaligned data do not (see C18_added_section_overread)."
  },
  {
   "property": "C20",
   "status": "proved",
   "theorems": [
    "PE.C20_field_independent"
   ],
   "note": "Checksum does not depend on the stored checksum field, for every file."
  },
  {
   "property": "C21",
   "status": "proved",
   "theorems": [
    "PE.C21_checksum_total",
    "PE.C21_checksum_value"
   ],
   "note": "Never faults on a file with readable DOS header; value equals folded 16-bit word sum plus file size."
  },
  {
   "property": "C22",
   "status": "proved",
   "theorems": [
    "PE.C22_single_word_change"
   ],
   "note": "Changing a single word outside the checksum field changes the checksum, except between 0x0000 and 0xFFFF."
  },
  {
   "property": "C23",
   "status": "proved",
   "theorems": [
    "PE.C23_item_round_trip"
   ],
   "note": "Both directions for all items and entries; entries outside 12/4 bits are shown to lose bits."
  },
  {
   "property": "C24",
   "status": "proved",
   "theorems": [
    "PE.C24_safe",
    "PE.C24_blocks",
    "PE.C24_absolute_filter"
   ],
   "note": "Termination is by construction (the model function is total); every result is a chain of blocks read from the directory."
  },
  {
   "property": "C25",
   "status": "partial",
   "theorems": [
    "PE.C25_round_trip_partial",
    "PE.C25_empty_list_unreadable"
   ],
   "note": "Round trip for every non-empty list of non-empty encodable tables and every host section with room. Missing: the empty list, for which the claim is false (C25_empty_list_unreadable)."
  },
  {
   "property": "C26",
   "status": "partial",
   "theorems": [
    "PE.C26_safe_partial",
    "PE.C26_inverse_partial",
    "PE.C26_frame_partial",
    "PE.C26_value_partial",
    "PE.C26_completes_partial",
    "PE.C26_type_ignored",
    "PE.C26_overlap_not_inverse",
    "PE.C26_wrapped_file",
    "PE.C26_loaded_partial"
   ],
   "note": "Holds for images whose headers end below all sections (HeadersBelow). Loading guarantees this for files whose sections end below 4 GiB (C26_loaded_partial). It does not guarantee it otherwise: C26_wrapped_file is a file that loads, whose sections wrap around 4 GiB so that an address is covered by a section but lies in the headers; rebasing it with its own relocations writes outside of the buffer."
  },
  {
   "property": "C27",
   "status": "partial",
   "theorems": [
    "PE.C27_round_trip_partial",
    "PE.C27_zero_rva",
    "PE.C27_unnamed_forward",
    "PE.C27_empty_list",
    "PE.C27_end_of_section"
   ],
   "note": "Proved for non-empty lists of storable functions. The code loses functions with address 0, forwards of unnamed functions, mishandles the empty list (out of bounds write) and a nameless directory that ends exactly at the section end; each is proved as a counterexample."
  },
  {
   "property": "C28",
   "status": "proved",
   "theorems": [
    "PE.C28_names_sorted",
    "PE.C28_binary_search",
    "PE.C28_duplicates"
   ],
   "note": "Duplicates throw; the name table read from the written image is strictly ascending and complete, and binary search on such a table is exact."
  },
  {
   "property": "C29",
   "status": "partial",
   "theorems": [
    "PE.C29_round_trip_partial",
    "PE.C29_cuts_data",
    "PE.C29_zero_iat_value",
    "PE.C29_ordinal_without_original",
    "PE.C29_fill_without_build",
    "PE.C29_settings_partial",
    "PE.C29_table_at_end"
   ],
   "note": "Proved for all settings: new tables, kept tables, overwritten tables, filled-in lookup tables, with and without lookup tables, both header settings. Missing: the fill setting without building lookup tables (C29_fill_without_build shows a loss), functions by number without lookup tables (C29_ordinal_without_original), IAT values 0 (C29_zero_iat_value), section data behind the directory (C29_cuts_data), overwritten tables at the very end of raw data (C29_table_at_end) or in the section of the directory, PE32 names above 2 GiB."
  },
  {
   "property": "C30",
   "status": "partial",
   "theorems": [
    "PE.C30_terminates",
    "PE.C30_safe_partial",
    "PE.C30_name_overread"
   ],
   "note": "Termination is proved for every image, cyclic directories included (C30_terminates). Absence of undefined behaviour holds on loaded images whose names lie inside the data (C30_safe_partial); it is false in general because the name length in characters is compared with a number of bytes (C30_name_overread). Native stack depth is not modelled."
  },
  {
   "property": "C31",
   "status": "partial",
   "theorems": [
    "PE.C31_round_trip_partial",
    "PE.C31_empty_at_end",
    "PE.C31_long_id"
   ],
   "note": "Round trip proved for all trees with 16-bit numbers and unique keys when there is room; the extra room conditions (hfit, hend) are needed: C32_overflow, C31_empty_at_end, C31_long_id are counterexamples."
  },
  {
   "property": "C32",
   "status": "partial",
   "theorems": [
    "PE.C32_in_bounds_partial",
    "PE.C32_overflow"
   ],
   "note": "Proved for all trees that are in order, or whose data sizes are multiples of 4, or with 3 spare bytes; false otherwise: C32_overflow."
  },
  {
   "property": "C33",
   "status": "proved",
   "theorems": [
    "PE.C33_add_throws",
    "PE.C33_add_then_get",
    "PE.C33_duplicates"
   ],
   "note": "Throwing conditions and the result of the lookup are proved for all trees; duplicates of the language in the directory are excluded (C33_duplicates shows why)."
  },
  {
   "property": "C34",
   "status": "proved",
   "theorems": [
    "PE.C34_add_keeps",
    "PE.C34_add_keeps_directories",
    "PE.C34_remove_type",
    "PE.C34_remove_name",
    "PE.C34_remove_throws",
    "PE.C34_remove_language"
   ],
   "note": "Adding: for all trees. Removing: for all trees with unique keys; the tree is unchanged when the function throws; no empty directories are left."
  },
  {
   "property": "C35",
   "status": "partial",
   "theorems": [
    "PE.C35_lowest_free",
    "PE.C35_after_last",
    "PE.C35_first",
    "PE.C35_fresh_partial",
    "PE.C35_collision",
    "PE.C35_wide_collision",
    "PE.C35_hang"
   ],
   "note": "When the numbering has room below 65536 the numbers given to new images are distinct, unused, and follow the chosen policy (lowest free, behind the last, from 1). Without room the property is false of the code: C35_collision and C35_wide_collision give a tree where a used number is handed out, C35_hang one where the loop does not end."
  },
  {
   "property": "C36",
   "status": "proved",
   "theorems": [
    "PE.C36_add_new",
    "PE.C36_add_more",
    "PE.C36_file",
    "PE.C36_refused"
   ],
   "note": "Adding to a new and to an existing group, for every file of the format (IcoFile is exactly what the writer accepts), with room for the numbers and nothing in the way in the tree."
  },
  {
   "property": "C37",
   "status": "partial",
   "theorems": [
    "PE.C37_add_new_partial",
    "PE.C37_add_more_partial",
    "PE.C37_same_description",
    "PE.C37_description",
    "PE.C37_file",
    "PE.C37_height"
   ],
   "note": "Images, widths, hotspots and sizes are always the same; heights below 128 too. C37_height: a height of 128 or more is lost, since the code doubles it and cuts it to 8 bits before halving."
  },
  {
   "property": "C38",
   "status": "proved",
   "theorems": [
    "PE.C38_at",
    "PE.C38_round_trip",
    "PE.C38_identity",
    "PE.C38_short"
   ],
   "note": "An added bitmap file of at least 54 bytes is read back as a new 14-byte file header (signature, length, zero words, offset behind the colour table) followed by everything behind the old file header; a bitmap file in the usual form is read back byte for byte; files that are too short are refused. As for every added resource, the language must not already be stored twice below the name. C38_at: with an index instead of a language."
  },
  {
   "property": "C39",
   "status": "partial",
   "theorems": [
    "PE.C39_numbers",
    "PE.C39_sound",
    "PE.C39_string_by_id",
    "PE.C39_string_at",
    "PE.C39_safe_partial",
    "PE.C39_overread"
   ],
   "note": "Every encoded table of 16 strings is read with the numbers 16*(b-1)+k (16 bits), and every table that is read without an error is such a table; get_string_by_id_lang finds the string. Reading is safe only for data in which accepted lengths fit when counted in two-byte characters: C39_overread shows that the code compares characters with bytes and reads behind the end."
  },
  {
   "property": "C40",
   "status": "proved",
   "theorems": [
    "PE.C40_lookup",
    "PE.C40_at",
    "PE.C40_safe",
    "PE.C40_sound",
    "PE.C40_complete",
    "PE.C40_last_number",
    "PE.C40_small_table"
   ],
   "note": "For all data parsing ends and reads only inside of the data. The result is characterised: each number in the range of a block has the text stored at its place, other numbers have none; complete tables are read. Blocks ending with number 2^32-1 are always refused, and the size check demands room for one block too many (C40_small_table). C40_lookup, C40_at: where the table is looked up."
  },
  {
   "property": "C41",
   "status": "proved",
   "theorems": [
    "PE.C41_format",
    "PE.C41_reads_format",
    "PE.C41_round_trip",
    "PE.C41_set_succeeds",
    "PE.C41_size",
    "PE.C41_others_unchanged",
    "PE.C41_too_large_is_lost",
    "PE.C41_zero_in_name"
   ],
   "note": "For all version information the format can hold (names without zeros, values not ending in zero, less than 64 KiB in all): set, then read gives the same. C41_too_large_is_lost and C41_zero_in_name show that these limits are needed: beyond them the code reports success and loses strings. C41_format: the bytes written are exactly those of the independent description of the VERSIONINFO format in Spec/VersionFormat; C41_reads_format: such bytes are read."
  },
  {
   "property": "C42",
   "status": "proved",
   "theorems": [
    "PE.C42_get_after_set",
    "PE.C42_other_names",
    "PE.C42_other_tables",
    "PE.C42_translations",
    "PE.C42_sorted",
    "PE.C42_missing"
   ],
   "note": "The named setters and getters (company name etc.) are set_property/get_property with fixed names and not modelled separately."
  },
  {
   "property": "C43",
   "status": "partial",
   "theorems": [
    "PE.C43_round_trip_partial",
    "PE.C43_refuses",
    "PE.C43_recalculated",
    "PE.C43_zero_fill_lost",
    "PE.C43_virtual_lost",
    "PE.C43_short_data",
    "PE.C43_callbacks_overrun"
   ],
   "note": "Proved for every consistent description whose three parts do not overlap: directory in any section with room (within the pages of the section), raw data and table of callbacks inside of existing raw data of any section or anywhere in the last one, which grows; also that nothing else of the image changes (every byte of every section outside of the three written ranges, raw and virtual). False outside, with proved counterexamples: zero fill without raw data is lost, raw data reaching behind the raw data of a section that does not grow are cut off silently, a raw data string shorter than the address range is over-read, and the final null of the callback table can be written behind the section's raw data. Not covered: overlapping parts, a directory behind the pages of its section."
  },
  {
   "property": "C44",
   "status": "partial",
   "theorems": [
    "PE.C44_round_trip_partial",
    "PE.C44_no_terminator",
    "PE.C44_stripped_unreadable"
   ],
   "note": "Proved for directories within 64 KiB, when the (never written) final null record falls on zero bytes and the section is not stripped; both exceptions are shown to fail by counterexamples."
  },
  {
   "property": "C45",
   "status": "partial",
   "theorems": [
    "PE.C45_tables_kept",
    "PE.C45_round_trip_partial",
    "PE.C45_stripped_unreadable"
   ],
   "note": "For both kinds, every configuration whose values fit into their fields, both tables written. Missing: a stripped inner section (counterexample C45_stripped_unreadable), where the final null of the lock prefix table is cut off. C45_tables_kept: without the two flags the table addresses stay and the tables already in the image are read back."
  },
  {
   "property": "C46",
   "status": "proved",
   "theorems": [
    "PE.C46_safe",
    "PE.C46_entries",
    "PE.C46_complete"
   ],
   "note": "Safety for every accepted file; the returned list is exactly the chain of runtime function records."
  },
  {
   "property": "C47",
   "status": "partial",
   "theorems": [
    "PE.C47_safe_partial",
    "PE.C47_short_misc"
   ],
   "note": "Reading terminates and stays inside the buffers for every image, except when a record of type misc has raw data claiming a length below 12 (C47_short_misc: a range of nearly 2^64 characters; libstdc++ turns this into std::length_error)."
  },
  {
   "property": "C48",
   "status": "partial",
   "theorems": [
    "PE.C48_exact_partial",
    "PE.C48_no_marker_overread",
    "PE.C48_safe_partial",
    "PE.C48_short"
   ],
   "note": "Exact decoding of every well-formed rich header; safety except for stubs whose marker search runs over the end (counterexample)."
  },
  {
   "property": "C49",
   "status": "proved",
   "theorems": [
    "PE.C49_set_file_alignment"
   ],
   "note": ""
  },
  {
   "property": "C50",
   "status": "proved",
   "theorems": [
    "PE.C50_entropy_bounds",
    "PE.C50_entropy_zero_iff",
    "PE.C50_entropy_perm",
    "PE.C50_entropy_section",
    "PE.C50_entropy_image",
    "PE.C50_entropy_stream"
   ],
   "note": "Over exact real arithmetic; double rounding is not modelled."
  },
  {
   "property": "C51",
   "status": "proved",
   "theorems": [
    "PE.C51_config_safe"
   ],
   "note": "For every file the loader accepts."
  },
  {
   "property": "C52",
   "status": "partial",
   "theorems": [
    "PE.C52_expand_raw_partial",
    "PE.C52_expand_virtual_partial",
    "PE.C52_expand_shrinks"
   ],
   "note": "For sections below 2 GiB; larger ones are shown to shrink (counterexample)."
  },
  {
   "property": "C53",
   "status": "proved",
   "theorems": [
    "PE.C53_realign_file"
   ],
   "note": "For sections with a virtual size that covers their raw data."
  },
  {
   "property": "C54",
   "status": "proved",
   "theorems": [
    "PE.C54_bound_safe"
   ],
   "note": "All loaded images."
  },
  {
   "property": "C55",
   "status": "proved",
   "theorems": [
    "PE.C55_exports_safe",
    "PE.C55_list_agrees",
    "PE.C55_list_safe"
   ],
   "note": "For images from load with any bytes."
  },
  {
   "property": "C56",
   "status": "proved",
   "theorems": [
    "PE.C56_limits",
    "PE.C56_name_exists",
    "PE.C56_ordinal_exists"
   ],
   "note": ""
  },
  {
   "property": "C57",
   "status": "proved",
   "theorems": [
    "PE.C57_imports_safe"
   ],
   "note": "All files and flags; reading is total and free of out-of-bounds reads."
  },
  {
   "property": "C58",
   "status": "proved",
   "theorems": [
    "PE.C58_same_lookup",
    "PE.C58_add_ok",
    "PE.C58_added_is_stored",
    "PE.C58_counters_stale"
   ],
   "note": "Composition of add_resource, rebuild_resources and get_resources; the space conditions are those of C31. C58_counters_stale: the counters of the tree in memory are not updated."
  },
  {
   "property": "C59",
   "status": "proved",
   "theorems": [
    "PE.C59_types",
    "PE.C59_resources",
    "PE.C59_languages",
    "PE.C59_index"
   ],
   "note": "All lists and counts; the index lookup is proved for directories of languages without names."
  },
  {
   "property": "C60",
   "status": "partial",
   "theorems": [
    "PE.C60_read_groups",
    "PE.C60_single_icon",
    "PE.C60_single_cursor_partial",
    "PE.C60_overread",
    "PE.C60_add"
   ],
   "note": "Proved for groups, single icons and adding; single cursors only for groups that are as long as they say (C60_overread is a counterexample), adding unless 65535 images are added to a tree without that type (C35_hang)."
  },
  {
   "property": "C61",
   "status": "proved",
   "theorems": [
    "PE.C61_single",
    "PE.C61_found",
    "PE.C61_empty_group"
   ],
   "note": "C61_empty_group shows why the well-formedness of all groups includes one entry for cursor groups."
  },
  {
   "property": "C62",
   "status": "proved",
   "theorems": [
    "PE.C62_remove_group",
    "PE.C62_other_groups",
    "PE.C62_shared_images"
   ],
   "note": "C62_shared_images shows that groups with common images are affected."
  },
  {
   "property": "C63",
   "status": "partial",
   "theorems": [
    "PE.C63_reading_safe_partial",
    "PE.C63_reading_at_safe_partial",
    "PE.C63_hang",
    "PE.C63_over_read",
    "PE.C63_over_read_translation"
   ],
   "note": "False for the code: C63_hang (claimed length 0xFFFD and more: endless loop), C63_over_read (value length checked in bytes, read in words), C63_over_read_translation. Proved: these blocks are the only reason for undefined behaviour."
  },
  {
   "property": "C64",
   "status": "proved",
   "theorems": [
    "PE.C64_list",
    "PE.C64_string_round_trip",
    "PE.C64_parse",
    "PE.C64_strings_differ",
    "PE.C64_ids_16bit",
    "PE.C64_add",
    "PE.C64_remove",
    "PE.C64_add_remove",
    "PE.C64_upper_case",
    "PE.C64_text",
    "PE.C64_default_language"
   ],
   "note": "Parsing by std::wstringstream in the C locale is an assumption of the model. C64_upper_case: for strings that are not in the form of get_translation_list, remove_translation leaves the table. C64_text, C64_default_language, C64_list: the text is eight lower case hexadecimal digits, independent of the model's own printing."
  },
  {
   "property": "C65",
   "status": "proved",
   "theorems": [
    "PE.C65_writer_bounds",
    "PE.C65_remove"
   ],
   "note": ""
  },
  {
   "property": "C66",
   "status": "partial",
   "theorems": [
    "PE.C66_present",
    "PE.C66_entries",
    "PE.C66_coff_partial",
    "PE.C66_understood_partial",
    "PE.C66_reads_partial",
    "PE.C66_raw_data",
    "PE.C66_codeview_lost",
    "PE.C66_file_name_wrong",
    "PE.C66_aux_as_symbol",
    "PE.C66_end_of_image",
    "PE.C66_strict_stream",
    "PE.C66_guid_eq"
   ],
   "note": "Soundness of every entry (C66_entries), raw data from the file (C66_raw_data), and success with the right result on everything linkers write (C66_reads_partial, C66_understood_partial, C66_coff_partial). Not so: CodeView 4/5/other never reported (C66_codeview_lost), COFF file names from the wrong place (C66_file_name_wrong), auxiliary records taken for symbols (C66_aux_as_symbol), directory at the very end of the image rejected (C66_end_of_image), made up zeros with strict streams (C66_strict_stream). C66_present: when information is there at all."
  },
  {
   "property": "C67",
   "status": "proved",
   "theorems": [
    "PE.C67_tls_safe",
    "PE.C67_tls_contents",
    "PE.C67_stale_addresses"
   ],
   "note": "Safety and termination for every image loaded from any file, and that the result describes the bytes of the image."
  },
  {
   "property": "C68",
   "status": "proved",
   "theorems": [
    "PE.C68_saved_directories"
   ],
   "note": "For every image that C19 covers; readings that need the bytes of the old headers are excluded (the headers are written anew), therefore the reading is required to succeed on the image without header bytes."
  },
  {
   "property": "C69",
   "status": "partial",
   "theorems": [
    "PE.C69_exports_partial",
    "PE.C69_imports_partial",
    "PE.C69_import_settings_partial",
    "PE.C69_relocations_partial",
    "PE.C69_config_partial",
    "PE.C69_resources_partial",
    "PE.C69_tls_partial",
    "PE.C69_bound_partial"
   ],
   "note": "Each rebuilder within the limits of its round trip theorem (which are partial themselves, with counterexamples outside), imports with all settings; bound imports only when written behind the headers."
  },
  {
   "property": "C70",
   "status": "proved",
   "theorems": [
    "PE.C70_absent",
    "PE.C70_removed",
    "PE.C70_empty_table"
   ],
   "note": "For tables with at least one entry; with an empty table directory_exists looks at unused slots (C70_empty_table)."
  },
  {
   "property": "C71",
   "status": "proved",
   "theorems": [
    "PE.C71_flags",
    "PE.C71_os_type",
    "PE.C71_unknown_ignored",
    "PE.C71_string",
    "PE.C71_string_injective",
    "PE.C71_version_strings"
   ],
   "note": "C71_unknown_ignored: set_file_os/set_file_type with the unknown value change nothing."
  },
  {
   "property": "C72",
   "status": "proved",
   "theorems": [
    "PE.C72_safe",
    "PE.C72_contents",
    "PE.C72_not_managed",
    "PE.C72_flags"
   ],
   "note": ""
  },
  {
   "property": "C73",
   "status": "proved",
   "theorems": [
    "PE.C73_kind",
    "PE.C73_factory",
    "PE.C73_one_kind",
    "PE.C73_reopens"
   ],
   "note": "Reading only; the safety of create_pe is C14_factory_safe."
  },
  {
   "property": "C74",
   "status": "proved",
   "theorems": [
    "PE.C74_created",
    "PE.C74_from_scratch",
    "PE.C74_headers_too_long"
   ],
   "note": "Section data must be padded to the file alignment by the caller (C18_added_section_overread shows what happens otherwise) and the headers must fit before the first section (C74_headers_too_long)."
  },
  {
   "property": "C75",
   "status": "proved",
   "theorems": [
    "PE.C75_loaded",
    "PE.C75_number_of_directories",
    "PE.C75_set_get",
    "PE.C75_set_frame",
    "PE.C75_low_half",
    "PE.C75_saved",
    "PE.C75_flags",
    "PE.C75_subsystem"
   ],
   "note": "For files opened by the library; values that rebuild_pe computes are covered by C17."
  },
  {
   "property": "C76",
   "status": "proved",
   "theorems": [
    "PE.C76_by_address",
    "PE.C76_elsewhere",
    "PE.C76_wrapped_address",
    "PE.C76_read_safe",
    "PE.C76_in_section",
    "PE.C76_named_section",
    "PE.C76_section_and_offset",
    "PE.C76_section_of_directory"
   ],
   "note": "C76_wrapped_address shows that the bound on the image base is needed."
  },
  {
   "property": "C77",
   "status": "proved",
   "theorems": [
    "PE.C77_values",
    "PE.C77_safe",
    "PE.C77_self_assignment"
   ],
   "note": "Self-assignment is excluded from the statement: C77_self_assignment shows that it loses the information (but stays safe, C77_safe)."
  },
  {
   "property": "C78",
   "status": "proved",
   "theorems": [
    "PE.C78_values",
    "PE.C78_no_leak",
    "PE.C78_self_assignment",
    "PE.C78_leak"
   ],
   "note": "Self-assignment dereferences a null pointer (C78_self_assignment); a constructor that throws leaks the properties object (C78_leak)."
  },
  {
   "property": "C79",
   "status": "partial",
   "theorems": [
    "PE.C79_short",
    "PE.C79_short_masked",
    "PE.C79_success",
    "PE.C79_success_debug_partial",
    "PE.C79_exception_partial",
    "PE.C79_position",
    "PE.C79_load",
    "PE.C79_type_success",
    "PE.C79_factory",
    "PE.C79_create",
    "PE.C79_failed_stream",
    "PE.C79_ended_stream",
    "PE.C79_debug_moves",
    "PE.C79_debug_masked",
    "PE.C79_truncated",
    "PE.C79_embedded"
   ],
   "note": "Restored after success and after exceptions that do not report a short file. False otherwise: after a short file the position is lost (C79_short, C79_truncated) or the stream's own exception is thrown (C79_short_masked, C79_debug_masked); cut-off debug data moves the position (C79_debug_moves); a failed stream leads to a decision about bytes never read (C79_failed_stream)."
  },
  {
   "property": "C80",
   "status": "proved",
   "theorems": [
    "PE.C80_values",
    "PE.C80_no_leak",
    "PE.C80_self_assignment",
    "PE.C80_assign_child",
    "PE.C80_add_own_data",
    "PE.C80_add_own_dir",
    "PE.C80_push_own_element",
    "PE.C80_assign_parent"
   ],
   "note": "C80_values, C80_no_leak: heap model with explicit addresses, refinement to trees as values, for all programs whose arguments do not overlap the changed entry. Self-assignment is safe but loses the content (C80_self_assignment). Overlapping arguments: C80_assign_child, C80_add_own_data, C80_add_own_dir, C80_push_own_element show the use of released memory; C80_assign_parent shows a wrong value."
  },
  {
   "property": "C81",
   "status": "proved",
   "theorems": [
    "PE.C81_accessors",
    "PE.C81_last_set",
    "PE.C81_export_flags",
    "PE.C81_minor_version"
   ],
   "note": "Tables of the functions and members of 24 classes, generated from the sources and checked against the interface declared in the headers. C81_minor_version: the setter of the minor version of a resource directory is called get_minor_version."
  },
  {
   "property": "C82",
   "status": "proved",
   "theorems": [
    "PE.C82_stub_saved",
    "PE.C82_shorter",
    "PE.C82_strip_fill",
    "PE.C82_rich_set",
    "PE.C82_rich_stripped",
    "PE.C82_fill_overread"
   ],
   "note": "C82_fill_overread shows a defect beside the claim: after fill_stub_overlay on four bytes or more, get_rich_data reads behind the end of the overlay, also in the saved file."
  },
  {
   "property": "C83",
   "status": "proved",
   "theorems": [
    "PE.C83_loaded",
    "PE.C83_ask",
    "PE.C83_change",
    "PE.C83_client",
    "PE.C83_reader",
    "PE.C83_no_resize",
    "PE.C83_independent",
    "PE.C83_relocations",
    "PE.C83_raw_then_resize",
    "PE.C83_stale_view",
    "PE.C83_stale_pointer"
   ],
   "note": "For every program over the access and change functions; the condition on virtual resizing is part of the claim and C83_stale_view, C83_stale_pointer show that it is needed. get_relocations is modelled again as such a program."
  },
  {
   "property": "C84",
   "status": "partial",
   "theorems": [
    "PE.C84_file_size",
    "PE.C84_checksum_partial",
    "PE.C84_checksum_unaligned",
    "PE.C84_checksum_short",
    "PE.C84_checksum_signature",
    "PE.C84_checksum_elsewhere",
    "PE.C84_entropy",
    "PE.C84_entropy_behind",
    "PE.C84_entropy_not_good"
   ],
   "note": "Checksum: right value and unchanged stream at the beginning of a stream whose length is a multiple of four; otherwise the exact outcome is proved: the value is right but the stream stays at its end (or fails, with an exception mask), and the header is taken from the current position. Entropy: every good stream not behind its end; behind it the loop does not end."
  },
  {
   "property": "C85",
   "status": "partial",
   "theorems": [
    "PE.C85_same_edit",
    "PE.C85_same_rebuild",
    "PE.C85_strong",
    "PE.C85_expand_partial",
    "PE.C85_recalculate_partial",
    "PE.C85_rebuild_partial",
    "PE.C85_imports_partial",
    "PE.C85_imports_rewrite",
    "PE.C85_leaves_data",
    "PE.C85_converting_partial",
    "PE.C85_no_place",
    "PE.C85_rebase",
    "PE.C85_rebase_prefix",
    "PE.C85_rebuild_pe",
    "PE.C85_no_place_case",
    "PE.C85_void_case",
    "PE.C85_config_case",
    "PE.C85_tls_case",
    "PE.C85_imports_case",
    "PE.C85_rebase_case",
    "PE.C85_strip_case",
    "PE.C85_bound_case",
    "PE.C85_resource_case",
    "PE.C85_rebuild_pe_all"
   ],
   "note": "The stepwise model keeps the image at the moment of the exception and is proved to agree with the other models. All or nothing is proved for the simple setters unconditionally; for the rebuilders under the named conditions (sections up to 2 GiB and not void, directory present, no rewriting of saved import tables, PE32+ for load config and TLS, convertible resource names). Outside of the conditions it is false; counterexamples are C85_*_case, and what is left then is described by C85_no_place, C85_leaves_data, C85_imports_rewrite, C85_rebase, C85_rebase_prefix, C85_rebuild_pe and C85_rebuild_pe_all."
  },
  {
   "property": "C86",
   "status": "partial",
   "theorems": [
    "PE.C86_saves_partial",
    "PE.C86_complete_partial",
    "PE.C86_exceptions",
    "PE.C86_bad",
    "PE.C86_elsewhere",
    "PE.C86_silent_case",
    "PE.C86_mask_case",
    "PE.C86_elsewhere_case",
    "PE.C86_tail_case",
    "PE.C86_hang_case"
   ],
   "note": "Writing is proved for streams at their beginning, for all media that may fail at any byte; C86_elsewhere says what happens at other positions (where the result is not a PE file, C86_elsewhere_case). Needs raw pointers below 0xFFFFFFFF if the medium may fail (C86_hang_case). Buffering inside of the stream is not modelled."
  },
  {
   "property": "C87",
   "status": "partial",
   "theorems": [
    "PE.C87_manager",
    "PE.C87_bitmap_version",
    "PE.C87_add_orphans",
    "PE.C87_add_partial",
    "PE.C87_add",
    "PE.C87_remove_partial",
    "PE.C87_remove",
    "PE.C87_orphan_images",
    "PE.C87_half_removed"
   ],
   "note": "All or nothing is proved for single resources, bitmaps and version information, and for icon and cursor groups under the exact condition; outside of it it is false (C87_orphan_images, C87_half_removed) and what is left is described. For adding, the numbers of the images must not run out (Room, as in C35)."
  },
  {
   "property": "C88",
   "status": "partial",
   "theorems": [
    "PE.C88_commute",
    "PE.C88_independent",
    "PE.C88_any_order",
    "PE.C88_all_read_partial",
    "PE.C88_tls_elsewhere"
   ],
   "note": "Independence and exchange of calls are proved for all calls that write into their own section only; without this condition they are false (C88_tls_elsewhere). That all directories can be read then is proved under the hypotheses of the round trips (C25, C27, C29, C31, C44, C45), without TLS and without libraries whose existing tables are kept."
  },
  {
   "property": "C89",
   "status": "partial",
   "theorems": [
    "PE.C89_realign_reads",
    "PE.C89_realign_raw_partial",
    "PE.C89_workflow_partial",
    "PE.C89_last_section"
   ],
   "note": "realign_file keeps all virtual reads (full); raw readers and the whole workflow under: load config / bound imports not in the last section (C89_last_section: realign_file strips the terminator of the lock prefix table there), new file alignment not smaller than the old one, calls as in C88 (no TLS, no kept import tables)."
  },
  {
   "property": "C90",
   "status": "partial",
   "theorems": [
    "PE.C90_shared_partial",
    "PE.C90_workflow_partial",
    "PE.C90_room_partial",
    "PE.C90_imports_cut",
    "PE.C90_tls_partial",
    "PE.C90_tls_workflow_partial",
    "PE.C90_tls_room_partial"
   ],
   "note": "For the calls of DirEdit.Fit (no import tables kept elsewhere). The written part of each call is named by DirEdit.extent, for TLS by its three address ranges (C90_tls_partial, C90_tls_workflow_partial; C90_tls_room_partial needs room in the image before the calls only, with TLS as the first call). rebuild_imports cuts off the data behind its tables, so it has to be the first call for its section (C90_imports_cut: the relocations behind it are gone)."
  },
  {
   "property": "C91",
   "status": "partial",
   "theorems": [
    "PE.C91_headers",
    "PE.C91_readers_safe",
    "PE.C91_debug_partial",
    "PE.C91_resources_partial",
    "PE.C91_origin_below",
    "PE.C91_frame",
    "PE.C91_sections",
    "PE.C91_count_above_16"
   ],
   "note": "Histories are sequences of calls of the stepwise model (Model/Failing), so images left behind by exceptions are covered. C91_readers_safe covers exports (with and without info), imports, relocations, TLS, load config, bound imports, exceptions and .NET; C91_debug_partial and C91_resources_partial keep the exceptions of C47 and C30. C91_count_above_16 shows why the number of directories is restricted. Changes through get_dos_header() are not among the calls."
  },
  {
   "property": "C92",
   "status": "proved",
   "theorems": [
    "PE.C92_attached_iff",
    "PE.C92_refused",
    "PE.C92_stays",
    "PE.C92_added"
   ],
   "note": "C92_refused for all seven rebuilders, with the image unchanged; C92_added and C92_stays say which sections are attached."
  },
  {
   "property": "C93",
   "status": "proved",
   "theorems": [
    "PE.C93_loaded",
    "PE.C93_created"
   ],
   "note": "For all files that load, and for new images (C93_loaded, C93_created); the numbers and offsets are literals of the PE format, not those of the model."
  },
  {
   "property": "C94",
   "status": "partial",
   "theorems": [
    "PE.C94_bound",
    "PE.C94_relocations",
    "PE.C94_config",
    "PE.C94_exports",
    "PE.C94_exports_empty",
    "PE.C94_safe_partial",
    "PE.C94_history_partial",
    "PE.C94_limits",
    "PE.C94_save",
    "PE.C94_imports",
    "PE.C94_tls"
   ],
   "note": "C94_safe_partial covers every call that changes an image, C94_history_partial whole programs; the conditions (Call.Fits, one for each function) are stated beside. For each writer separately: C94_bound, C94_relocations, C94_config, C94_exports, C94_exports_empty, C94_imports, C94_tls, C94_save. Outside of the conditions it is false of the code: C94_limits, C26_wrapped_file, C18_added_section_overread, C18_many_dirs_overread, C27_empty_list, C32_overflow, C43_short_data, C43_callbacks_overrun. Missing: directories of 4 GiB and more (the sizes overflow there)."
  },
  {
   "property": "C95",
   "status": "partial",
   "theorems": [
    "PE.C95_again_partial",
    "PE.C95_bound_lost",
    "PE.C95_stamp",
    "PE.C95_checksum_partial",
    "PE.C95_reopen_partial",
    "PE.C95_reopen_short"
   ],
   "note": "C95_stamp for all images. Saving again (C95_again_partial) and the checksum (C95_checksum_partial) need that bound imports, if they are to be saved, lie in a section or already behind the section table: elsewhere the second save loses them, C95_bound_lost. C95_reopen_partial (opening the saved file and saving that) also allows bound imports in the headers, if the headers written include them: otherwise the file opens but cannot be saved, C95_reopen_short."
  },
  {
   "property": "C96",
   "status": "partial",
   "theorems": [
    "PE.C96_copy",
    "PE.C96_reads",
    "PE.C96_file_partial",
    "PE.C96_short_data_overread"
   ],
   "note": "C96_copy and C96_reads for all images with a valid section table (C96_reads: raw sizes are the file aligned lengths of the data). C96_file_partial (saving the copy) needs raw sizes that are multiples of the file alignment, which is necessary: C96_short_data_overread; bound imports, if they are to be saved, have to be in a section (the headers are not copied)."
  },
  {
   "property": "C97",
   "status": "partial",
   "theorems": [
    "PE.C97_strip_reads",
    "PE.C97_file_partial",
    "PE.C97_none_left"
   ],
   "note": "C97_strip_reads for all images in which a directory other than the IAT is in use; that is necessary: C97_none_left. C97_file_partial: saved and opened again, also for images with bound imports (in a section or in the headers)."
  },
  {
   "property": "C98",
   "status": "partial",
   "theorems": [
    "PE.C98_kept_partial",
    "PE.C98_saved_partial",
    "PE.C98_names_lost"
   ],
   "note": "C98_kept_partial and C98_saved_partial for directories that hold the names and references they refer to; that is necessary: C98_names_lost."
  },
  {
   "property": "C99",
   "status": "partial",
   "theorems": [
    "PE.C99_overlay_partial",
    "PE.C99_no_sections",
    "PE.C99_appended",
    "PE.C99_saved_partial",
    "PE.C99_spurious",
    "PE.C99_missed",
    "PE.C99_dropped"
   ],
   "note": "C99_overlay_partial: exact for every opened file whose last section has raw data. C99_appended: appended bytes change nothing that is opened. C99_dropped: saving drops them, the file written is the same. C99_saved_partial: saved files have no overlay until bytes are appended. If the last section has no raw data the claim is false of the code: C99_spurious, C99_missed."
  }
 ]
}