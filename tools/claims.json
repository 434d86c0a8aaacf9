{
 "C01": {
  "note": "align_down/align_up characterised for every power-of-two alignment; the 32-bit wrap of align_up near 4 GiB is stated exactly.",
  "status": "proved"
 },
 "C02": {
  "note": "For every sequence of view requests; the staleness of a mapped view after a size change is shown as a separate fact.",
  "status": "proved"
 },
 "C03": {
  "note": "First 8 bytes, up to the first NUL.",
  "status": "proved"
 },
 "C04": {
  "note": "Last setter wins for every history of setters; all other bits unchanged.",
  "status": "proved"
 },
 "C05": {
  "note": "Exact for PE32 and for PE32+ with image base + rva below 2^64; the unchecked 64-bit overflow is shown as counterexample.",
  "status": "partial"
 },
 "C06": {
  "note": "For sections ending below 4 GiB; a section whose range wraps is shown not to be found.",
  "status": "proved"
 },
 "C07": {
  "note": "Both directions, for layouts with disjoint ranges.",
  "status": "proved"
 },
 "C08": {
  "note": "No undefined behaviour for any image; exact characterisation of the value read.",
  "status": "proved"
 },
 "C09": {
  "note": "Address variant: every image. Section variant: virtual ranges up to 2 GiB; counterexample above.",
  "status": "partial"
 },
 "C10": {
  "note": "For images and new sections whose layout stays below 4 GiB; the 32-bit wrap-around is shown as a counterexample.",
  "status": "partial"
 },
 "C11": {
  "note": "SizeOfImage is right after update_image_size and set_section_virtual_size and stays right through add_section; false for a freshly created image and after recalculate_section_sizes (counterexamples).",
  "status": "partial"
 },
 "C12": {
  "note": "For headers with 1 to 16 directories; counterexamples for 0 and for more than 16. Removing a directory is characterised bit by bit, with its effect on the characteristics.",
  "status": "partial"
 },
 "C13": {
  "note": "Keeps every used directory and the requested minimum except for the exact off-by-one shown as counterexample.",
  "status": "partial"
 },
 "C14": {
  "note": "For every byte string, both kinds, file or memory dump, with or without debug data. Allocation failure is outside the model.",
  "status": "proved"
 },
 "C15": {
  "note": "All documented invariants except the ones the loader does not establish: SizeOfImage alignment, 32-bit wrap of section ends, alignment of the first section (three counterexamples). With those excluded the section table is valid.",
  "status": "partial"
 },
 "C16": {
  "note": "Every header field and data byte is traced to the file; SizeOfRawData may be cut to the virtual size, and a zero virtual size loses the data (proved).",
  "status": "proved"
 },
 "C17": {
  "note": "C17_layout and C17_headers hold for every image whose written file is smaller than 4 GiB and whose stub is smaller than 2 GiB.",
  "status": "proved"
 },
 "C18": {
  "note": "Section data, headers, bound import bytes and completion are proved, the latter as an equivalence (C18_completes_iff); the data theorem needs NoStalePointers (a section without raw data whose raw pointer is stale shifts later data: C18_stale_pointer_shifts_data), and the writer reads behind the data of freshly added sections (C18_added_section_overread) and behind the headers for more than 16 directories (C18_many_dirs_overread).",
  "status": "partial"
 },
 "C19": {
  "note": "For every image satisfying Saveable (well-formed: valid table, sections holding the data they announce, file below 4 GiB, no stale raw pointers); C19_loaded_saveable shows that loaded images satisfy it. Freshly added sections with unaligned data do not (see C18_added_section_overread).",
  "status": "proved"
 },
 "C20": {
  "note": "Checksum does not depend on the stored checksum field, for every file.",
  "status": "proved"
 },
 "C21": {
  "note": "Never faults on a file with readable DOS header; value equals folded 16-bit word sum plus file size.",
  "status": "proved"
 },
 "C22": {
  "note": "Changing a single word outside the checksum field changes the checksum, except between 0x0000 and 0xFFFF.",
  "status": "proved"
 },
 "C23": {
  "note": "Both directions for all items and entries; entries outside 12/4 bits are shown to lose bits.",
  "status": "proved"
 },
 "C24": {
  "note": "Termination is by construction (the model function is total); every result is a chain of blocks read from the directory.",
  "status": "proved"
 },
 "C25": {
  "note": "Round trip for every non-empty list of non-empty encodable tables and every host section with room. Missing: the empty list, for which the claim is false (C25_empty_list_unreadable).",
  "status": "partial"
 },
 "C26": {
  "note": "Holds for images whose headers end below all sections (HeadersBelow). Loading guarantees this for files whose sections end below 4 GiB (C26_loaded_partial). It does not guarantee it otherwise: C26_wrapped_file is a file that loads, whose sections wrap around 4 GiB so that an address is covered by a section but lies in the headers; rebasing it with its own relocations writes outside of the buffer.",
  "status": "partial"
 },
 "C27": {
  "note": "Proved for non-empty lists of storable functions. The code loses functions with address 0, forwards of unnamed functions, mishandles the empty list (out of bounds write) and a nameless directory that ends exactly at the section end; each is proved as a counterexample.",
  "status": "partial"
 },
 "C28": {
  "note": "Duplicates throw; the name table read from the written image is strictly ascending and complete, and binary search on such a table is exact.",
  "status": "proved"
 },
 "C29": {
  "note": "Proved for all settings: new tables, kept tables, overwritten tables, filled-in lookup tables, with and without lookup tables, both header settings. Missing: the fill setting without building lookup tables (C29_fill_without_build shows a loss), functions by number without lookup tables (C29_ordinal_without_original), IAT values 0 (C29_zero_iat_value), section data behind the directory (C29_cuts_data), overwritten tables at the very end of raw data (C29_table_at_end) or in the section of the directory, PE32 names above 2 GiB.",
  "status": "partial"
 },
 "C30": {
  "note": "Termination is proved for every image, cyclic directories included (C30_terminates). Absence of undefined behaviour holds on loaded images whose names lie inside the data (C30_safe_partial); it is false in general because the name length in characters is compared with a number of bytes (C30_name_overread). Native stack depth is not modelled.",
  "status": "partial"
 },
 "C31": {
  "note": "Round trip proved for all trees with 16-bit numbers and unique keys when there is room; the extra room conditions (hfit, hend) are needed: C32_overflow, C31_empty_at_end, C31_long_id are counterexamples.",
  "status": "partial"
 },
 "C32": {
  "note": "Proved for all trees that are in order, or whose data sizes are multiples of 4, or with 3 spare bytes; false otherwise: C32_overflow.",
  "status": "partial"
 },
 "C33": {
  "note": "Throwing conditions and the result of the lookup are proved for all trees; duplicates of the language in the directory are excluded (C33_duplicates shows why).",
  "status": "proved"
 },
 "C34": {
  "note": "Adding: for all trees. Removing: for all trees with unique keys; the tree is unchanged when the function throws; no empty directories are left.",
  "status": "proved"
 },
 "C35": {
  "note": "When the numbering has room below 65536 the numbers given to new images are distinct, unused, and follow the chosen policy (lowest free, behind the last, from 1). Without room the property is false of the code: C35_collision and C35_wide_collision give a tree where a used number is handed out, C35_hang one where the loop does not end.",
  "status": "partial"
 },
 "C36": {
  "note": "Adding to a new and to an existing group, for every file of the format (IcoFile is exactly what the writer accepts), with room for the numbers and nothing in the way in the tree.",
  "status": "proved"
 },
 "C37": {
  "note": "Images, widths, hotspots and sizes are always the same; heights below 128 too. C37_height: a height of 128 or more is lost, since the code doubles it and cuts it to 8 bits before halving.",
  "status": "partial"
 },
 "C38": {
  "note": "An added bitmap file of at least 54 bytes is read back as a new 14-byte file header (signature, length, zero words, offset behind the colour table) followed by everything behind the old file header; a bitmap file in the usual form is read back byte for byte; files that are too short are refused. As for every added resource, the language must not already be stored twice below the name. C38_at: with an index instead of a language.",
  "status": "proved"
 },
 "C39": {
  "note": "Every encoded table of 16 strings is read with the numbers 16*(b-1)+k (16 bits), and every table that is read without an error is such a table; get_string_by_id_lang finds the string. Reading is safe only for data in which accepted lengths fit when counted in two-byte characters: C39_overread shows that the code compares characters with bytes and reads behind the end.",
  "status": "partial"
 },
 "C40": {
  "note": "For all data parsing ends and reads only inside of the data. The result is characterised: each number in the range of a block has the text stored at its place, other numbers have none; complete tables are read. Blocks ending with number 2^32-1 are always refused, and the size check demands room for one block too many (C40_small_table). C40_lookup, C40_at: where the table is looked up.",
  "status": "proved"
 },
 "C41": {
  "note": "For all version information the format can hold (names without zeros, values not ending in zero, less than 64 KiB in all): set, then read gives the same. C41_too_large_is_lost and C41_zero_in_name show that these limits are needed: beyond them the code reports success and loses strings. C41_format: the bytes written are exactly those of the independent description of the VERSIONINFO format in Spec/VersionFormat; C41_reads_format: such bytes are read.",
  "status": "proved"
 },
 "C42": {
  "note": "The named setters and getters (company name etc.) are set_property/get_property with fixed names and not modelled separately.",
  "status": "proved"
 },
 "C43": {
  "note": "Proved for every consistent description whose three parts do not overlap: directory in any section with room (within the pages of the section), raw data and table of callbacks inside of existing raw data of any section or anywhere in the last one, which grows; also that nothing else of the image changes (every byte of every section outside of the three written ranges, raw and virtual). False outside, with proved counterexamples: zero fill without raw data is lost, raw data reaching behind the raw data of a section that does not grow are cut off silently, a raw data string shorter than the address range is over-read, and the final null of the callback table can be written behind the section's raw data. Not covered: overlapping parts, a directory behind the pages of its section.",
  "status": "partial"
 },
 "C44": {
  "note": "Proved for directories within 64 KiB, when the (never written) final null record falls on zero bytes and the section is not stripped; both exceptions are shown to fail by counterexamples.",
  "status": "partial"
 },
 "C45": {
  "note": "For both kinds, every configuration whose values fit into their fields, both tables written. Missing: a stripped inner section (counterexample C45_stripped_unreadable), where the final null of the lock prefix table is cut off. C45_tables_kept: without the two flags the table addresses stay and the tables already in the image are read back.",
  "status": "partial"
 },
 "C46": {
  "note": "Safety for every accepted file; the returned list is exactly the chain of runtime function records.",
  "status": "proved"
 },
 "C47": {
  "note": "Reading terminates and stays inside the buffers for every image, except when a record of type misc has raw data claiming a length below 12 (C47_short_misc: a range of nearly 2^64 characters; libstdc++ turns this into std::length_error).",
  "status": "partial"
 },
 "C48": {
  "note": "Exact decoding of every well-formed rich header; safety except for stubs whose marker search runs over the end (counterexample).",
  "status": "partial"
 },
 "C49": {
  "note": "",
  "status": "proved"
 },
 "C50": {
  "note": "Over exact real arithmetic; double rounding is not modelled.",
  "status": "proved"
 },
 "C51": {
  "note": "For every file the loader accepts.",
  "status": "proved"
 },
 "C52": {
  "note": "For sections below 2 GiB; larger ones are shown to shrink (counterexample).",
  "status": "partial"
 },
 "C53": {
  "note": "For sections with a virtual size that covers their raw data.",
  "status": "proved"
 },
 "C54": {
  "note": "All loaded images.",
  "status": "proved"
 },
 "C55": {
  "note": "For images from load with any bytes.",
  "status": "proved"
 },
 "C56": {
  "note": "",
  "status": "proved"
 },
 "C57": {
  "note": "All files and flags; reading is total and free of out-of-bounds reads.",
  "status": "proved"
 },
 "C58": {
  "note": "Composition of add_resource, rebuild_resources and get_resources; the space conditions are those of C31. C58_counters_stale: the counters of the tree in memory are not updated.",
  "status": "proved"
 },
 "C59": {
  "note": "All lists and counts; the index lookup is proved for directories of languages without names.",
  "status": "proved"
 },
 "C60": {
  "note": "Proved for groups, single icons and adding; single cursors only for groups that are as long as they say (C60_overread is a counterexample), adding unless 65535 images are added to a tree without that type (C35_hang).",
  "status": "partial"
 },
 "C61": {
  "note": "C61_empty_group shows why the well-formedness of all groups includes one entry for cursor groups.",
  "status": "proved"
 },
 "C62": {
  "note": "C62_shared_images shows that groups with common images are affected.",
  "status": "proved"
 },
 "C63": {
  "note": "False for the code: C63_hang (claimed length 0xFFFD and more: endless loop), C63_over_read (value length checked in bytes, read in words), C63_over_read_translation. Proved: these blocks are the only reason for undefined behaviour.",
  "status": "partial"
 },
 "C64": {
  "note": "Parsing by std::wstringstream in the C locale is an assumption of the model. C64_upper_case: for strings that are not in the form of get_translation_list, remove_translation leaves the table. C64_text, C64_default_language, C64_list: the text is eight lower case hexadecimal digits, independent of the model's own printing.",
  "status": "proved"
 },
 "C65": {
  "note": "",
  "status": "proved"
 },
 "C66": {
  "note": "Soundness of every entry (C66_entries), raw data from the file (C66_raw_data), and success with the right result on everything linkers write (C66_reads_partial, C66_understood_partial, C66_coff_partial). Not so: CodeView 4/5/other never reported (C66_codeview_lost), COFF file names from the wrong place (C66_file_name_wrong), auxiliary records taken for symbols (C66_aux_as_symbol), directory at the very end of the image rejected (C66_end_of_image), made up zeros with strict streams (C66_strict_stream). C66_present: when information is there at all.",
  "status": "partial"
 },
 "C67": {
  "note": "Safety and termination for every image loaded from any file, and that the result describes the bytes of the image.",
  "status": "proved"
 },
 "C68": {
  "note": "For every image that C19 covers; readings that need the bytes of the old headers are excluded (the headers are written anew), therefore the reading is required to succeed on the image without header bytes.",
  "status": "proved"
 },
 "C69": {
  "note": "Each rebuilder within the limits of its round trip theorem (which are partial themselves, with counterexamples outside), imports with all settings; bound imports only when written behind the headers.",
  "status": "partial"
 },
 "C70": {
  "note": "For tables with at least one entry; with an empty table directory_exists looks at unused slots (C70_empty_table).",
  "status": "proved"
 },
 "C71": {
  "note": "C71_unknown_ignored: set_file_os/set_file_type with the unknown value change nothing.",
  "status": "proved"
 },
 "C72": {
  "note": "",
  "status": "proved"
 },
 "C73": {
  "note": "Reading only; the safety of create_pe is C14_factory_safe.",
  "status": "proved"
 },
 "C74": {
  "note": "Section data must be padded to the file alignment by the caller (C18_added_section_overread shows what happens otherwise) and the headers must fit before the first section (C74_headers_too_long).",
  "status": "proved"
 },
 "C75": {
  "note": "For files opened by the library; values that rebuild_pe computes are covered by C17.",
  "status": "proved"
 },
 "C76": {
  "note": "C76_wrapped_address shows that the bound on the image base is needed.",
  "status": "proved"
 },
 "C77": {
  "note": "Self-assignment is excluded from the statement: C77_self_assignment shows that it loses the information (but stays safe, C77_safe).",
  "status": "proved"
 },
 "C78": {
  "note": "Self-assignment dereferences a null pointer (C78_self_assignment); a constructor that throws leaks the properties object (C78_leak).",
  "status": "proved"
 },
 "C79": {
  "note": "Restored after success and after exceptions that do not report a short file. False otherwise: after a short file the position is lost (C79_short, C79_truncated) or the stream's own exception is thrown (C79_short_masked, C79_debug_masked); cut-off debug data moves the position (C79_debug_moves); a failed stream leads to a decision about bytes never read (C79_failed_stream).",
  "status": "partial"
 },
 "C80": {
  "note": "C80_values, C80_no_leak: heap model with explicit addresses, refinement to trees as values, for all programs whose arguments do not overlap the changed entry. Self-assignment is safe but loses the content (C80_self_assignment). Overlapping arguments: C80_assign_child, C80_add_own_data, C80_add_own_dir, C80_push_own_element show the use of released memory; C80_assign_parent shows a wrong value.",
  "status": "proved"
 },
 "C81": {
  "note": "Tables of the functions and members of 24 classes, generated from the sources and checked against the interface declared in the headers. C81_minor_version: the setter of the minor version of a resource directory is called get_minor_version.",
  "status": "proved"
 },
 "C82": {
  "note": "C82_fill_overread shows a defect beside the claim: after fill_stub_overlay on four bytes or more, get_rich_data reads behind the end of the overlay, also in the saved file.",
  "status": "proved"
 },
 "C83": {
  "note": "For every program over the access and change functions; the condition on virtual resizing is part of the claim and C83_stale_view, C83_stale_pointer show that it is needed. get_relocations is modelled again as such a program.",
  "status": "proved"
 },
 "C84": {
  "note": "Checksum: right value and unchanged stream at the beginning of a stream whose length is a multiple of four; otherwise the exact outcome is proved: the value is right but the stream stays at its end (or fails, with an exception mask), and the header is taken from the current position. Entropy: every good stream not behind its end; behind it the loop does not end.",
  "status": "partial"
 },
 "C85": {
  "note": "The stepwise model keeps the image at the moment of the exception and is proved to agree with the other models. All or nothing is proved for the simple setters unconditionally; for the rebuilders under the named conditions (sections up to 2 GiB and not void, directory present, no rewriting of saved import tables, PE32+ for load config and TLS, convertible resource names). Outside of the conditions it is false; counterexamples are C85_*_case, and what is left then is described by C85_no_place, C85_leaves_data, C85_imports_rewrite, C85_rebase, C85_rebase_prefix, C85_rebuild_pe and C85_rebuild_pe_all.",
  "status": "partial"
 },
 "C86": {
  "note": "Writing is proved for streams at their beginning, for all media that may fail at any byte; C86_elsewhere says what happens at other positions (where the result is not a PE file, C86_elsewhere_case). Needs raw pointers below 0xFFFFFFFF if the medium may fail (C86_hang_case). Buffering inside of the stream is not modelled.",
  "status": "partial"
 },
 "C87": {
  "note": "All or nothing is proved for single resources, bitmaps and version information, and for icon and cursor groups under the exact condition; outside of it it is false (C87_orphan_images, C87_half_removed) and what is left is described. For adding, the numbers of the images must not run out (Room, as in C35).",
  "status": "partial"
 },
 "C88": {
  "note": "Independence and exchange of calls are proved for all calls that write into their own section only; without this condition they are false (C88_tls_elsewhere). That all directories can be read then is proved under the hypotheses of the round trips (C25, C27, C29, C31, C44, C45), without TLS and without libraries whose existing tables are kept.",
  "status": "partial"
 },
 "C89": {
  "note": "realign_file keeps all virtual reads (full); raw readers and the whole workflow under: load config / bound imports not in the last section (C89_last_section: realign_file strips the terminator of the lock prefix table there), new file alignment not smaller than the old one, calls as in C88 (no TLS, no kept import tables).",
  "status": "partial"
 },
 "C90": {
  "note": "For the calls of DirEdit.Fit (no import tables kept elsewhere). The written part of each call is named by DirEdit.extent, for TLS by its three address ranges (C90_tls_partial, C90_tls_workflow_partial; C90_tls_room_partial needs room in the image before the calls only, with TLS as the first call). rebuild_imports cuts off the data behind its tables, so it has to be the first call for its section (C90_imports_cut: the relocations behind it are gone).",
  "status": "partial"
 },
 "C91": {
  "note": "Histories are sequences of calls of the stepwise model (Model/Failing), so images left behind by exceptions are covered. C91_readers_safe covers exports (with and without info), imports, relocations, TLS, load config, bound imports, exceptions and .NET; C91_debug_partial and C91_resources_partial keep the exceptions of C47 and C30. C91_count_above_16 shows why the number of directories is restricted. Changes through get_dos_header() are not among the calls.",
  "status": "partial"
 },
 "C92": {
  "note": "C92_refused for all seven rebuilders, with the image unchanged; C92_added and C92_stays say which sections are attached.",
  "status": "proved"
 },
 "C93": {
  "note": "For all files that load, and for new images (C93_loaded, C93_created); the numbers and offsets are literals of the PE format, not those of the model.",
  "status": "proved"
 },
 "C94": {
  "note": "C94_safe_partial covers every call that changes an image, C94_history_partial whole programs; the conditions (Call.Fits, one for each function) are stated beside. For each writer separately: C94_bound, C94_relocations, C94_config, C94_exports, C94_exports_empty, C94_imports, C94_tls, C94_save. Outside of the conditions it is false of the code: C94_limits, C26_wrapped_file, C18_added_section_overread, C18_many_dirs_overread, C27_empty_list, C32_overflow, C43_short_data, C43_callbacks_overrun. Missing: directories of 4 GiB and more (the sizes overflow there).",
  "status": "partial"
 },
 "C95": {
  "note": "C95_stamp for all images. Saving again (C95_again_partial) and the checksum (C95_checksum_partial) need that bound imports, if they are to be saved, lie in a section or already behind the section table: elsewhere the second save loses them, C95_bound_lost. C95_reopen_partial (opening the saved file and saving that) also allows bound imports in the headers, if the headers written include them: otherwise the file opens but cannot be saved, C95_reopen_short.",
  "status": "partial"
 },
 "C96": {
  "note": "C96_copy and C96_reads for all images with a valid section table (C96_reads: raw sizes are the file aligned lengths of the data). C96_file_partial (saving the copy) needs raw sizes that are multiples of the file alignment, which is necessary: C96_short_data_overread; bound imports, if they are to be saved, have to be in a section (the headers are not copied).",
  "status": "partial"
 },
 "C97": {
  "note": "C97_strip_reads for all images in which a directory other than the IAT is in use; that is necessary: C97_none_left. C97_file_partial: saved and opened again, also for images with bound imports (in a section or in the headers).",
  "status": "partial"
 },
 "C98": {
  "note": "C98_kept_partial and C98_saved_partial for directories that hold the names and references they refer to; that is necessary: C98_names_lost.",
  "status": "partial"
 },
 "C99": {
  "note": "C99_overlay_partial: exact for every opened file whose last section has raw data. C99_appended: appended bytes change nothing that is opened. C99_dropped: saving drops them, the file written is the same. C99_saved_partial: saved files have no overlay until bytes are appended. If the last section has no raw data the claim is false of the code: C99_spurious, C99_missed.",
  "status": "partial"
 }
}