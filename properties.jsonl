{"id": "C01", "title": "Alignment helpers round correctly", "statement": "For every 32-bit x and every power-of-two alignment a, align_down(x,a) is the greatest multiple of a that is <= x, and align_up(x,a) is the least multiple of a that is >= x whenever that multiple fits in 32 bits; when it does not fit the result is 0 (wrap-around).", "quantifier": "all 32-bit values x and all 32-bit power-of-two alignments", "why_tests_cant": "2^32 x 32 input pairs; the interesting ones are the wrap-around boundary", "anchors": ["src/pe_lib/utils.h:align_down", "src/pe_lib/utils.h:align_up", "src/pe_lib/utils.h:is_power_of_2"]}
{"id": "C02", "title": "Viewing a section virtually never changes its raw data", "statement": "For any section and any interleaving of get_raw_data / get_virtual_data calls with any alignments, get_raw_data afterwards returns exactly the original raw bytes, and get_virtual_data returns the raw bytes followed only by zero bytes, with length max(raw length, aligned virtual size at the time the view was created).", "quantifier": "all sections, all finite sequences of view requests", "why_tests_cant": "histories of any length with any alignments", "anchors": ["src/pe_lib/pe_section.cpp:map_virtual", "src/pe_lib/pe_section.cpp:unmap_virtual", "src/pe_lib/pe_section.cpp:get_raw_data", "src/pe_lib/pe_section.cpp:get_virtual_data"]}
{"id": "C03", "title": "Section name round-trips", "statement": "get_name after set_name(n) returns the first 8 bytes of n cut at the first zero byte; so any name of at most 8 bytes without zero bytes is returned unchanged, and nothing else of the section changes.", "quantifier": "all byte strings n and all sections", "why_tests_cant": "unbounded strings", "anchors": ["src/pe_lib/pe_section.cpp:set_name", "src/pe_lib/pe_section.cpp:get_name"]}
{"id": "C04", "title": "Section attribute flags are independent", "statement": "After any sequence of readable/writeable/executable/shared/discardable setter calls, each getter returns the value of the last call made to its own setter (or the initial value if there was none), and every other bit of the characteristics word is unchanged.", "quantifier": "all initial characteristics words, all finite sequences of setter calls", "why_tests_cant": "all 2^32 words and unbounded histories", "anchors": ["src/pe_lib/pe_section.cpp:set_flag", "src/pe_lib/pe_section.cpp:readable", "src/pe_lib/pe_section.cpp:writeable", "src/pe_lib/pe_section.cpp:executable", "src/pe_lib/pe_section.cpp:shared", "src/pe_lib/pe_section.cpp:discardable"]}
{"id": "C05", "title": "VA/RVA conversion is exact", "statement": "rva_to_va succeeds exactly when image base + rva fits the address width and returns that sum; va_to_rva succeeds exactly for addresses in [base, base+2^32) (with bound check on) and returns va-base; the two are inverse to each other.", "quantifier": "all image bases, all rvas, all vas, PE32 and PE32+", "why_tests_cant": "2^64 x 2^64 input pairs", "anchors": ["src/pe_lib/pe_properties_generic.cpp:rva_to_va_32", "src/pe_lib/pe_properties_generic.cpp:rva_to_va_64", "src/pe_lib/pe_properties_generic.cpp:va_to_rva"]}
{"id": "C06", "title": "Section lookup by RVA is sound and complete", "statement": "section_from_rva(rva) returns the first section whose [VA, VA+aligned virtual size) contains rva and throws no_section_found exactly when no section contains it; in an image whose sections are laid out without overlap the answer is the only section containing rva.", "quantifier": "all images (any section list), all rvas", "why_tests_cant": "unbounded section lists; the wrap-around of VA+size is a corner case", "anchors": ["src/pe_lib/pe_base.cpp:section_from_rva"]}
{"id": "C07", "title": "File offset / RVA conversion are inverse", "statement": "For every file offset that lies inside the raw data of a section, file_offset_to_rva followed by rva_to_file_offset gives the offset back (for images with disjoint section layout), and conversely for rvas inside the raw part of a section.", "quantifier": "all images with disjoint raw and virtual section ranges, all offsets and rvas", "why_tests_cant": "unbounded section tables and 32-bit offsets", "anchors": ["src/pe_lib/pe_base.cpp:rva_to_file_offset", "src/pe_lib/pe_base.cpp:file_offset_to_rva", "src/pe_lib/pe_base.cpp:file_offset_to_section"]}
{"id": "C08", "title": "Typed reads at an RVA stay inside the image", "statement": "Reading a value of size n at an rva either returns exactly the n bytes the image holds there (headers or raw/virtual section contents) or throws; it never reads outside the header buffer or the section buffer.", "quantifier": "all images, all rvas, all value sizes, raw and virtual mode, with and without headers", "why_tests_cant": "memory safety for all inputs", "anchors": ["src/pe_lib/pe_base.h:section_data_from_rva"]}
{"id": "C09", "title": "Reported data length is safe to use", "statement": "If section_data_length_from_rva(rva) reports n bytes, then the n bytes starting at the pointer returned by section_data_from_rva for the same arguments all exist in the buffer.", "quantifier": "all images, all rvas, raw and virtual mode", "why_tests_cant": "memory safety for all inputs", "anchors": ["src/pe_lib/pe_base.cpp:section_data_length_from_rva", "src/pe_lib/pe_base.cpp:section_data_from_rva"]}
{"id": "C10", "title": "Adding sections keeps the virtual layout valid", "statement": "Starting from an image with a valid section table, after any sequence of add_section calls that succeed: every section starts at a multiple of the section alignment, each section starts exactly where the previous one's aligned end is, sections never overlap, NumberOfSections equals the number of sections and is at most 96, and no previously added section moved or changed its contents.", "quantifier": "all valid images, all finite sequences of new sections", "why_tests_cant": "histories of any length", "anchors": ["src/pe_lib/pe_base.cpp:add_section", "src/pe_lib/pe_base.cpp:prepare_section"]}
{"id": "C11", "title": "SizeOfImage covers all sections after editing", "statement": "After add_section / set_section_virtual_size / recalculate_section_sizes on a consistent image, SizeOfImage is a multiple of the section alignment and equals the aligned end of the last section.", "quantifier": "all consistent images and edits", "why_tests_cant": "all section layouts", "anchors": ["src/pe_lib/pe_base.cpp:add_section", "src/pe_lib/pe_base.cpp:update_image_size", "src/pe_lib/pe_base.cpp:set_section_virtual_size", "src/pe_lib/pe_base.cpp:recalculate_section_sizes"]}
{"id": "C12", "title": "Directory accessors are consistent", "statement": "directory_exists(id) implies that get_directory_rva/size(id) do not throw; set_directory_* followed by get_directory_* returns the value and leaves all other directories untouched; after remove_directory(id) the directory does not exist and all other directories are unchanged.", "quantifier": "all headers, all directory ids", "why_tests_cant": "all directory tables, including NumberOfRvaAndSizes = 0 and > 16", "anchors": ["src/pe_lib/pe_properties_generic.cpp:directory_exists", "src/pe_lib/pe_properties_generic.cpp:remove_directory", "src/pe_lib/pe_properties_generic.cpp:set_directory_rva", "src/pe_lib/pe_properties_generic.cpp:get_directory_rva"]}
{"id": "C13", "title": "Stripping trailing data directories is safe", "statement": "strip_data_directories(min_count) never drops a non-empty directory (except IAT when asked), leaves all remaining directories unchanged, and leaves at least min(min_count, old count) entries.", "quantifier": "all directory tables, all min_count", "why_tests_cant": "all directory tables and min_count values", "anchors": ["src/pe_lib/pe_properties_generic.cpp:strip_data_directories"]}
{"id": "C14", "title": "Loading never misbehaves on malformed files", "statement": "For every byte string, loading it as a PE file either returns an image or throws a library exception; it never reads outside the file or runs forever.", "quantifier": "all byte strings (any length)", "why_tests_cant": "unbounded adversarial input space", "anchors": ["src/pe_lib/pe_base.cpp:read_dos_header", "src/pe_lib/pe_base.cpp:read_pe"]}
{"id": "C15", "title": "A loaded image satisfies the documented header invariants", "statement": "If loading succeeds then the DOS and PE signatures match, 0 <= e_lfanew, e_lfanew is DWORD aligned, section alignment is a power of two not less than the file alignment, file alignment is a power of two, number of sections <= 96, NumberOfRvaAndSizes <= 16, SizeOfImage is section aligned, each section starts where its predecessor's aligned end is, and all section addresses are inside SizeOfImage.", "quantifier": "all byte strings accepted by the loader", "why_tests_cant": "unbounded input space", "anchors": ["src/pe_lib/pe_base.cpp:read_pe"]}
{"id": "C16", "title": "Loaded section contents are the file's bytes", "statement": "If loading (not from memory) succeeds, the raw data of every section is the byte range of the file at its (aligned) raw pointer with its raw size, and the section header fields equal the bytes of the section table.", "quantifier": "all accepted files", "why_tests_cant": "unbounded input space", "anchors": ["src/pe_lib/pe_base.cpp:read_pe"]}
{"id": "C17", "title": "Rebuilt file layout is valid", "statement": "After rebuild_pe, every section with raw data gets a raw pointer that is a multiple of the file alignment, lies after the headers, and raw ranges of different sections do not overlap and appear in section order.", "quantifier": "all images", "why_tests_cant": "all section tables and sizes", "anchors": ["src/pe_lib/pe_rebuilder.cpp:rebuild_pe"]}
{"id": "C18", "title": "Rebuilt file holds each section's bytes at its raw pointer", "statement": "In the bytes written by rebuild_pe, the bytes at every section's raw pointer are the section's raw data, followed by zero padding, and the bytes at the section table position are the section headers.", "quantifier": "all images", "why_tests_cant": "all images", "anchors": ["src/pe_lib/pe_rebuilder.cpp:rebuild_pe"]}
{"id": "C19", "title": "Save then load gives the same image", "statement": "Loading the bytes produced by rebuild_pe yields an image with the same headers, the same sections (name, addresses, sizes, characteristics) and the same section contents.", "quantifier": "all well-formed images", "why_tests_cant": "compositional statement over all images", "anchors": ["src/pe_lib/pe_rebuilder.cpp:rebuild_pe", "src/pe_lib/pe_base.cpp:read_pe"]}
{"id": "C20", "title": "Checksum does not depend on the stored checksum", "statement": "calculate_checksum returns the same value whatever 4 bytes the CheckSum field holds, so storing the checksum does not invalidate it.", "quantifier": "all files with a DWORD-aligned PE header offset, all field values", "why_tests_cant": "all file contents", "anchors": ["src/pe_lib/pe_checksum.cpp:calculate_checksum"]}
{"id": "C21", "title": "Checksum is the one's-complement word sum plus file size", "statement": "calculate_checksum(file) - size is the 16-bit end-around-carry sum of the file's little-endian words (zero padded, CheckSum field skipped): congruent to the plain sum modulo 65535, below 65536, and zero only if all summed words are zero.", "quantifier": "all files", "why_tests_cant": "all file contents and lengths, carries included", "anchors": ["src/pe_lib/pe_checksum.cpp:calculate_checksum"]}
{"id": "C22", "title": "Checksum detects any single-word change", "statement": "Two files of equal size that differ in a single DWORD outside the CheckSum field (by an amount not divisible by 65535) have different checksums.", "quantifier": "all pairs of such files", "why_tests_cant": "all pairs of files", "anchors": ["src/pe_lib/pe_checksum.cpp:calculate_checksum"]}
{"id": "C23", "title": "Relocation items encode and decode faithfully", "statement": "set_item/get_item are inverse: decoding any 16-bit item and encoding it gives the item back, and encoding an entry with rva < 4096 and type < 16 and decoding gives the entry back.", "quantifier": "all 16-bit items and all entries", "why_tests_cant": "exhaustive over entries with wide fields; also shows where information is lost", "anchors": ["src/pe_lib/pe_relocations.cpp:relocation_entry::get_item", "src/pe_lib/pe_relocations.cpp:relocation_entry::set_item"]}
{"id": "C24", "title": "Relocation directory reading terminates within its data", "statement": "get_relocations on any image terminates, and either throws or returns tables whose entries are exactly the words of consecutive blocks inside the relocation directory.", "quantifier": "all images and directory contents", "why_tests_cant": "adversarial block sizes, wrap-around of positions", "anchors": ["src/pe_lib/pe_relocations.cpp:get_relocations"]}
{"id": "C25", "title": "Relocations written are relocations read", "statement": "get_relocations after rebuild_relocations(tables) returns exactly the given tables (minus ABSOLUTE padding entries).", "quantifier": "all images with a suitable section, all lists of tables", "why_tests_cant": "unbounded tables; interplay of padding, alignment and section resizing", "anchors": ["src/pe_lib/pe_relocations.cpp:rebuild_relocations", "src/pe_lib/pe_relocations.cpp:get_relocations"]}
{"id": "C26", "title": "Rebasing is invertible and touches only relocation targets", "statement": "rebase_image to a new base and then back to the old base restores all bytes of the image; a rebase changes only bytes inside the relocated words, and each relocated word changes by exactly the base difference.", "quantifier": "all images, all relocation tables with disjoint targets, all bases", "why_tests_cant": "all images and bases", "anchors": ["src/pe_lib/pe_relocations.cpp:253-301"]}
{"id": "C27", "title": "Exports written are exports read", "statement": "get_exported_functions after rebuild_exports returns the same functions (ordinal, rva, name, forward) sorted by ordinal, and the same export info.", "quantifier": "all images with a suitable section and all valid export lists", "why_tests_cant": "unbounded lists; ordinal gaps, names and forwards interleave", "anchors": ["src/pe_lib/pe_exports.cpp:rebuild_exports", "src/pe_lib/pe_exports.cpp:get_exported_functions"]}
{"id": "C28", "title": "Export name table is sorted and duplicates are rejected", "statement": "rebuild_exports throws if two functions share an ordinal or a name; otherwise the name table it writes is in ascending byte order so that the OS loader's binary search finds every name.", "quantifier": "all export lists", "why_tests_cant": "unbounded lists", "anchors": ["src/pe_lib/pe_exports.cpp:rebuild_exports"]}
{"id": "C29", "title": "Imports written are imports read", "statement": "get_imported_functions after rebuild_imports returns the same libraries with the same functions (name, hint, ordinal) in the same order.", "quantifier": "all images, all import lists, all rebuilder settings", "why_tests_cant": "unbounded lists and all setting combinations", "anchors": ["src/pe_lib/pe_imports.cpp:rebuild_imports_base", "src/pe_lib/pe_imports.cpp:get_imported_functions_base"]}
{"id": "C30", "title": "Resource directory reading terminates on any data", "statement": "get_resources on any image terminates (even when the directory tree in the file contains cycles) and either throws or returns a finite tree.", "quantifier": "all byte contents of the resource section", "why_tests_cant": "adversarial cyclic data", "anchors": ["src/pe_lib/pe_resources.cpp:process_resource_directory", "src/pe_lib/pe_resources.cpp:get_resources"]}
{"id": "C31", "title": "Resources written are resources read", "statement": "get_resources after rebuild_resources returns the same tree (entries sorted: named entries first by name, then IDs ascending) with the same data, code pages, timestamps and versions.", "quantifier": "all images with a suitable section and all resource trees", "why_tests_cant": "unbounded trees", "anchors": ["src/pe_lib/pe_resources.cpp:rebuild_resources", "src/pe_lib/pe_resources.cpp:get_resources"]}
{"id": "C32", "title": "Resource rebuilding never writes outside its buffer", "statement": "The space computed by rebuild_resources is enough for everything it writes.", "quantifier": "all resource trees", "why_tests_cant": "depends on order dependent padding", "anchors": ["src/pe_lib/pe_resources.cpp:calculate_resource_data_space", "src/pe_lib/pe_resources.cpp:rebuild_resource_directory"]}
{"id": "C33", "title": "Added resources can be read back", "statement": "After add_resource(data, type, name/id, language) the data returned for that type, name/id and language is exactly data with the given code page, whether or not it existed before (if the language directory did not already hold that language twice). If an entry on the way is not a directory, add_resource throws and the tree is unchanged.", "quantifier": "all resource trees, all keys and data", "why_tests_cant": "all trees", "anchors": ["src/pe_lib/pe_resource_manager.cpp:add_resource", "src/pe_lib/pe_resource_viewer.cpp:get_resource_data_by_id"]}
{"id": "C34", "title": "Adding or removing a resource does not disturb other resources", "statement": "add_resource and remove_resource leave the data found under every other (type, name/id, language) key unchanged; remove_resource returns true exactly if the resource existed, and afterwards it is gone (if keys are unique).", "quantifier": "all resource trees and keys", "why_tests_cant": "all trees and keys", "anchors": ["src/pe_lib/pe_resource_manager.cpp:add_resource", "src/pe_lib/pe_resource_manager.cpp:remove_resource"]}
{"id": "C35", "title": "New icon/cursor IDs are free and distinct", "statement": "The IDs chosen for new icons/cursors are pairwise distinct and not used by an existing icon/cursor, so adding an icon never overwrites another one.", "quantifier": "all existing ID sets, both place modes, all counts", "why_tests_cant": "all ID sets; 16-bit truncation", "anchors": ["src/pe_lib/resource_cursor_icon_writer.cpp:get_icon_or_cursor_free_id_list"]}
{"id": "C36", "title": "Icon files round-trip", "statement": "Reading back the icon group written by add_icon yields an .ico file with the same icons: same directory data per icon and same image bytes at the stored offsets.", "quantifier": "all well-formed icon files and resource trees", "why_tests_cant": "all icon files", "anchors": ["src/pe_lib/resource_cursor_icon_writer.cpp:add_icon", "src/pe_lib/resource_cursor_icon_reader.cpp:get_icon_by_id_lang"]}
{"id": "C37", "title": "Cursor files round-trip", "statement": "Reading back the cursor group written by add_cursor yields cursors with the same width, height, hotspot and image bytes.", "quantifier": "all well-formed cursor files and resource trees", "why_tests_cant": "all cursor files, including heights >= 128", "anchors": ["src/pe_lib/resource_cursor_icon_writer.cpp:add_cursor", "src/pe_lib/resource_cursor_icon_reader.cpp:format_cursor_headers"]}
{"id": "C38", "title": "Bitmap files round-trip", "statement": "get_bitmap after add_bitmap(file) returns the file with a recomputed 14-byte file header whose size field is the file length; the pixel data and info header are unchanged.", "quantifier": "all bitmap files of at least 54 bytes", "why_tests_cant": "all files", "anchors": ["src/pe_lib/resource_bitmap_writer.cpp:add_bitmap", "src/pe_lib/resource_bitmap_reader.cpp:create_bitmap"]}
{"id": "C39", "title": "String table parsing is safe and numbers strings correctly", "statement": "Parsing a string table of bundle id b gives string k of the bundle the ID 16*(b-1)+k, and never reads outside the resource data.", "quantifier": "all resource data, all bundle ids", "why_tests_cant": "adversarial lengths", "anchors": ["src/pe_lib/resource_string_table_reader.cpp:parse_string_list"]}
{"id": "C40", "title": "Message table parsing is safe and terminates", "statement": "Parsing any message table terminates, never reads outside the resource data and returns entries with IDs within the block ranges.", "quantifier": "all resource data", "why_tests_cant": "adversarial counts, offsets and ID ranges", "anchors": ["src/pe_lib/resource_message_list_reader.cpp:parse_message_list"]}
{"id": "C41", "title": "Version info round-trips", "statement": "get_version_info after set_version_info returns the same fixed file info, the same string tables and the same translations.", "quantifier": "all version infos whose encoded size fits 16 bits", "why_tests_cant": "unbounded maps of strings with alignment padding", "anchors": ["src/pe_lib/resource_version_info_writer.cpp:set_version_info", "src/pe_lib/resource_version_info_reader.cpp:get_version_info"]}
{"id": "C42", "title": "Version info editor/viewer agree", "statement": "get_property(p,t) after set_property(p,v,t) returns v, other properties and translations are unchanged, and using a new translation adds it to the translation list exactly once.", "quantifier": "all version string maps, names, values, translations", "why_tests_cant": "all maps", "anchors": ["src/pe_lib/version_info_editor.cpp:set_property", "src/pe_lib/version_info_viewer.cpp:get_property"]}
{"id": "C43", "title": "TLS directory round-trips", "statement": "get_tls_info after rebuild_tls(info) returns the same addresses, zero fill size, characteristics, raw data and callbacks.", "quantifier": "all images with suitable sections, all TLS infos", "why_tests_cant": "all infos; both pointer widths", "anchors": ["src/pe_lib/pe_tls.cpp:rebuild_tls_base", "src/pe_lib/pe_tls.cpp:get_tls_info_base"]}
{"id": "C44", "title": "Bound imports round-trip", "statement": "get_bound_import_module_list after rebuild_bound_imports returns the same modules, timestamps and forwarder references.", "quantifier": "all images with a suitable section, all bound import lists within 64K", "why_tests_cant": "unbounded lists; 16-bit offsets; missing terminator", "anchors": ["src/pe_lib/pe_bound_import.cpp:rebuild_bound_imports", "src/pe_lib/pe_bound_import.cpp:get_bound_import_module_list"]}
{"id": "C45", "title": "Load config round-trips with sorted handler table", "statement": "get_image_config after rebuild_image_config returns the same scalar fields and lock prefixes, and the SE handler list sorted ascending.", "quantifier": "all images with a suitable section, all config infos", "why_tests_cant": "unbounded lists; both pointer widths", "anchors": ["src/pe_lib/pe_load_config.cpp:rebuild_image_config_base", "src/pe_lib/pe_load_config.cpp:get_image_config_base"]}
{"id": "C46", "title": "Exception directory reading", "statement": "get_exception_directory_data terminates on any image and returns one entry per RUNTIME_FUNCTION record up to the first record with zero begin address, each with begin <= end.", "quantifier": "all images", "why_tests_cant": "adversarial tables", "anchors": ["src/pe_lib/pe_exception_directory.cpp:get_exception_directory_data"]}
{"id": "C47", "title": "Debug information parsing is safe", "statement": "get_debug_information terminates and never reads outside the raw debug data buffers.", "quantifier": "all images and debug data", "why_tests_cant": "adversarial sizes", "anchors": ["src/pe_lib/pe_debug.cpp:get_debug_information"]}
{"id": "C48", "title": "Rich header parsing is safe and exact", "statement": "get_rich_data never reads outside the stub overlay and, for an overlay produced by the documented encoding of a list of records with a key, returns that list.", "quantifier": "all overlays; all record lists and keys", "why_tests_cant": "adversarial overlay; all keys", "anchors": ["src/pe_lib/pe_rich_data.cpp:get_rich_data"]}
{"id": "C49", "title": "File alignment changes are validated", "statement": "set_file_alignment accepts exactly powers of two between 512 and the section alignment, sets the field to the requested value and changes nothing else on failure.", "quantifier": "all images, all 32-bit values", "why_tests_cant": "all values", "anchors": ["src/pe_lib/pe_base.cpp:set_file_alignment"]}
{"id": "C50", "title": "Entropy of data is between 0 and 8 bits", "statement": "calculate_entropy of any non-empty byte string is between 0 and 8 (in exact arithmetic), is 0 exactly when all bytes are equal, and does not depend on byte order.", "quantifier": "all non-empty byte strings", "why_tests_cant": "all strings", "anchors": ["src/pe_lib/entropy.cpp:calculate_entropy"]}
{"id": "C51", "title": "Reading the load configuration is safe", "statement": "On every image the loader accepts, get_image_config returns or throws: no access outside a buffer, and the search for the end of the lock prefix table terminates.", "quantifier": "all files accepted by the loader", "why_tests_cant": "the table addresses and counts come from the file; all of them have to be tried", "anchors": ["src/pe_lib/pe_load_config.cpp:get_image_config_base"]}
{"id": "C52", "title": "expand_section makes room and loses nothing", "statement": "expand_section on the last section returns whether it had to grow; afterwards the raw data (or the virtual range) reach at least to needed_rva + needed_size, old bytes stay in place, new bytes are zero, and nothing else in the image changes.", "quantifier": "all images with a valid section table, all addresses in the last section, all sizes", "why_tests_cant": "all sizes and addresses, including the signed 32-bit length computation", "anchors": ["src/pe_lib/pe_base.cpp:expand_section"]}
{"id": "C53", "title": "realign_file keeps the memory image", "statement": "realign_file(a) changes no byte that any section has in memory and no header field but the file alignment; afterwards every SizeOfRawData equals the raw data length, is a multiple of a for all sections but the last, and the last section has no trailing null bytes.", "quantifier": "all images whose raw data fit into their virtual sizes, all acceptable alignments", "why_tests_cant": "all section lists, sizes and contents", "anchors": ["src/pe_lib/pe_base.cpp:realign_file", "src/pe_lib/pe_base.cpp:realign_section"]}
{"id": "C54", "title": "Reading bound imports is memory safe", "statement": "For every image that was loaded from any byte stream, get_bound_import_module_list returns a list or throws pe_exception; it never reads outside of the section data and always terminates.", "quantifier": "all files, all loader options", "why_tests_cant": "arbitrary attacker-controlled files; fuzzing samples only some of them", "anchors": ["src/pe_lib/pe_bound_import.cpp:get_bound_import_module_list"]}
{"id": "C55", "title": "Reading exports is memory safe", "statement": "On an image loaded from any file get_exported_functions returns or throws; it never reads outside of a section, and it ends.", "quantifier": "all files", "why_tests_cant": "adversarial files", "anchors": ["src/pe_lib/pe_exports.cpp:get_exported_functions"]}
{"id": "C56", "title": "Export list queries are exact", "statement": "get_export_ordinal_limits returns the smallest and largest ordinal of a non-empty list, exported_name_exists and exported_ordinal_exists are true exactly if a function of the list has that name or ordinal.", "quantifier": "all export lists", "why_tests_cant": "unbounded lists", "anchors": ["src/pe_lib/pe_exports.cpp:get_export_ordinal_limits", "src/pe_lib/pe_exports.cpp:exported_name_exists", "src/pe_lib/pe_exports.cpp:exported_ordinal_exists"]}
{"id": "C57", "title": "Reading imports is memory safe and ends", "statement": "get_imported_functions returns or throws pe_exception on every loaded image: it reads no byte outside a buffer and its loops over descriptors and thunks end.", "quantifier": "all files, all loader flags", "why_tests_cant": "all malformed import directories, including tables that reach the end of the address space", "anchors": ["src/pe_lib/pe_imports.cpp:get_imported_functions_base"]}
{"id": "C58", "title": "Resources edited with the manager reach the file", "statement": "After add_resource on a tree that the format can hold, followed by rebuild_resources (with enough room) and get_resources on the new image, looking up the added type, name/id and language returns the added data and code page, and every other lookup returns what it returned before.", "quantifier": "all trees, keys, data, images with a suitable section", "why_tests_cant": "composition of three functions over unbounded trees", "anchors": ["src/pe_lib/pe_resource_manager.cpp:add_resource", "src/pe_lib/pe_resources.cpp:rebuild_resources", "src/pe_lib/pe_resources.cpp:get_resources", "src/pe_lib/pe_resource_viewer.cpp:get_resource_data_by_id"]}
{"id": "C59", "title": "Lists and counts of resources agree with lookups", "statement": "list_resource_types, list_resource_names, list_resource_ids and list_resource_languages list exactly the keys that lookups find; get_resource_count and get_language_count are the lengths of these lists; looking up by index gives the same as looking up by the language listed at this index.", "quantifier": "all resource trees and keys", "why_tests_cant": "all trees", "anchors": ["src/pe_lib/pe_resource_viewer.cpp:list_resource_types", "src/pe_lib/pe_resource_viewer.cpp:list_resource_languages", "src/pe_lib/pe_resource_viewer.cpp:get_resource_count"]}
{"id": "C60", "title": "Icon and cursor functions are memory safe", "statement": "Reading icon and cursor groups and single icons and cursors, adding icon and cursor files, and removing groups, read and write no byte outside their buffers and end, whatever the resource data and files hold.", "quantifier": "all resource trees and files", "why_tests_cant": "all malformed groups and files", "anchors": ["src/pe_lib/resource_cursor_icon_reader.cpp:format_icon_headers", "src/pe_lib/resource_cursor_icon_reader.cpp:check_cursor_presence", "src/pe_lib/resource_cursor_icon_writer.cpp:add_icon"]}
{"id": "C61", "title": "A single icon or cursor is that of its group", "statement": "get_single_icon_by_id_lang and get_single_cursor_by_id_lang return a file with one image, with the description that a group naming this image has for it and with the image of that number; if the image is there, a group names it and all groups are well-formed, it is found.", "quantifier": "all resource trees, numbers and languages", "why_tests_cant": "search over all groups, by id and by name", "anchors": ["src/pe_lib/resource_cursor_icon_reader.cpp:get_single_icon_by_id_lang", "src/pe_lib/resource_cursor_icon_reader.cpp:lookup_icon_group_data_by_icon"]}
{"id": "C62", "title": "Removing a group removes it with its images and nothing else", "statement": "remove_icon_group and remove_cursor_group return true, remove the group and every image its entries name in the given language, and leave all other resources as they were; other groups that have no images in common with it are read as before.", "quantifier": "all trees with unique keys", "why_tests_cant": "all trees and group data", "anchors": ["src/pe_lib/resource_cursor_icon_writer.cpp:remove_icon_group", "src/pe_lib/resource_cursor_icon_writer.cpp:remove_icons_from_icon_group"]}
{"id": "C63", "title": "Reading version information is memory safe and ends", "statement": "get_version_info_by_lang and get_version_info read no byte outside the resource data and end, whatever the data holds.", "quantifier": "all resource trees and version resource data", "why_tests_cant": "adversarial nested block and value lengths; 16-bit and 32-bit wrap-around", "anchors": ["src/pe_lib/resource_version_info_reader.cpp:61-289"]}
{"id": "C64", "title": "Translations and their strings", "statement": "The strings of get_translation_list are read back as the same translations by translation_from_string; add_translation has the translation in the list once and changes nothing else; remove_translation with such a string removes the string table and one entry of the translation and nothing else, and undoes add_translation.", "quantifier": "all version information, all translations", "why_tests_cant": "2^32 translations and all maps", "anchors": ["src/pe_lib/version_info_viewer.cpp:71-158", "src/pe_lib/version_info_editor.cpp:110-162"]}
{"id": "C65", "title": "The version information writer stays inside its buffer", "statement": "set_version_info allocates exactly the bytes its parts need and writes no byte outside of them; it throws encoding_convertion_error exactly if a string has characters outside UCS-2, and then changes no resource. remove_version_info removes the information of the language and nothing else.", "quantifier": "all version information of less than 4 GiB", "why_tests_cant": "sizes are computed separately from the writing; all maps of strings", "anchors": ["src/pe_lib/resource_version_info_writer.cpp:21-261"]}
{"id": "C66", "title": "Debug information says what the debug directory and its raw data say", "statement": "get_debug_information returns one entry per record of the debug directory, in order, up to the first record without raw data or the end of the directory. Each entry has the fields of its record and, from the raw data in the file at the record's pointer, the PDB 7.0 (guid, age, name), PDB 2.0 (signature, age, name), misc (type, text) or COFF information (file names and code symbols with number, section, address, name).", "quantifier": "all images; all raw debug data", "why_tests_cant": "all sizes, names and symbol tables", "anchors": ["src/pe_lib/pe_debug.cpp:get_debug_information", "src/pe_lib/pe_base.cpp:read_pe"]}
{"id": "C67", "title": "Reading TLS information is safe and says what the image says", "statement": "On every image the library loads from any file, get_tls_info returns or throws: it reads no memory outside of the image's buffers and its loop over the callback table ends. What it returns is the content of the image: the raw data are the bytes from the start to the end address, and the callbacks are the entries of the callback table up to its first zero.", "quantifier": "all files, all images loaded from them, both pointer widths", "why_tests_cant": "all byte contents, including addresses that wrap around and tables without an end", "anchors": ["src/pe_lib/pe_tls.cpp:get_tls_info_base"]}
{"id": "C68", "title": "Directories in sections survive saving and loading", "statement": "If an image (with sections whose sizes fit to each other) is written with rebuild_pe and the file is loaded again, then every directory reader that succeeds on the sections of the image (exports, imports, resources, exceptions, relocations, load configuration, TLS, and bound imports when they do not lie in the headers) returns the same value on the loaded image.", "quantifier": "all images with consistent sizes, all settings of rebuild_pe, all ways to load the file, all contents of the directories", "why_tests_cant": "all directory contents and all header rebuilding settings", "anchors": ["src/pe_lib/pe_rebuilder.cpp:rebuild_pe", "src/pe_lib/pe_base.cpp:read_pe"]}
{"id": "C69", "title": "Edited directories are in the saved file", "statement": "What rebuild_exports, rebuild_imports, rebuild_relocations, rebuild_image_config, rebuild_resources, rebuild_tls and rebuild_bound_imports wrote into an image, the corresponding reader returns after the image was written with rebuild_pe and loaded from that file.", "quantifier": "all images, sections, offsets and contents within the limits of the round trips C25, C27, C29, C31, C43, C44, C45; all settings of rebuild_pe; all ways to load", "why_tests_cant": "combination of all contents, layouts and settings", "anchors": ["src/pe_lib/pe_exports.cpp:rebuild_exports", "src/pe_lib/pe_imports.cpp:rebuild_imports", "src/pe_lib/pe_relocations.cpp:rebuild_relocations", "src/pe_lib/pe_load_config.cpp:rebuild_image_config", "src/pe_lib/pe_resources.cpp:rebuild_resources", "src/pe_lib/pe_tls.cpp:rebuild_tls", "src/pe_lib/pe_bound_import.cpp:rebuild_bound_imports", "src/pe_lib/pe_rebuilder.cpp:rebuild_pe"]}
{"id": "C70", "title": "Absent directories are reported as absent", "statement": "When a data directory has the address 0, lies behind the end of the directory table, or has been removed with remove_directory, its reader reports that: get_exported_functions, get_imported_functions, get_resources, get_exception_directory_data, get_relocations, get_debug_information and get_bound_import_module_list return an empty result, get_tls_info and get_image_config throw pe_directory_does_not_exist.", "quantifier": "all images with a table of 1 to 16 directories, whatever else they contain", "why_tests_cant": "all images", "anchors": ["src/pe_lib/pe_properties_generic.cpp:directory_exists", "src/pe_lib/pe_properties_generic.cpp:remove_directory", "src/pe_lib/pe_tls.cpp:get_tls_info_base"]}
{"id": "C71", "title": "File version flags, operating system, type and version strings", "statement": "For file_version_info: setting a flag makes exactly that flag set and leaves the other flags and fields as they were; what set_file_os and set_file_type set for a known value, get_file_os and get_file_type return (set to unknown, they change nothing); get_file_version_string and get_product_version_string give the four 16-bit numbers, most significant first, in decimal and separated by dots, so that different versions give different strings.", "quantifier": "all field values, all flags", "why_tests_cant": "all combinations of 32-bit values; injectivity of the strings", "anchors": ["src/pe_lib/file_version_info.cpp:set_file_flag", "src/pe_lib/file_version_info.cpp:get_file_os", "src/pe_lib/file_version_info.cpp:get_file_type", "src/pe_lib/file_version_info.cpp:get_version_string"]}
{"id": "C72", "title": "The .NET header is read where the directory says", "statement": "get_basic_dotnet_info on an image loaded from any file returns or throws; an image without the directory is refused with image_does_not_have_managed_code; what it returns is, field by field, the 72 bytes that the COM descriptor directory points to; is_native_entry_point, is_32bit_required, is_il_library and is_il_only answer from bits 4, 1, 2 and 0 of the flags.", "quantifier": "all files; all images; all headers", "why_tests_cant": "arbitrary files and header contents", "anchors": ["src/pe_lib/pe_dotnet.cpp:get_basic_dotnet_info", "src/pe_lib/pe_dotnet.cpp:is_il_only"]}
{"id": "C73", "title": "Files are opened as what they are", "statement": "get_pe_type answers exactly for files with the DOS magic, the PE signature where e_lfanew says, and one of the two optional header magics, and answers with that kind; create_pe opens exactly the files that the 32-bit or the 64-bit constructor opens, with the same result, no file is opened by both; every image saved with rebuild_pe is opened again as the kind it was.", "quantifier": "all files, both ways to load, all saveable images and settings", "why_tests_cant": "all byte sequences", "anchors": ["src/pe_lib/pe_base.cpp:get_pe_type", "src/pe_lib/pe_factory.cpp:create_pe"]}
{"id": "C74", "title": "An image built from nothing can be saved and opened", "statement": "Starting from an empty image created by the library (PE32 or PE32+, any section alignment that is a power of two from 512 on, any subsystem, DLL or program), adding any list of named sections whose data is padded to 512 bytes with add_section and saving with rebuild_pe succeeds as long as the headers stay below the first section; the file written is opened by the factory, and kind, subsystem, alignment, characteristics, image base and the number, names, flags, sizes, addresses and contents of the sections are the ones given, laid out one behind the other.", "quantifier": "for all kinds, alignments, subsystems, section lists and rebuild settings", "why_tests_cant": "The claim is about every list of sections; each section's place depends on all sections before it, and tests only build a handful of images.", "anchors": ["src/pe_lib/pe_base.cpp:48-75 pe_base(props, section_alignment, dll, subsystem)", "src/pe_lib/pe_base.cpp:461-496 add_section", "src/pe_lib/pe_rebuilder.cpp:14-200 rebuild_pe", "src/pe_lib/pe_factory.cpp:6-30 create_pe"]}
{"id": "C75", "title": "Header accessors return the documented fields and setters set exactly one", "statement": "For every file the library opens, every header getter of pe_base returns the value at the offset and width the PE/COFF specification assigns to that field for the kind of file (the number of directories cut to 16); a setter changes the value its getter returns (cut to the width of the field) and no other header value, section or directory; after rebuild_pe every value that the rebuilder does not compute stands in the written file at its documented place; characteristics flags are bits, is_console and is_gui are subsystems 3 and 2.", "quantifier": "for all files, images, fields and values", "why_tests_cant": "26 fields times two kinds times all values and all pairs of fields; tests check a few fields of a few files.", "anchors": ["src/pe_lib/pe_properties_generic.cpp:139-605", "src/pe_lib/pe_base.cpp:160-183", "src/pe_lib/pe_base.cpp:1112-1175"]}
{"id": "C76", "title": "Access by virtual address is access by relative address", "statement": "If the image base is at most 2^64-2^32, then section_from_va, section_data_from_va and section_data_length_from_va at base+rva give exactly what the functions taking an RVA give at rva, and throw incorrect_address_conversion for every other address; reading a value by address never touches memory outside the data of the image; section_and_offset_from_rva returns a section and an offset that lead back to the address, and section_from_directory the section holding the directory.", "quantifier": "for all images, addresses, value sizes and views", "why_tests_cant": "All 2^64 addresses and all image bases; wrapping of the subtraction only shows at the ends of the address space.", "anchors": ["src/pe_lib/pe_base.cpp:323-332", "src/pe_lib/pe_base.cpp:657-699", "src/pe_lib/pe_base.cpp:1190-1298", "src/pe_lib/pe_base.h:403-430"]}
{"id": "C77", "title": "Copies of debug_info are independent and leave no dangling pointers", "statement": "debug_info objects holding CodeView (PDB 2.0/7.0), miscellaneous or COFF information can be constructed, copied, assigned and destroyed in any order: no double delete, no use after delete and no leak occurs, and every object holds the information it was constructed from or last assigned (assigning an object to itself excepted).", "quantifier": "for all programs that construct, copy, assign and destroy any number of debug_info objects", "why_tests_cant": "The number of sequences of object operations is unbounded; ownership errors show only in particular orders.", "anchors": ["src/pe_lib/pe_debug.cpp:13-31", "src/pe_lib/pe_debug.cpp:125-303"]}
{"id": "C78", "title": "Copies of images are independent and own their properties object", "statement": "pe_base objects can be created, copied, assigned to others and destroyed in any order without dangling pointers; each object has the headers and sections it was created with or last assigned; when all objects are gone nothing is left allocated, unless a constructor threw.", "quantifier": "for all programs that construct, copy, assign, change and destroy any number of images", "why_tests_cant": "Unbounded sequences of operations; a leak or a double free is not observable through the API.", "anchors": ["src/pe_lib/pe_base.cpp:17-107"]}
{"id": "C79", "title": "Opening leaves the stream as it was", "statement": "Constructing pe_base from a stream, get_pe_type and pe_factory::create_pe put the stream back to the position and state it had, for every start position and exception mask, if they succeed or throw an exception that does not report a file that is too short; on a good stream at its beginning they give what the contents of the file determine.", "quantifier": "for all stream contents, start positions, exception masks and formats", "why_tests_cant": "All files crossed with all start positions and stream states; the failures need particular truncated files.", "anchors": ["src/pe_lib/pe_base.cpp:17-46", "src/pe_lib/pe_base.cpp:759-1033", "src/pe_lib/pe_base.cpp:1042-1091", "src/pe_lib/pe_factory.cpp:6-11"]}
{"id": "C80", "title": "Resource trees behave as values and own their memory", "statement": "resource_directory_entry and resource_directory objects can be created, copied, assigned, changed (names, numbers, data, directories, fields), added to directories, removed and destroyed in any order, at any depth; no released memory is used as long as the argument is not part of the entry that is changed and the entry is not part of the argument; every getter then returns what it would return if trees were values (assigning an entry to itself empties it); when all objects are gone nothing is left allocated. Arguments from inside of the changed entry lead to use of released memory.", "quantifier": "for all programs over any number of entries and trees of any depth and width, whether or not the vectors move", "why_tests_cant": "Unbounded sequences of operations on unbounded trees; use after free and leaks are not observable through the API and depend on when a vector moves its elements.", "anchors": ["src/pe_lib/pe_resources.cpp:11-321", "src/pe_lib/pe_resources.h:42-110"]}
{"id": "C81", "title": "Value classes are records of properties", "statement": "The 24 classes that only carry values (tls_info, export_info, exported_function, import_library, imported_function, import_rebuilder_settings, image_config_info, bound_import, bound_import_ref, relocation_entry, relocation_table, resource_directory, resource_data_entry, resource_data_info, rich_data, image_directory, exception_entry, coff_symbol, coff_debug_info, pdb and misc debug information, message_table_item, file_version_info) behave as records: right after construction every getter returns the documented initial value (the constructor's argument, 0, empty, or the default setting), set_x changes property x to its argument without truncation, add/clear functions change only their list, no other property changes, and every getter returns the current value of its property. In particular the last value set wins, and has_name/is_forwarded of an exported function always say whether there is a name/forwarder. No getter reads an uninitialised member.", "quantifier": "all declared constructors, all sequences of calls of the declared functions, all arguments of the declared types", "why_tests_cant": "There are 106 functions that change an object and 142 getters; a setter writing a neighbouring or narrower member, or a constructor forgetting one, shows only for the right pair of functions and order of calls.", "anchors": ["src/pe_lib/pe_tls.cpp", "src/pe_lib/pe_exports.cpp", "src/pe_lib/pe_imports.cpp", "src/pe_lib/pe_load_config.cpp", "src/pe_lib/pe_bound_import.cpp", "src/pe_lib/pe_relocations.cpp", "src/pe_lib/pe_resources.cpp", "src/pe_lib/pe_debug.cpp", "src/pe_lib/message_table.cpp", "src/pe_lib/file_version_info.cpp"]}
{"id": "C82", "title": "The stub overlay can be replaced, filled and removed", "statement": "After set_stub_overlay(data), get_stub_overlay returns data; the file saved and opened again has the overlay data (padded with zeros to a multiple of four), its PE header right behind it, and the DOS header, header values and sections of the image before. An overlay that is not longer than the old one never makes saving fail; strip_stub_overlay removes the overlay and fill_stub_overlay keeps its length. A Rich header put into the overlay (its two signatures not occurring earlier) is read back from the saved file, and after stripping there is none.", "quantifier": "for all images that can be saved, all overlays and fill bytes", "why_tests_cant": "Every length of overlay shifts all headers and sections of the file; tests try a few lengths.", "anchors": ["src/pe_lib/pe_base.cpp:110-150", "src/pe_lib/pe_rich_data.cpp:43-130"]}
{"id": "C83", "title": "The mapping state of sections cannot be observed", "statement": "A section keeps, hidden from the user, whether its buffer is at present extended to the virtual size. A program that loads an image and then, in any order, reads at addresses (raw or virtual view), asks for lengths, looks for sections, adds sections, replaces raw data, resizes raw data, recalculates sizes and realigns, gets the same results as if every section held only its raw data; reading changes nothing that can be seen, so a reader (for example get_relocations) returns the same whether or not other readers ran before. Condition: a section is not resized virtually (set_section_virtual_size, expand_section in virtual mode) while it is mapped; get_raw_data of the section before makes the resize safe. Without it the library reports a length that the section does not have.", "quantifier": "all images, all programs over the access and change functions, all interleavings", "why_tests_cant": "The hidden state depends on the whole history of reads; a test fixes one history.", "anchors": ["src/pe_lib/pe_section.cpp:110-170", "src/pe_lib/pe_base.h", "src/pe_lib/pe_base.cpp:330-500"]}
{"id": "C84", "title": "Checksum and entropy of a stream leave the stream as it was", "statement": "calculate_checksum(stream) returns the checksum of all bytes of the stream and calculate_entropy(stream) the entropy of the bytes from the current position to the end; both leave position and state bits of a good stream as they were, also when they throw. The checksum does not depend on the current position.", "quantifier": "all streams, all positions, all exception masks", "why_tests_cant": "The stream state depends on length, position and mask; tests use one file opened freshly.", "anchors": ["src/pe_lib/pe_checksum.cpp:10-81", "src/pe_lib/entropy.cpp:17-39", "src/pe_lib/utils.cpp:14-23"]}
{"id": "C85", "title": "What a call leaves behind when it throws", "statement": "If an operation that changes an image throws, the caller can say what the image is now. set_file_alignment, realign_section, realign_file, set_section_virtual_size, add_section and the directory setters are all or nothing; expand_section is for sections with a virtual size; recalculate_section_sizes throws for void sections only and leaves the raw size 0. The rebuilders of exports, bound imports, relocations and (without rewriting) imports are all or nothing when the directory exists; the rebuilders of load config, TLS and resources change at most the raw data of the section they write to, and only in PE32 images or for names without UCS-2 form. If the directory to be stored does not exist, everything has been done as without storing. A failing rebase_image has applied the relocations in front of the failing one and kept the image base; a failing rebuild_pe has at most stripped the DOS header.", "quantifier": "all images with sections up to 2 GiB and valid alignments, all arguments", "why_tests_cant": "The state after an exception depends on where in the function it is thrown; tests check at most that an exception comes, for a few inputs.", "anchors": ["src/pe_lib/pe_base.cpp:192-260", "src/pe_lib/pe_base.cpp:335-545", "src/pe_lib/pe_base.cpp:1556-1620", "src/pe_lib/pe_bound_import.cpp:203-290", "src/pe_lib/pe_exports.cpp:479-679", "src/pe_lib/pe_imports.cpp:417-760", "src/pe_lib/pe_load_config.cpp:388-536", "src/pe_lib/pe_relocations.cpp:171-302", "src/pe_lib/pe_resources.cpp:465-707", "src/pe_lib/pe_tls.cpp:229-375", "src/pe_lib/pe_rebuilder.cpp:14-171"]}
{"id": "C86", "title": "Saving an image to a stream", "statement": "rebuild_pe(pe, out) on a stream at its beginning writes the file over what the stream contains and leaves the stream good and positioned at the end of the file; it does not look at state bits other than badbit. If the medium does not take all bytes, a prefix of the file has been written, badbit is set and nothing is thrown; the image changes in the same way. If the call throws, nothing has been written and the position is the old one; a bad stream is refused without any change. At another position the headers begin there while the raw data are at their raw pointers counted from the beginning of the stream.", "quantifier": "all images, settings, streams (contents, state bits, exception masks) and media", "why_tests_cant": "Depends on the state of the stream and on every possible place where writing may fail; tests save to a fresh stream that takes everything.", "anchors": ["src/pe_lib/pe_rebuilder.cpp:87-170"]}
{"id": "C87", "title": "What a resource edit leaves behind when it throws", "statement": "If a function that changes a tree of resources throws, the caller can say what the tree is now. add_resource, remove_resource, remove_resource_type, add_bitmap, remove_bitmap, set_version_info and remove_version_info are all or nothing. add_icon and add_cursor are all or nothing unless the type or the name of the group is something else than a directory; then all images of the file have been added under new numbers, no group has them, and everything from before is there. remove_icon_group and remove_cursor_group are all or nothing unless one of the images of the group is something else than a directory; then the images in front of the first such image are gone in that language and everything else, also the group, is there.", "quantifier": "all trees, files, keys, languages", "why_tests_cant": "The state after an exception depends on where in the function it is thrown; tests check at most that an exception comes, for a few trees.", "anchors": ["src/pe_lib/pe_resource_manager.cpp:27-264", "src/pe_lib/resource_cursor_icon_writer.cpp:14-425", "src/pe_lib/resource_bitmap_writer.cpp:15-53", "src/pe_lib/resource_version_info_writer.cpp:21-261"]}
{"id": "C88", "title": "Rebuilding several directories, in any order", "statement": "Calls of rebuild_exports, rebuild_imports, rebuild_relocations, rebuild_image_config, rebuild_resources, rebuild_bound_imports and rebuild_tls that work on different sections, store different directories and write into their own section only are independent: each succeeds or throws the same exception whether the others were made or not, they can be made in any order with the same resulting image and the same returned directories, and if there was room for each of them at the start then all of them succeed and all the directories can be read, from the image and from any file saved then.", "quantifier": "all images, all lists of such calls, all orders", "why_tests_cant": "The number of orders grows with the factorial of the number of calls, and every call has an unbounded argument (functions, libraries, tables, trees).", "anchors": ["src/pe_lib/pe_exports.cpp:428-677", "src/pe_lib/pe_imports.cpp:408-765", "src/pe_lib/pe_relocations.cpp:149-263", "src/pe_lib/pe_load_config.cpp:328-534", "src/pe_lib/pe_resources.cpp:573-630", "src/pe_lib/pe_bound_import.cpp:190-290", "src/pe_lib/pe_tls.cpp:139-374"]}
{"id": "C89", "title": "Rebuild directories, realign, save, load: everything is still there", "statement": "realign_file cannot be noticed through the memory image: after it every reader of the virtual view (get_exported_functions, get_imported_functions, get_resources, get_exception_directory_data, get_relocations, get_tls_info, get_debug_information, get_basic_dotnet_info) and every section_data_from_rva / section_data_length_from_rva read of virtual data gives the same value or throws the same exception as before, for every address; the raw data readers (get_image_config, get_bound_import_module_list) keep their values unless their tables are in the stripped end of the last section. So the workflow a user follows works as a whole: rebuild any set of directories in different sections (in any order), realign_file with a file alignment not smaller than the old one, rebuild_pe, load the result: no call fails, each section has exactly the raw data its header announces, and every rebuilt directory is read back from the loaded file.", "quantifier": "for all images in order, all lists of rebuild calls with room for their data, all alignments, all saving and loading options", "why_tests_cant": "A test fixes one set of directories, one layout and one alignment; the claim is about all combinations, and about every address, including those where reading throws.", "anchors": ["src/pe_lib/pe_base.cpp:1555-1561", "src/pe_lib/pe_base.cpp:153-220", "src/pe_lib/pe_rebuilder.cpp:22-170", "src/pe_lib/pe_load_config.cpp:320-500", "src/pe_lib/pe_bound_import.cpp:108-188"]}
{"id": "C90", "title": "Several directories in one section", "statement": "Directories can share a section. If rebuild_exports, rebuild_imports, rebuild_relocations, rebuild_image_config, rebuild_resources, rebuild_bound_imports and rebuild_tls are called with offsets and addresses such that the written parts do not overlap, be it in one section or in several (the raw data and the callbacks of TLS may be anywhere), each call finds the room it needs, and the calls store different directories, then no later call damages what an earlier one has written: in the end every directory is read back as it was given, on the image, after realign_file, and on every image loaded from a file saved then. In the last section, which can grow, room for each call alone is enough if imports come first; in any other section it is enough that no call strips null bytes and the raw data are long enough.", "quantifier": "for all images with a valid section table, all lists of calls, all offsets, all directory contents", "why_tests_cant": "A test fixes the offsets and contents of a few directories; the claim is about every layout, including parts that touch each other and calls that grow the section.", "anchors": ["src/pe_lib/pe_exports.cpp:479-679", "src/pe_lib/pe_imports.cpp:408-760", "src/pe_lib/pe_relocations.cpp:171-260", "src/pe_lib/pe_load_config.cpp:328-536", "src/pe_lib/pe_resources.cpp:575-660", "src/pe_lib/pe_bound_import.cpp:203-290", "src/pe_lib/pe_tls.cpp:139-374"]}
{"id": "C91", "title": "Reading stays safe whatever was done to the image before", "statement": "Take an image loaded from any file or newly created and apply any number of calls in any order: setters of header values and directories, any change of the list of sections or of bytes of the image, adding and resizing sections, realigning, every rebuilder, rebasing, saving. Each call may return or throw an exception that the program catches. If the sections still end below 4 GiB (loaded images always do) and the number of directories was not set above 16, then no reader of a directory leaves a buffer or runs forever afterwards. None of these calls changes the kind of the image, the DOS header, the section alignment and the other values without setter. As long as the list of sections is not written by hand, all sections keep their position, name, address and flags, their number is at most 96 and is what the header says.", "quantifier": "for all files, all sequences of calls with all arguments, returning or throwing", "why_tests_cant": "Tests run a few fixed sequences; a state left behind by an exception in the middle of a rebuilder, combined with further calls, is practically never exercised.", "anchors": ["src/pe_lib/pe_base.cpp:192-496", "src/pe_lib/pe_rebuilder.cpp:14-170", "src/pe_lib/pe_tls.cpp:228-374", "src/pe_lib/pe_imports.cpp:416-759", "src/pe_lib/pe_relocations.cpp:171-301"]}
{"id": "C92", "title": "Rebuilders refuse sections that do not belong to the image", "statement": "section_attached is true exactly for the sections in the list of the image; every rebuilder called with another section throws \"section is not attached\" whatever its other arguments are and leaves the image as it was; add_section attaches exactly the new section; attached sections stay attached through all later calls unless the program edits the list itself.", "quantifier": "for all images, sections and arguments", "why_tests_cant": "Seven functions with many arguments each; a test tries one call with one foreign section.", "anchors": ["src/pe_lib/pe_base.cpp:461-502", "src/pe_lib/pe_section.cpp:274-281", "src/pe_lib/pe_exports.cpp:479-486", "src/pe_lib/pe_imports.cpp:416-425"]}
{"id": "C93", "title": "has_* report the directories of the file", "statement": "After loading a file, has_exports, has_imports, has_resources, has_exception_directory, has_security, has_reloc, has_debug, has_tls, has_config, has_bound_import, has_delay_import and is_dotnet are true exactly if the directory with the number that the PE format gives it is inside of the directory table of the file, is one of the first sixteen and has an address other than 0; has_reloc moreover requires that the flag \"relocations stripped\" of the file is clear. None of them throws. An image made by create_pe has none of these directories.", "quantifier": "for all files that load, PE32 and PE32+, any declared number of directories", "why_tests_cant": "Twelve functions times the number of directories declared in the header times their contents; a mixed up number is only noticed on a file that has one of the two directories.", "anchors": ["src/pe_lib/pe_base.cpp:505-508", "src/pe_lib/pe_base.cpp:549-618", "src/pe_lib/pe_properties_generic.cpp:45-49"]}
{"id": "C94", "title": "Calls that change an image never touch memory outside of it", "statement": "Whatever was called before, on an image loaded from any file or newly created: a call that changes the image returns or throws, it never reads or writes outside of the buffers of the image, of the section or of its arguments, as long as what it is asked to write fits. For the functions that write a directory (exports, imports, relocations, bound imports, load configuration, TLS, resources) this means that the directory ends below 4 GiB; TLS data must be as long as their address range says and TLS callbacks need room in sections that cannot be enlarged; for saving, no section header may claim more raw data than the section has; for rebase_image the headers must end below the sections. All other functions that change an image (setters, directories, adding, resizing, expanding and realigning sections) are safe with any arguments. A program all of whose calls fit never runs into undefined behaviour.", "quantifier": "for all images, all earlier calls, all arguments, returning or throwing", "why_tests_cant": "The sizes are computed in 32 bits from lists of any length and from values of the image; a test shows only that particular calls do not crash, and a write one byte behind a string usually goes unnoticed.", "anchors": ["src/pe_lib/pe_bound_import.cpp:203-289", "src/pe_lib/pe_load_config.cpp:387-534", "src/pe_lib/pe_exports.cpp:479-678", "src/pe_lib/pe_imports.cpp:416-759", "src/pe_lib/pe_relocations.cpp:171-250", "src/pe_lib/pe_tls.cpp:228-374", "src/pe_lib/pe_resources.cpp:465-660", "src/pe_lib/pe_rebuilder.cpp:14-170", "src/pe_lib/pe_base.cpp:192-496"]}
{"id": "C95", "title": "Saving again writes the same file, and a stored checksum is right", "statement": "An image that has been saved with rebuild_pe can be saved again with the same settings: the second file is byte for byte the first one and the image does not change any more. If the checksum computed from the saved file is set with set_checksum and the image saved again, the new file differs from the first one in the four bytes of the checksum field only, and calculate_checksum of it gives the value stored in it. A saved file that is opened and saved with the same settings gives the same file.", "quantifier": "for all images that can be saved, all settings of the rebuilder, both formats", "why_tests_cant": "Saving writes back into the image (directory entries, raw pointers, sizes, sometimes the stub), so whether a second save sees the same image depends on every field the first one touches; tests save once and compare with nothing.", "anchors": ["src/pe_lib/pe_rebuilder.cpp:14-170", "src/pe_lib/pe_checksum.cpp:10-81", "src/pe_lib/pe_base.cpp:407-410"]}
{"id": "C96", "title": "An image rebuilt from its parts is the same image", "statement": "A new image is created with the section alignment of an existing one, the header values, the file alignment and the directory entries are copied with the getters and setters, and every section is added with add_section and given its virtual size with set_section_virtual_size (samples/full_pe_rebuilder). Every call succeeds; the new image has the same sections at the same addresses with the same names, flags, sizes and data, the same directories and header values, and SizeOfImage is the end of the last section. Exports, imports, resources, exception data, relocations, load configuration, TLS and bound imports are read from it as from the sections of the original. It can be saved, and they are read again from the opened file.", "quantifier": "for all images with a valid section table, any number of sections and directories, both formats, all settings of the rebuilder", "why_tests_cant": "add_section computes addresses, raw sizes and virtual sizes of its own and changes the previous section; that after set_section_virtual_size every section is exactly where and what it was depends on all sizes and alignments together.", "anchors": ["src/samples/full_pe_rebuilder/main.cpp:35-64", "src/pe_lib/pe_base.cpp:335-360", "src/pe_lib/pe_base.cpp:437-496", "src/pe_lib/pe_base.cpp:234-248"]}
{"id": "C97", "title": "Stripping an image does not change what is read", "statement": "strip_stub_overlay and strip_data_directories succeed, whatever the minimum count and the IAT setting; sections and directory entries stay as they are; for every directory but the IAT has_directory gives the same answer as before, and exports, imports, resources, exception data, relocations, load configuration, TLS and bound imports are read as before, neither more nor less. The stripped image can be saved, with or without the DOS header, and the same is read from the opened file, which has the directory count that was left (samples/pe_stripper).", "quantifier": "for all images, all directory tables, all minimum counts, all settings of the rebuilder, both formats", "why_tests_cant": "The directory count enters the existence test, every accessor, the size of the headers and with it all file offsets; whether some reader looks behind the new end depends on the contents of slots that tests leave zero.", "anchors": ["src/samples/pe_stripper/main.cpp:30-54", "src/pe_lib/pe_properties_generic.cpp:45-49", "src/pe_lib/pe_properties_generic.cpp:118-139", "src/pe_lib/pe_base.cpp:128-131"]}
{"id": "C98", "title": "Bound imports in the headers survive saving and loading", "statement": "If an image has a bound import directory in its headers (where linkers put it) that holds its names and references, and the image is written by rebuild_pe with save_bound_import, then saving succeeds as soon as there is room for the headers, and get_bound_import_module_list of the opened file returns the same modules, time stamps and forwarder references, wherever the directory was moved to.", "quantifier": "for all saveable images, all bound import lists and directory places, with and without the DOS header, with and without a new header size, both formats", "why_tests_cant": "The directory is moved behind the section table: its new address depends on stub, directory count and number of sections, and what the reader sees behind its end changes with them.", "anchors": ["src/pe_lib/pe_rebuilder.cpp:42-47", "src/pe_lib/pe_rebuilder.cpp:92-106", "src/pe_lib/pe_rebuilder.cpp:149-154", "src/pe_lib/pe_bound_import.cpp:108-196", "src/pe_lib/pe_base.cpp:963-979"]}
{"id": "C99", "title": "Overlays are detected and do not change what is opened", "statement": "has_overlay of an opened image is true exactly if the file goes on behind the raw data of the last section. Bytes appended to a file (an overlay) change neither whether it is opened nor the headers, sections and stub that are read from it; saving such an image drops them; a file written by rebuild_pe has no overlay, and has one as soon as at least one byte is appended.", "quantifier": "for all files that are opened and all appended bytes (less than 4 GiB together), all saveable images and flags, both formats", "why_tests_cant": "The end of the raw data is computed from two loop variables that may belong to different sections, in 32 bits; agreement for every section table and every amount of appended data, and acceptance of every extended file, are universal statements.", "anchors": ["src/pe_lib/pe_base.cpp:886-893", "src/pe_lib/pe_base.cpp:955-956", "src/pe_lib/pe_base.cpp:1092-1097", "src/pe_lib/pe_rebuilder.cpp:156-170"]}
