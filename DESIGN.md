# Formal model of portable-executable-library

The model is written in Lean 4 as small total functions that follow the C++ text statement by statement. The
properties are in `properties.jsonl`, their status in `MANIFEST.json`, the theorems in `lean/Verif/Props`.

## Layout

* `lean/Verif/Model/*` - the model, function by function; each definition cites the file and the lines in /repo it
  models and says where it simplifies.
* `lean/Verif/Spec/*` - small vocabulary of the property statements, independent of the model's helpers (file formats,
  layouts, abstract data types).
* `lean/Verif/Lemmas/*` - invariants, refinement steps and other helper lemmas.
* `lean/Verif/Props/*` - the theorems `Cnn_*`, each with an `example` that a concrete, non-trivial case meets its
  hypotheses.
* `COVERAGE.md` - every function of /repo/src/pe_lib with the definitions that model it, or "not modelled"
  (`tools/coverage.py -m`).
* `AXIOMS.md` - the axioms of each theorem named in `MANIFEST.json` (`tools/mk_axioms.sh`).
* `seeded/LOG.jsonl` - realistic bugs put into the model and the theorems that failed: those whose proof breaks and those that use one of them
  (a build stops at the first module that fails, so the second kind is taken from the dependencies of the proofs).
* `tools/mk_imports.sh`, `tools/mk_manifest.py`, `tools/mk_design.py` regenerate `Verif.lean`, `MANIFEST.json` and the table
  at the end of this file.

## Modelling conventions

* **Outcomes.** `Res a = Except Fault a`. `Fault.exn e` is a thrown exception with its id. `Fault.ub u` is undefined behaviour:
  reading or writing outside of a buffer, bad iterators, dangling pointers, uninitialised values, endless loops.
  Nothing is assumed away: a function returns `ub` where the source would commit it, and the safety properties
  prove that this cannot happen (or give the input with which it happens).
* **Numbers** are `Nat` with the wraps of the C++ types written out (`w16`, `w32`, `w64`, `sub32`, `sub64`). Signed arithmetic
  is written out where the source uses it.
* **Bytes** are `List UInt8`; strings of the API are lists of bytes or of character codes.
* **Loops** are structural or well-founded recursion. A loop that need not end in C++ has fuel and returns `ub hang` when it
  runs out; theorems about termination show that the fuel cannot run out (or an input on which the loop does not end).
* **Containers.** `std::vector` is `List`, `std::map`/`std::set` a list sorted by key, `std::sort` insertion sort (any sorting function gives
  the same result up to the order of equal elements; theorems about sorted lists do not use that order).
* **Objects with pointers** (`debug_info`, `pe_base`, `resource_directory_entry`) have a model with an explicit heap: addresses,
  allocation, `delete`; use after free and leaks are observable (C77, C78, C80). The other parts of the model treat them as values, which
  C77, C78 and C80 justify.
* **Sections** are their header and raw data. The hidden mapping state (`mutable` members) has its own model (`Model/Section`, `Model/Mapped`); C02 and C83
  justify to leave it out elsewhere.
* **Streams** are a byte list with position and state bits where the property is about the stream (C79, C84), and a byte list otherwise.

## Trusted base

* Lean 4.33's kernel and the axioms `propext`, `Classical.choice`, `Quot.sound` (see `AXIOMS.md` for each theorem). No other axioms, no `sorry`,
  no `native_decide`, no `bv_decide`. `decide +kernel` is used for concrete examples and finite tables of the model; it is evaluated by the kernel.
* **The model says what the code does.** This is by reading; the citations beside the definitions are there to check it.
* **Target**: LP64 (64-bit `size_t`), little endian, the branches without `PE_BLISS_WINDOWS`.
* **iconv** converts between UCS-2 and `wchar_t` without loss and without errors (`Model/Ucs2`).
* **`std::stringstream`** formats and parses decimal and hexadecimal numbers as in the "C" locale.
* **Memory** is never exhausted; the depth of the native stack is not modelled.
* The zero byte behind the contents of a `std::string` may be read where the source copies from `data()` with a length of its own (the section
  writer of `rebuild_pe`, the TLS writer). Elsewhere it does not count as part of the buffer: the model is stricter than the code there.
* **Floating point**: entropy is computed over exact reals (C50).
* Standard library functions (`std::find_if`, `std::sort`, `std::string::find`, `std::map`, ...) do what the standard says.

## What is not modelled

See `COVERAGE.md`. In short: `operator new` failing, the texts of exceptions, the `samples` and `tests` directories (but for
the copying of an image in `full_pe_rebuilder`, `Spec/Copy`), Windows-only
branches, iostream internals beyond position, state bits and exception mask, and the accessors listed there as not modelled.

## Behaviour of the code worth knowing

Facts about the code as it is, each proved in the model. They are the reason why 43 properties are only proved in part.

* `va_to_rva` for PE32+ accepts addresses that wrap around 2^64 (C05, C76).
* Lengths of sections above 2 GiB are computed with signed 32-bit numbers (C09, C52); layouts that wrap at 4 GiB overlap (C10).
* `recalculate_section_sizes` does not update SizeOfImage, its auto strip flag is inverted, a fresh image has a wrong SizeOfImage (C11).
* With an empty directory table `directory_exists` looks at unused slots, more than 16 directories are read out of bounds (C12, C70);
  `strip_data_directories` removes one entry too many (C13).
* The loader accepts a wrong SizeOfImage alignment, wrapping section ends and a first section below the headers (C15); a file
  with a section of virtual size 0 loses its data (C16).
* `rebuild_pe` reads behind the data of freshly added sections that are not padded; stale raw pointers shift data (C18).
* `rebase_image` of a file whose sections wrap around 4 GiB checks the length against a section and writes through a pointer into the headers, behind
  their end; the loader accepts such files (C26).
* The empty list of relocations or exports cannot be written (C25, C27); exports with address 0 and forwards without names are lost (C27).
* Imports by number without lookup table are read as names, the fill setting without building loses functions, an import table
  that ends with the raw data of its section cannot be overwritten (C29).
* Resource names are checked in bytes and read in characters (C30); the size calculation of the resource writer assumes that sorting does not change
  the padding, and the writer can write 3 bytes behind its buffer (C32); more than 65535 entries wrap the counts (C31).
* New icon numbers collide or the search never ends near 65535 (C35); cursor heights from 128 are lost (C37); groups that share images
  lose them when one is removed (C62).
* String tables are checked in bytes and read in characters (C39); version information can hang the reader, is over-read,
  and is cut silently above 64 KiB (C41, C63).
* TLS data at the end of a section, overlapping parts and stripped sections are lost (C43, C44, C45).
* A misc debug record with a length below 12 makes a string of nearly 2^64 characters (C47); several kinds of debug data are never reported (C66).
* Rich header search runs over the end of the stub (C48), always after `fill_stub_overlay` on four bytes or more (C82).
* The setter of the minor version of a resource directory is called `get_minor_version` (C81).
* `set_file_os(unknown)`/`set_file_type(unknown)` change nothing (C71); `create_pe` with properties writes machine i386 also for PE32+ (C74).
* `debug_info` and `resource_directory_entry` lose their content on self-assignment, `pe_base` dereferences a null pointer (C77, C78, C80); a throwing
  `pe_base` constructor leaks the properties object (C78); arguments inside of the changed entry dangle (C80).
* After a truncated file the position of the stream is lost; with an exception mask a wrong exception is thrown; a failed stream leads
  to the use of an uninitialised header (C79).
* `set_section_virtual_size` and `expand_section` in virtual mode on a section that is mapped leave the mapped buffer too short: the reported length
  exceeds the data (C83).
* `calculate_checksum` reads the DOS header at the current position, and leaves the stream at its end if the length is not a multiple of four or
  the header is short; `calculate_entropy` of a file stream behind its end does not return (C84).
* Calls that throw late leave half of their work (C85): rebuilders when the directory does not exist, load config and TLS of a PE32 image at the end
  of the address space, TLS callbacks and saved import tables without room, resource names with surrogates, `rebase_image` with a bad relocation
  (the relocations before it are applied and the image base is old, so that a second call applies them twice), `rebuild_pe` with
  `strip_dos_header` or bound imports (stub lost, directory moved), `recalculate_section_sizes` of a void section (raw size lost).
* `rebuild_pe` to a stream that is not at its beginning puts the raw data at absolute positions; failing writes are silent, the exception mask of the
  stream is lost, a longer old file keeps its tail; a raw pointer 0xFFFFFFFF and a full disk make it run forever (C86).
* `add_icon` and `add_cursor` that fail at the group leave the images behind, a failing `remove_icon_group` has removed some images (C87).
* `rebuild_tls` writes raw data and callbacks where their addresses say, also into a section that holds another rebuilt directory; then the order of the calls matters (C88).
* `rebuild_pe` moves bound imports of the headers behind the section table and changes the directory entry of the image, but not the header bytes kept in it. Saving the same image a second time throws, or writes whatever was at the new address as bound imports (C95). Saving twice is the usual way to store a checksum. Opening the saved file and saving that is safe, if the size of the headers was updated (C95_reopen_partial); if it was not and does not cover the moved bytes, the file just written opens but cannot be saved (C95_reopen_short).
* `add_section` announces raw data up to the next multiple of the file alignment. An image whose last section ends before that (files may end that way) can be saved itself, but not after its sections have been copied into a new image: saving the copy reads behind the data (C96).
* `has_overlay` adds the size of the last raw data to the raw pointer of the last section, also if those are different sections. If the last section has no raw data, an overlay is reported for a file that has none (`C99_spurious`), or one is missed (`C99_missed`).
* `rebuild_pe` moves only as many bytes of a bound import directory as its size says, while the reader of bound imports does not look at the size: names behind the end are lost, and the opened file has modules with other (here: empty) names. Nothing is reported (C98).
* `strip_data_directories` can leave no directory at all, also with its default arguments (C13). The existence test then computes `0 - 1`, takes all 16 slots for entries, and directories behind the former end of the table appear (C97).
* After a directory rebuilder the recorded raw size is file aligned while the raw data string is not: `rebuild_pe` then reads behind the string. `realign_file` in between repairs this, but it also strips null bytes from the end of the last section, and `get_image_config` throws when its table of lock prefixes ended there (C89).
* Directories may share a section, but `rebuild_imports` resizes the section to the end of its own tables: what another rebuilder has put behind them before is cut off (C90).

## Results per property

* **C01 Alignment helpers round correctly** - proved, 5 theorems in `Props/Utils`. align_down/align_up characterised for every power-of-two alignment; the 32-bit wrap of align_up near 4 GiB is stated exactly.
* **C02 Viewing a section virtually never changes its raw data** - proved, 4 theorems in `Props/Section`. For every sequence of view requests; the staleness of a mapped view after a size change is shown as a separate fact.
* **C03 Section name round-trips** - proved, 2 theorems in `Props/Section`. First 8 bytes, up to the first NUL.
* **C04 Section attribute flags are independent** - proved, 2 theorems in `Props/Section`. Last setter wins for every history of setters; all other bits unchanged.
* **C05 VA/RVA conversion is exact** - partial, 6 theorems in `Props/Rva`. Exact for PE32 and for PE32+ with image base + rva below 2^64; the unchecked 64-bit overflow is shown as counterexample.
* **C06 Section lookup by RVA is sound and complete** - proved, 3 theorems in `Props/Rva`. For sections ending below 4 GiB; a section whose range wraps is shown not to be found.
* **C07 File offset / RVA conversion are inverse** - proved, 2 theorems in `Props/Rva`. Both directions, for layouts with disjoint ranges.
* **C08 Typed reads at an RVA stay inside the image** - proved, 2 theorems in `Props/Rva`. No undefined behaviour for any image; exact characterisation of the value read.
* **C09 Reported data length is safe to use** - partial, 3 theorems in `Props/Rva`. Address variant: every image. Section variant: virtual ranges up to 2 GiB; counterexample above.
* **C10 Adding sections keeps the virtual layout valid** - partial, 3 theorems in `Props/Edit`. For images and new sections whose layout stays below 4 GiB; the 32-bit wrap-around is shown as a counterexample.
* **C11 SizeOfImage covers all sections after editing** - partial, 5 theorems in `Props/Edit`. SizeOfImage is right after update_image_size and set_section_virtual_size and stays right through add_section; false for a freshly created image and after recalculate_section_sizes (counterexamples).
* **C12 Directory accessors are consistent** - partial, 6 theorems in `Props/Directories`. For headers with 1 to 16 directories; counterexamples for 0 and for more than 16. Removing a directory is characterised bit by bit, with its effect on the characteristics.
* **C13 Stripping trailing data directories is safe** - partial, 2 theorems in `Props/Directories`. Keeps every used directory and the requested minimum except for the exact off-by-one shown as counterexample.
* **C14 Loading never misbehaves on malformed files** - proved, 2 theorems in `Props/Load`. For every byte string, both kinds, file or memory dump, with or without debug data. Allocation failure is outside the model.
* **C15 A loaded image satisfies the documented header invariants** - partial, 6 theorems in `Props/Load`. All documented invariants except the ones the loader does not establish: SizeOfImage alignment, 32-bit wrap of section ends, alignment of the first section (three counterexamples). With those excluded the section table is valid.
* **C16 Loaded section contents are the file's bytes** - proved, 3 theorems in `Props/Load`. Every header field and data byte is traced to the file; SizeOfRawData may be cut to the virtual size, and a zero virtual size loses the data (proved).
* **C17 Rebuilt file layout is valid** - proved, 2 theorems in `Props/Rebuild`. C17_layout and C17_headers hold for every image whose written file is smaller than 4 GiB and whose stub is smaller than 2 GiB.
* **C18 Rebuilt file holds each section's bytes at its raw pointer** - partial, 9 theorems in `Props/Rebuild`, `Props/RebuildIff`, `Props/Workflow`. Section data, headers, bound import bytes and completion are proved, the latter as an equivalence (C18_completes_iff); the data theorem needs NoStalePointers (a section without raw data whose raw pointer is stale shifts later data: C18_stale_pointer_shifts_data), and the writer reads behind the data of freshly added sections (C18_added_section_overread) and behind the headers for more than 16 directories (C18_many_dirs_overread).
* **C19 Save then load gives the same image** - proved, 2 theorems in `Props/SaveLoad`. For every image satisfying Saveable (well-formed: valid table, sections holding the data they announce, file below 4 GiB, no stale raw pointers); C19_loaded_saveable shows that loaded images satisfy it. Freshly added sections with unaligned data do not (see C18_added_section_overread).
* **C20 Checksum does not depend on the stored checksum** - proved, 1 theorems in `Props/Checksum`. Checksum does not depend on the stored checksum field, for every file.
* **C21 Checksum is the one's-complement word sum plus file size** - proved, 2 theorems in `Props/Checksum`. Never faults on a file with readable DOS header; value equals folded 16-bit word sum plus file size.
* **C22 Checksum detects any single-word change** - proved, 1 theorems in `Props/Checksum`. Changing a single word outside the checksum field changes the checksum, except between 0x0000 and 0xFFFF.
* **C23 Relocation items encode and decode faithfully** - proved, 1 theorems in `Props/Reloc`. Both directions for all items and entries; entries outside 12/4 bits are shown to lose bits.
* **C24 Relocation directory reading terminates within its data** - proved, 3 theorems in `Props/Reloc`. Termination is by construction (the model function is total); every result is a chain of blocks read from the directory.
* **C25 Relocations written are relocations read** - partial, 2 theorems in `Props/Reloc`. Round trip for every non-empty list of non-empty encodable tables and every host section with room. Missing: the empty list, for which the claim is false (C25_empty_list_unreadable).
* **C26 Rebasing is invertible and touches only relocation targets** - partial, 9 theorems in `Props/Rebase`, `Props/RebaseFile`. Holds for images whose headers end below all sections (HeadersBelow). Loading guarantees this for files whose sections end below 4 GiB (C26_loaded_partial). It does not guarantee it otherwise: C26_wrapped_file is a file that loads, whose sections wrap around 4 GiB so that an address is covered by a section but lies in the headers; rebasing it with its own relocations writes outside of the buffer.
* **C27 Exports written are exports read** - partial, 5 theorems in `Props/Exports`. Proved for non-empty lists of storable functions. The code loses functions with address 0, forwards of unnamed functions, mishandles the empty list (out of bounds write) and a nameless directory that ends exactly at the section end; each is proved as a counterexample.
* **C28 Export name table is sorted and duplicates are rejected** - proved, 3 theorems in `Props/Exports`. Duplicates throw; the name table read from the written image is strictly ascending and complete, and binary search on such a table is exact.
* **C29 Imports written are imports read** - partial, 7 theorems in `Props/Imports`, `Props/ImportsAll`. Proved for all settings: new tables, kept tables, overwritten tables, filled-in lookup tables, with and without lookup tables, both header settings. Missing: the fill setting without building lookup tables (C29_fill_without_build shows a loss), functions by number without lookup tables (C29_ordinal_without_original), IAT values 0 (C29_zero_iat_value), section data behind the directory (C29_cuts_data), overwritten tables at the very end of raw data (C29_table_at_end) or in the section of the directory, PE32 names above 2 GiB.
* **C30 Resource directory reading terminates on any data** - partial, 3 theorems in `Props/Resources`. Termination is proved for every image, cyclic directories included (C30_terminates). Absence of undefined behaviour holds on loaded images whose names lie inside the data (C30_safe_partial); it is false in general because the name length in characters is compared with a number of bytes (C30_name_overread). Native stack depth is not modelled.
* **C31 Resources written are resources read** - partial, 3 theorems in `Props/Resources`. Round trip proved for all trees with 16-bit numbers and unique keys when there is room; the extra room conditions (hfit, hend) are needed: C32_overflow, C31_empty_at_end, C31_long_id are counterexamples.
* **C32 Resource rebuilding never writes outside its buffer** - partial, 2 theorems in `Props/Resources`. Proved for all trees that are in order, or whose data sizes are multiples of 4, or with 3 spare bytes; false otherwise: C32_overflow.
* **C33 Added resources can be read back** - proved, 3 theorems in `Props/ResourceManager`. Throwing conditions and the result of the lookup are proved for all trees; duplicates of the language in the directory are excluded (C33_duplicates shows why).
* **C34 Adding or removing a resource does not disturb other resources** - proved, 6 theorems in `Props/ResourceManager`. Adding: for all trees. Removing: for all trees with unique keys; the tree is unchanged when the function throws; no empty directories are left.
* **C35 New icon/cursor IDs are free and distinct** - partial, 7 theorems in `Props/IconIds`. When the numbering has room below 65536 the numbers given to new images are distinct, unused, and follow the chosen policy (lowest free, behind the last, from 1). Without room the property is false of the code: C35_collision and C35_wide_collision give a tree where a used number is handed out, C35_hang one where the loop does not end.
* **C36 Icon files round-trip** - proved, 4 theorems in `Props/Icons`. Adding to a new and to an existing group, for every file of the format (IcoFile is exactly what the writer accepts), with room for the numbers and nothing in the way in the tree.
* **C37 Cursor files round-trip** - partial, 6 theorems in `Props/Icons`. Images, widths, hotspots and sizes are always the same; heights below 128 too. C37_height: a height of 128 or more is lost, since the code doubles it and cuts it to 8 bits before halving.
* **C38 Bitmap files round-trip** - proved, 4 theorems in `Props/ByIndex`, `Props/ResourceData`. An added bitmap file of at least 54 bytes is read back as a new 14-byte file header (signature, length, zero words, offset behind the colour table) followed by everything behind the old file header; a bitmap file in the usual form is read back byte for byte; files that are too short are refused. As for every added resource, the language must not already be stored twice below the name. C38_at: with an index instead of a language.
* **C39 String table parsing is safe and numbers strings correctly** - partial, 6 theorems in `Props/ResourceData`. Every encoded table of 16 strings is read with the numbers 16*(b-1)+k (16 bits), and every table that is read without an error is such a table; get_string_by_id_lang finds the string. Reading is safe only for data in which accepted lengths fit when counted in two-byte characters: C39_overread shows that the code compares characters with bytes and reads behind the end.
* **C40 Message table parsing is safe and terminates** - proved, 7 theorems in `Props/ByIndex`, `Props/ResourceData`. For all data parsing ends and reads only inside of the data. The result is characterised: each number in the range of a block has the text stored at its place, other numbers have none; complete tables are read. Blocks ending with number 2^32-1 are always refused, and the size check demands room for one block too many (C40_small_table). C40_lookup, C40_at: where the table is looked up.
* **C41 Version info round-trips** - proved, 8 theorems in `Props/VersionFormat`, `Props/VersionInfo`. For all version information the format can hold (names without zeros, values not ending in zero, less than 64 KiB in all): set, then read gives the same. C41_too_large_is_lost and C41_zero_in_name show that these limits are needed: beyond them the code reports success and loses strings. C41_format: the bytes written are exactly those of the independent description of the VERSIONINFO format in Spec/VersionFormat; C41_reads_format: such bytes are read.
* **C42 Version info editor/viewer agree** - proved, 6 theorems in `Props/VersionEdit`. The named setters and getters (company name etc.) are set_property/get_property with fixed names and not modelled separately.
* **C43 TLS directory round-trips** - partial, 7 theorems in `Props/Tls`. Proved for every consistent description whose three parts do not overlap: directory in any section with room (within the pages of the section), raw data and table of callbacks inside of existing raw data of any section or anywhere in the last one, which grows; also that nothing else of the image changes (every byte of every section outside of the three written ranges, raw and virtual). False outside, with proved counterexamples: zero fill without raw data is lost, raw data reaching behind the raw data of a section that does not grow are cut off silently, a raw data string shorter than the address range is over-read, and the final null of the callback table can be written behind the section's raw data. Not covered: overlapping parts, a directory behind the pages of its section.
* **C44 Bound imports round-trip** - partial, 3 theorems in `Props/BoundImport`. Proved for directories within 64 KiB, when the (never written) final null record falls on zero bytes and the section is not stripped; both exceptions are shown to fail by counterexamples.
* **C45 Load config round-trips with sorted handler table** - partial, 3 theorems in `Props/ConfigKept`, `Props/LoadConfig`. For both kinds, every configuration whose values fit into their fields, both tables written. Missing: a stripped inner section (counterexample C45_stripped_unreadable), where the final null of the lock prefix table is cut off. C45_tables_kept: without the two flags the table addresses stay and the tables already in the image are read back.
* **C46 Exception directory reading** - proved, 3 theorems in `Props/Exception`. Safety for every accepted file; the returned list is exactly the chain of runtime function records.
* **C47 Debug information parsing is safe** - partial, 2 theorems in `Props/Debug`. Reading terminates and stays inside the buffers for every image, except when a record of type misc has raw data claiming a length below 12 (C47_short_misc: a range of nearly 2^64 characters; libstdc++ turns this into std::length_error).
* **C48 Rich header parsing is safe and exact** - partial, 4 theorems in `Props/Rich`. Exact decoding of every well-formed rich header; safety except for stubs whose marker search runs over the end (counterexample).
* **C49 File alignment changes are validated** - proved, 1 theorems in `Props/Edit`. 
* **C50 Entropy of data is between 0 and 8 bits** - proved, 6 theorems in `Props/Entropy`. Over exact real arithmetic; double rounding is not modelled.
* **C51 Reading the load configuration is safe** - proved, 1 theorems in `Props/LoadConfig`. For every file the loader accepts.
* **C52 expand_section makes room and loses nothing** - partial, 3 theorems in `Props/Resize`. For sections below 2 GiB; larger ones are shown to shrink (counterexample).
* **C53 realign_file keeps the memory image** - proved, 1 theorems in `Props/Resize`. For sections with a virtual size that covers their raw data.
* **C54 Reading bound imports is memory safe** - proved, 1 theorems in `Props/BoundImport`. All loaded images.
* **C55 Reading exports is memory safe** - proved, 3 theorems in `Props/Exports`. For images from load with any bytes.
* **C56 Export list queries are exact** - proved, 3 theorems in `Props/Exports`. 
* **C57 Reading imports is memory safe and ends** - proved, 1 theorems in `Props/Imports`. All files and flags; reading is total and free of out-of-bounds reads.
* **C58 Resources edited with the manager reach the file** - proved, 4 theorems in `Props/ResourceManager`. Composition of add_resource, rebuild_resources and get_resources; the space conditions are those of C31. C58_counters_stale: the counters of the tree in memory are not updated.
* **C59 Lists and counts of resources agree with lookups** - proved, 4 theorems in `Props/ResourceManager`. All lists and counts; the index lookup is proved for directories of languages without names.
* **C60 Icon and cursor functions are memory safe** - partial, 5 theorems in `Props/IconsMore`. Proved for groups, single icons and adding; single cursors only for groups that are as long as they say (C60_overread is a counterexample), adding unless 65535 images are added to a tree without that type (C35_hang).
* **C61 A single icon or cursor is that of its group** - proved, 3 theorems in `Props/IconsMore`. C61_empty_group shows why the well-formedness of all groups includes one entry for cursor groups.
* **C62 Removing a group removes it with its images and nothing else** - proved, 3 theorems in `Props/IconsMore`. C62_shared_images shows that groups with common images are affected.
* **C63 Reading version information is memory safe and ends** - partial, 5 theorems in `Props/VersionSafe`. False for the code: C63_hang (claimed length 0xFFFD and more: endless loop), C63_over_read (value length checked in bytes, read in words), C63_over_read_translation. Proved: these blocks are the only reason for undefined behaviour.
* **C64 Translations and their strings** - proved, 11 theorems in `Props/ByIndex`, `Props/VersionEdit`, `Props/VersionFormat`. Parsing by std::wstringstream in the C locale is an assumption of the model. C64_upper_case: for strings that are not in the form of get_translation_list, remove_translation leaves the table. C64_text, C64_default_language, C64_list: the text is eight lower case hexadecimal digits, independent of the model's own printing.
* **C65 The version information writer stays inside its buffer** - proved, 2 theorems in `Props/VersionInfo`. 
* **C66 Debug information says what the debug directory and its raw data say** - partial, 12 theorems in `Props/ByIndex`, `Props/Debug`. Soundness of every entry (C66_entries), raw data from the file (C66_raw_data), and success with the right result on everything linkers write (C66_reads_partial, C66_understood_partial, C66_coff_partial). Not so: CodeView 4/5/other never reported (C66_codeview_lost), COFF file names from the wrong place (C66_file_name_wrong), auxiliary records taken for symbols (C66_aux_as_symbol), directory at the very end of the image rejected (C66_end_of_image), made up zeros with strict streams (C66_strict_stream). C66_present: when information is there at all.
* **C67 Reading TLS information is safe and says what the image says** - proved, 3 theorems in `Props/Tls`. Safety and termination for every image loaded from any file, and that the result describes the bytes of the image.
* **C68 Directories in sections survive saving and loading** - proved, 1 theorems in `Props/Survive`. For every image that C19 covers; readings that need the bytes of the old headers are excluded (the headers are written anew), therefore the reading is required to succeed on the image without header bytes.
* **C69 Edited directories are in the saved file** - partial, 8 theorems in `Props/SurviveEdits`. Each rebuilder within the limits of its round trip theorem (which are partial themselves, with counterexamples outside), imports with all settings; bound imports only when written behind the headers.
* **C70 Absent directories are reported as absent** - proved, 3 theorems in `Props/Absent`. For tables with at least one entry; with an empty table directory_exists looks at unused slots (C70_empty_table).
* **C71 File version flags, operating system, type and version strings** - proved, 6 theorems in `Props/FileVer`. C71_unknown_ignored: set_file_os/set_file_type with the unknown value change nothing.
* **C72 The .NET header is read where the directory says** - proved, 4 theorems in `Props/DotNet`. 
* **C73 Files are opened as what they are** - proved, 4 theorems in `Props/Factory`. Reading only; the safety of create_pe is C14_factory_safe.
* **C74 An image built from nothing can be saved and opened** - proved, 3 theorems in `Props/Created`, `Props/Scratch`. Section data must be padded to the file alignment by the caller (C18_added_section_overread shows what happens otherwise) and the headers must fit before the first section (C74_headers_too_long).
* **C75 Header accessors return the documented fields and setters set exactly one** - proved, 8 theorems in `Props/Accessors`. For files opened by the library; values that rebuild_pe computes are covered by C17.
* **C76 Access by virtual address is access by relative address** - proved, 8 theorems in `Props/Accessors`. C76_wrapped_address shows that the bound on the image base is needed.
* **C77 Copies of debug_info are independent and leave no dangling pointers** - proved, 3 theorems in `Props/Objects`. Self-assignment is excluded from the statement: C77_self_assignment shows that it loses the information (but stays safe, C77_safe).
* **C78 Copies of images are independent and own their properties object** - proved, 4 theorems in `Props/Objects`. Self-assignment dereferences a null pointer (C78_self_assignment); a constructor that throws leaks the properties object (C78_leak).
* **C79 Opening leaves the stream as it was** - partial, 16 theorems in `Props/StreamState`. Restored after success and after exceptions that do not report a short file. False otherwise: after a short file the position is lost (C79_short, C79_truncated) or the stream's own exception is thrown (C79_short_masked, C79_debug_masked); cut-off debug data moves the position (C79_debug_moves); a failed stream leads to a decision about bytes never read (C79_failed_stream).
* **C80 Resource trees behave as values and own their memory** - proved, 8 theorems in `Props/ResourceObjects`. C80_values, C80_no_leak: heap model with explicit addresses, refinement to trees as values, for all programs whose arguments do not overlap the changed entry. Self-assignment is safe but loses the content (C80_self_assignment). Overlapping arguments: C80_assign_child, C80_add_own_data, C80_add_own_dir, C80_push_own_element show the use of released memory; C80_assign_parent shows a wrong value.
* **C81 Value classes are records of properties** - proved, 4 theorems in `Props/Plain`. Tables of the functions and members of 24 classes, generated from the sources and checked against the interface declared in the headers. C81_minor_version: the setter of the minor version of a resource directory is called get_minor_version.
* **C82 The stub overlay can be replaced, filled and removed** - proved, 6 theorems in `Props/Stub`. C82_fill_overread shows a defect beside the claim: after fill_stub_overlay on four bytes or more, get_rich_data reads behind the end of the overlay, also in the saved file.
* **C83 The mapping state of sections cannot be observed** - proved, 11 theorems in `Props/Mapped`. For every program over the access and change functions; the condition on virtual resizing is part of the claim and C83_stale_view, C83_stale_pointer show that it is needed. get_relocations is modelled again as such a program.
* **C84 Checksum and entropy of a stream leave the stream as it was** - partial, 9 theorems in `Props/StreamUse`. Checksum: right value and unchanged stream at the beginning of a stream whose length is a multiple of four; otherwise the exact outcome is proved: the value is right but the stream stays at its end (or fails, with an exception mask), and the header is taken from the current position. Entropy: every good stream not behind its end; behind it the loop does not end.
* **C85 What a call leaves behind when it throws** - partial, 24 theorems in `Props/Failing`, `Props/SaveStream`. The stepwise model keeps the image at the moment of the exception and is proved to agree with the other models. All or nothing is proved for the simple setters unconditionally; for the rebuilders under the named conditions (sections up to 2 GiB and not void, directory present, no rewriting of saved import tables, PE32+ for load config and TLS, convertible resource names). Outside of the conditions it is false; counterexamples are C85_*_case, and what is left then is described by C85_no_place, C85_leaves_data, C85_imports_rewrite, C85_rebase, C85_rebase_prefix, C85_rebuild_pe and C85_rebuild_pe_all.
* **C86 Saving an image to a stream** - partial, 10 theorems in `Props/SaveStream`. Writing is proved for streams at their beginning, for all media that may fail at any byte; C86_elsewhere says what happens at other positions (where the result is not a PE file, C86_elsewhere_case). Needs raw pointers below 0xFFFFFFFF if the medium may fail (C86_hang_case). Buffering inside of the stream is not modelled.
* **C87 What a resource edit leaves behind when it throws** - partial, 9 theorems in `Props/ResourceThrow`. All or nothing is proved for single resources, bitmaps and version information, and for icon and cursor groups under the exact condition; outside of it it is false (C87_orphan_images, C87_half_removed) and what is left is described. For adding, the numbers of the images must not run out (Room, as in C35).
* **C88 Rebuilding several directories, in any order** - partial, 5 theorems in `Props/Commute`. Independence and exchange of calls are proved for all calls that write into their own section only; without this condition they are false (C88_tls_elsewhere). That all directories can be read then is proved under the hypotheses of the round trips (C25, C27, C29, C31, C44, C45), without TLS and without libraries whose existing tables are kept.
* **C89 Rebuild directories, realign, save, load: everything is still there** - partial, 4 theorems in `Props/Workflow`. realign_file keeps all virtual reads (full); raw readers and the whole workflow under: load config / bound imports not in the last section (C89_last_section: realign_file strips the terminator of the lock prefix table there), new file alignment not smaller than the old one, calls as in C88 (no TLS, no kept import tables).
* **C90 Several directories in one section** - partial, 7 theorems in `Props/Shared`, `Props/SharedTls`. For the calls of DirEdit.Fit (no import tables kept elsewhere). The written part of each call is named by DirEdit.extent, for TLS by its three address ranges (C90_tls_partial, C90_tls_workflow_partial; C90_tls_room_partial needs room in the image before the calls only, with TLS as the first call). rebuild_imports cuts off the data behind its tables, so it has to be the first call for its section (C90_imports_cut: the relocations behind it are gone).
* **C91 Reading stays safe whatever was done to the image before** - partial, 8 theorems in `Props/History`. Histories are sequences of calls of the stepwise model (Model/Failing), so images left behind by exceptions are covered. C91_readers_safe covers exports (with and without info), imports, relocations, TLS, load config, bound imports, exceptions and .NET; C91_debug_partial and C91_resources_partial keep the exceptions of C47 and C30. C91_count_above_16 shows why the number of directories is restricted. Changes through get_dos_header() are not among the calls.
* **C92 Rebuilders refuse sections that do not belong to the image** - proved, 4 theorems in `Props/Attached`. C92_refused for all seven rebuilders, with the image unchanged; C92_added and C92_stays say which sections are attached.
* **C93 has_* report the directories of the file** - proved, 2 theorems in `Props/Has`. For all files that load, and for new images (C93_loaded, C93_created); the numbers and offsets are literals of the PE format, not those of the model.
* **C94 Calls that change an image never touch memory outside of it** - partial, 11 theorems in `Props/Writers`, `Props/WritersAll`, `Props/WritersFile`, `Props/WritersImports`, `Props/WritersTls`. C94_safe_partial covers every call that changes an image, C94_history_partial whole programs; the conditions (Call.Fits, one for each function) are stated beside. For each writer separately: C94_bound, C94_relocations, C94_config, C94_exports, C94_exports_empty, C94_imports, C94_tls, C94_save. Outside of the conditions it is false of the code: C94_limits, C26_wrapped_file, C18_added_section_overread, C18_many_dirs_overread, C27_empty_list, C32_overflow, C43_short_data, C43_callbacks_overrun. Missing: directories of 4 GiB and more (the sizes overflow there).
* **C95 Saving again writes the same file, and a stored checksum is right** - partial, 6 theorems in `Props/SaveAgain`, `Props/SaveReopen`. C95_stamp for all images. Saving again (C95_again_partial) and the checksum (C95_checksum_partial) need that bound imports, if they are to be saved, lie in a section or already behind the section table: elsewhere the second save loses them, C95_bound_lost. C95_reopen_partial (opening the saved file and saving that) also allows bound imports in the headers, if the headers written include them: otherwise the file opens but cannot be saved, C95_reopen_short.
* **C96 An image rebuilt from its parts is the same image** - partial, 4 theorems in `Props/Copy`. C96_copy and C96_reads for all images with a valid section table (C96_reads: raw sizes are the file aligned lengths of the data). C96_file_partial (saving the copy) needs raw sizes that are multiples of the file alignment, which is necessary: C96_short_data_overread; bound imports, if they are to be saved, have to be in a section (the headers are not copied).
* **C97 Stripping an image does not change what is read** - partial, 3 theorems in `Props/Strip`. C97_strip_reads for all images in which a directory other than the IAT is in use; that is necessary: C97_none_left. C97_file_partial: saved and opened again, also for images with bound imports (in a section or in the headers).
* **C98 Bound imports in the headers survive saving and loading** - partial, 3 theorems in `Props/BoundKept`. C98_kept_partial and C98_saved_partial for directories that hold the names and references they refer to; that is necessary: C98_names_lost.
* **C99 Overlays are detected and do not change what is opened** - partial, 7 theorems in `Props/Overlay`. C99_overlay_partial: exact for every opened file whose last section has raw data. C99_appended: appended bytes change nothing that is opened. C99_dropped: saving drops them, the file written is the same. C99_saved_partial: saved files have no overlay until bytes are appended. If the last section has no raw data the claim is false of the code: C99_spurious, C99_missed.
