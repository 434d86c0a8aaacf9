/-
What a user expects of the classes that only carry values: an object is a record of named properties.  A constructor sets the
properties named by its parameters, `set_x` sets property `x`, `add_...`/`clear_...` change a list, and `get_x`, `is_x` or `x`
return property `x`.  The interfaces are those declared in the headers.
-/
import Verif.Model.Plain
import Mathlib.Data.List.DropRight
namespace PE.Plain

/-- The interface of a class as the header declares it: constructors with their parameters, getters with the type of their
    result, functions that change the object with the types of their parameters. -/
structure Decl where
  name : String
  ctors : List (List (String × MTy))
  getters : List (String × MTy)
  setters : List (String × List MTy)

/-- A record of properties. -/
abbrev Props (α : Type) := String → PVal α

/-- How a property changes in a call: it takes the value of an argument, of an argument without trailing zeros, a constant, the
    truth value "the argument is not empty", the value of an argument if another one is true (and false otherwise), it becomes
    empty, or the argument is added at the end. -/
inductive Change where
  | keep | arg (i : Nat) | stripped (i : Nat) | const (n : Nat) | nonEmpty (i : Nat) | argIf (i j : Nat) | empty | added (i : Nat)
  deriving DecidableEq, Repr

/-- The value after the change. -/
def Change.apply {α} (args : List (PVal α)) (old : PVal α) : Change → PVal α
  | .keep => old
  | .arg i => args.getD i old
  | .stripped i =>
    match args[i]? with
    | some (.str s) => .str (s.rdropWhile (· == 0))
    | some (.wstr s) => .wstr (s.rdropWhile (· == 0))
    | _ => old
  | .const n => .num n
  | .nonEmpty i =>
    match args[i]? with
    | some (.str s) => .num (if s = [] then 0 else 1)
    | some (.wstr s) => .num (if s = [] then 0 else 1)
    | _ => old
  | .argIf i j =>
    match args[i]? with
    | some (.num 0) => .num 0
    | _ => args.getD j old
  | .empty =>
    match old with
    | .str _ => .str [] | .wstr _ => .wstr [] | .seq _ => .seq [] | v => v
  | .added i =>
    match old, args[i]? with
    | .seq l, some (.elem a) => .seq (l ++ [a])
    | v, _ => v

/-- What a getter tells about a property: the property itself, the length of the list, whether it is not empty, whether it is
    the number `n`, whether it has the bit `k`, whether it is not zero. -/
inductive Tells where
  | value | length | nonEmpty | equals (n : Nat) | bit (k : Nat) | nonZero
  deriving DecidableEq, Repr

/-- The value the getter tells (truth values are 0 and 1). -/
def Tells.of {α} (v : PVal α) : Tells → PVal α
  | .value => v
  | .length => match v with | .seq l => .num (l.length % 2 ^ 64) | v => v
  | .nonEmpty => match v with | .str s | .wstr s => .num (if s = [] then 0 else 1) | v => v
  | .equals n => match v with | .num k => .num (if k = n then 1 else 0) | v => v
  | .bit b => match v with | .num k => .num (if k.testBit b then 1 else 0) | v => v
  | .nonZero => match v with | .num k => .num (if k = 0 then 0 else 1) | v => v

/-- Getters that are not named after their property or tell something else than its value. -/
def otherGetters : List (String × String × String × Tells) := [
  ("import_rebuilder_settings", "auto_strip_last_section_enabled", "auto_strip_last_section", .value),
  ("imported_function", "has_name", "name", .nonEmpty),
  ("bound_import", "get_module_ref_count", "module_ref_list", .length),
  ("misc_debug_info", "is_exe_name", "data_type", .equals 1),
  ("exception_entry", "has_exception_handler", "flags", .bit 0),
  ("exception_entry", "has_termination_handler", "flags", .bit 1),
  ("exception_entry", "is_chaininfo", "flags", .bit 2),
  ("exception_entry", "uses_frame_pointer", "frame_pointer_register_number", .nonZero)]

/-- The property a plain getter or setter is about: its name without `get_`, `set_` or `is_`. -/
def plainName (fn : String) : String :=
  if fn.startsWith "get_" || fn.startsWith "set_" then (fn.drop 4).toString
  else if fn.startsWith "is_" then (fn.drop 3).toString else fn

/-- The property a getter is about, and what it tells about it. -/
def getterOf (cls fn : String) : String × Tells :=
  match otherGetters.find? fun g => g.1 = cls && g.2.1 = fn with
  | some g => g.2.2
  | none => (plainName fn, .value)

/-- Functions that do more or something else than setting the property they are named after. -/
def otherSetters : List (String × String × List MTy × List (String × Change)) := [
  ("message_table_item", "set_string", [.str], [("ansi_string", .stripped 0), ("unicode_string", .empty), ("unicode",
      .const 0)]),
  ("message_table_item", "set_string", [.wstr], [("unicode_string", .stripped 0), ("ansi_string", .empty), ("unicode",
      .const 1)]),
  ("bound_import", "add_module_ref", [.elem], [("module_ref_list", .added 0)]),
  ("bound_import", "clear_module_refs", [], [("module_ref_list", .empty)]),
  ("coff_debug_info", "add_symbol", [.elem], [("symbols", .added 0)]),
  ("coff_symbol", "set_file_name", [.str], [("symbol", .arg 0), ("file", .const 1)]),
  ("coff_symbol", "set_symbol_name", [.str], [("symbol", .arg 0), ("file", .const 0)]),
  ("exported_function", "set_name", [.str], [("name", .arg 0), ("has_name", .nonEmpty 0)]),
  ("exported_function", "set_forwarded_name", [.str], [("forwarded_name", .arg 0), ("forwarded", .nonEmpty 0)]),
  ("import_rebuilder_settings", "save_iat_and_original_iat_rvas", [.num 1, .num 1],
    [("save_iat_and_original_iat_rvas", .arg 0), ("rewrite_iat_and_original_iat_contents", .argIf 0 1)]),
  ("import_rebuilder_settings", "enable_auto_strip_last_section", [.num 1], [("auto_strip_last_section", .arg 0)]),
  ("import_library", "add_import", [.elem], [("imported_functions", .added 0)]),
  ("import_library", "clear_imports", [], [("imported_functions", .empty)]),
  ("image_config_info", "add_se_handler_rva", [.elem], [("se_handler_rvas", .added 0)]),
  ("image_config_info", "clear_se_handler_list", [], [("se_handler_rvas", .empty)]),
  ("image_config_info", "add_lock_prefix_rva", [.elem], [("lock_prefix_rvas", .added 0)]),
  ("image_config_info", "clear_lock_prefix_list", [], [("lock_prefix_rvas", .empty)]),
  ("relocation_table", "add_relocation", [.elem], [("relocations", .added 0)]),
  ("tls_info", "add_tls_callback", [.elem], [("tls_callbacks", .added 0)]),
  ("tls_info", "clear_tls_callbacks", [], [("tls_callbacks", .empty)])]

/-- The changes a call makes. -/
def setterOf (cls fn : String) (tys : List MTy) : List (String × Change) :=
  match otherSetters.find? fun g => g.1 = cls && g.2.1 = fn && g.2.2.1 = tys with
  | some g => g.2.2.2
  | none => [(plainName fn, .arg 0)]

/-- Initial values other than 0, empty string, empty list. -/
def otherInitial : List (String × String × Nat) := [
  ("import_rebuilder_settings", "build_original_iat", 1),
  ("import_rebuilder_settings", "save_iat_and_original_iat_rvas", 1),
  ("import_rebuilder_settings", "auto_strip_last_section", 1)]

/-- Parameters of constructors that are not named after the property. -/
def otherParams : List (String × List (String × MTy) × List (String × Change)) := [
  ("message_table_item", [("str", .str)], [("ansi_string", .stripped 0)]),
  ("message_table_item", [("str", .wstr)], [("unicode_string", .stripped 0), ("unicode", .const 1)]),
  ("import_rebuilder_settings", [("set_to_pe_headers", .num 1), ("auto_zero_directory_entry_iat", .num 1)],
    [("auto_set_to_pe_headers", .arg 0), ("zero_directory_entry_iat", .arg 1)]),
  ("relocation_entry", [("rrva", .num 16), ("type", .num 16)], [("rva", .arg 0), ("type", .arg 1)])]

/-- What a constructor sets. -/
def ctorOf (cls : String) (ps : List (String × MTy)) : List (String × Change) :=
  match otherParams.find? fun g => g.1 = cls && g.2.1 = ps with
  | some g => g.2.2
  | none => ps.zipIdx.map fun p => (p.1.1, .arg p.2)

/-- The changes of a record: each property by its entry in the list. -/
def applyChanges {α} (cs : List (String × Change)) (args : List (PVal α)) (s : Props α) : Props α :=
  fun p => ((cs.lookup p).getD .keep).apply args (s p)

/-- The type of a property: that of the getter that returns it. -/
def Decl.propTy (d : Decl) (p : String) : Option MTy :=
  (d.getters.find? fun g => getterOf d.name g.1 = (p, .value)).map (·.2)

/-- The number a property is at first. -/
def Decl.initialNum (d : Decl) (p : String) : Nat :=
  match otherInitial.find? fun g => g.1 = d.name && g.2.1 = p with
  | some g => g.2.2
  | none => 0

/-- Every property at first. -/
def Decl.initial {α} (d : Decl) : Props α := fun p =>
  match d.propTy p with
  | some .str => .str [] | some .wstr => .wstr [] | some .seq => .seq [] | _ => .num (d.initialNum p)

/-- Values of a type. -/
def PVal.ofTy {α} : PVal α → MTy → Prop
  | .num n, .num w => n < 2 ^ w
  | .str _, .str => True | .wstr _, .wstr => True | .seq _, .seq => True | .elem _, .elem => True
  | _, _ => False

/-- Arguments for parameters of these types. -/
def ofTys {α} : List (PVal α) → List MTy → Prop
  | [], [] => True
  | v :: vs, t :: ts => v.ofTy t ∧ ofTys vs ts
  | _, _ => False

/-- A call of a function: its name, the types of its parameters, the arguments. -/
abbrev ACall (α : Type) := String × List MTy × List (PVal α)

/-- The properties after construction and calls. -/
def Decl.after {α} (d : Decl) (ps : List (String × MTy)) (args : List (PVal α)) (calls : List (ACall α)) : Props α :=
  calls.foldl (fun s x => applyChanges (setterOf d.name x.1 x.2.1) x.2.2 s) (applyChanges (ctorOf d.name ps) args d.initial)

/-- file_version_info.h:47-149 `file_version_info`. -/
def fileVersionInfoD : Decl where
  name := "file_version_info"
  ctors := [[]]
  getters := [
    ("get_file_flags", .num 32), ("get_file_version_ms", .num 32), ("get_file_version_ls", .num 32),
      ("get_product_version_ms", .num 32), ("get_product_version_ls", .num 32), ("get_file_os_raw", .num 32),
      ("get_file_type_raw", .num 32), ("get_file_subtype", .num 32), ("get_file_date_ms", .num 32), ("get_file_date_ls",
      .num 32)]
  setters := [
    ("set_file_flags", [.num 32]), ("set_file_version_ms", [.num 32]), ("set_file_version_ls", [.num 32]),
      ("set_product_version_ms", [.num 32]), ("set_product_version_ls", [.num 32]), ("set_file_os_raw", [.num 32]),
      ("set_file_type_raw", [.num 32]), ("set_file_subtype", [.num 32]), ("set_file_date_ms", [.num 32]),
      ("set_file_date_ls", [.num 32])]

/-- message_table.h:13-28 `message_table_item`. -/
def messageTableItemD : Decl where
  name := "message_table_item"
  ctors := [[], [("str", .str)], [("str", .wstr)]]
  getters := [
    ("is_unicode", .num 1), ("get_ansi_string", .str), ("get_unicode_string", .wstr)]
  setters := [
    ("set_string", [.str]), ("set_string", [.wstr])]

/-- pe_bound_import.h:15-28 `bound_import_ref`. -/
def boundImportRefD : Decl where
  name := "bound_import_ref"
  ctors := [[], [("module_name", .str), ("timestamp", .num 32)]]
  getters := [
    ("get_module_name", .str), ("get_timestamp", .num 32)]
  setters := [
    ("set_module_name", [.str]), ("set_timestamp", [.num 32])]

/-- pe_bound_import.h:43-68 `bound_import`. -/
def boundImportD : Decl where
  name := "bound_import"
  ctors := [[], [("module_name", .str), ("timestamp", .num 32)]]
  getters := [
    ("get_module_name", .str), ("get_timestamp", .num 32), ("get_module_ref_count", .num 64), ("get_module_ref_list", .seq)]
  setters := [
    ("set_module_name", [.str]), ("set_timestamp", [.num 32]), ("add_module_ref", [.elem]), ("clear_module_refs", [])]

/-- pe_debug.h:13-22 `pdb_7_0_info`. -/
def pdb70InfoD : Decl where
  name := "pdb_7_0_info"
  ctors := [[]]
  getters := [
    ("get_age", .num 32), ("get_pdb_file_name", .str)]
  setters := []

/-- pe_debug.h:35-44 `pdb_2_0_info`. -/
def pdb20InfoD : Decl where
  name := "pdb_2_0_info"
  ctors := [[]]
  getters := [
    ("get_signature", .num 32), ("get_age", .num 32), ("get_pdb_file_name", .str)]
  setters := []

/-- pe_debug.h:57-70 `misc_debug_info`. -/
def miscDebugInfoD : Decl where
  name := "misc_debug_info"
  ctors := [[]]
  getters := [
    ("get_data_type", .num 32), ("is_exe_name", .num 1), ("is_unicode", .num 1), ("get_data_ansi", .str),
      ("get_data_unicode", .wstr)]
  setters := []

/-- pe_debug.h:137-163 `coff_debug_info`. -/
def coffDebugInfoD : Decl where
  name := "coff_debug_info"
  ctors := [[]]
  getters := [
    ("get_number_of_symbols", .num 32), ("get_lva_to_first_symbol", .num 32), ("get_number_of_line_numbers", .num 32),
      ("get_lva_to_first_line_number", .num 32), ("get_rva_to_first_byte_of_code", .num 32), ("get_rva_to_last_byte_of_code",
      .num 32), ("get_rva_to_first_byte_of_data", .num 32), ("get_rva_to_last_byte_of_data", .num 32), ("get_symbols", .seq)]
  setters := [
    ("add_symbol", [.elem])]

/-- pe_debug.h:88-121 `coff_symbol`. -/
def coffSymbolD : Decl where
  name := "coff_symbol"
  ctors := [[]]
  getters := [
    ("get_storage_class", .num 32), ("get_index", .num 32), ("get_section_number", .num 32), ("get_rva", .num 32),
      ("get_type", .num 16), ("is_file", .num 1), ("get_symbol", .str)]
  setters := [
    ("set_storage_class", [.num 32]), ("set_index", [.num 32]), ("set_section_number", [.num 32]), ("set_rva", [.num 32]),
      ("set_type", [.num 16]), ("set_file_name", [.str]), ("set_symbol_name", [.str])]

/-- pe_directory.h:11-23 `image_directory`. -/
def imageDirectoryD : Decl where
  name := "image_directory"
  ctors := [[], [("rva", .num 32), ("size", .num 32)]]
  getters := [
    ("get_rva", .num 32), ("get_size", .num 32)]
  setters := [
    ("set_rva", [.num 32]), ("set_size", [.num 32])]

/-- pe_exception_directory.h:13-51 `exception_entry`. -/
def exceptionEntryD : Decl where
  name := "exception_entry"
  ctors := [[]]
  getters := [
    ("get_begin_address", .num 32), ("get_end_address", .num 32), ("get_unwind_info_address", .num 32),
      ("get_unwind_info_version", .num 8), ("get_flags", .num 8), ("has_exception_handler", .num 1),
      ("has_termination_handler", .num 1), ("is_chaininfo", .num 1), ("get_size_of_prolog", .num 8),
      ("get_number_of_unwind_slots", .num 8), ("uses_frame_pointer", .num 1), ("get_frame_pointer_register_number", .num 8),
      ("get_scaled_rsp_offset", .num 8)]
  setters := []

/-- pe_exports.h:15-50 `exported_function`. -/
def exportedFunctionD : Decl where
  name := "exported_function"
  ctors := [[]]
  getters := [
    ("get_ordinal", .num 16), ("get_rva", .num 32), ("has_name", .num 1), ("get_name", .str), ("get_name_ordinal", .num 16),
      ("is_forwarded", .num 1), ("get_forwarded_name", .str)]
  setters := [
    ("set_ordinal", [.num 16]), ("set_rva", [.num 32]), ("set_name", [.str]), ("set_name_ordinal", [.num 16]),
      ("set_forwarded_name", [.str])]

/-- pe_exports.h:67-116 `export_info`. -/
def exportInfoD : Decl where
  name := "export_info"
  ctors := [[]]
  getters := [
    ("get_characteristics", .num 32), ("get_timestamp", .num 32), ("get_major_version", .num 16), ("get_minor_version",
      .num 16), ("get_name", .str), ("get_ordinal_base", .num 32), ("get_number_of_functions", .num 32),
      ("get_number_of_names", .num 32), ("get_rva_of_functions", .num 32), ("get_rva_of_names", .num 32),
      ("get_rva_of_name_ordinals", .num 32)]
  setters := [
    ("set_characteristics", [.num 32]), ("set_timestamp", [.num 32]), ("set_major_version", [.num 16]), ("set_minor_version",
      [.num 16]), ("set_name", [.str]), ("set_ordinal_base", [.num 32]), ("set_number_of_functions", [.num 32]),
      ("set_number_of_names", [.num 32]), ("set_rva_of_functions", [.num 32]), ("set_rva_of_names", [.num 32]),
      ("set_rva_of_name_ordinals", [.num 32])]

/-- pe_imports.h:107-153 `import_rebuilder_settings`. -/
def importRebuilderSettingsD : Decl where
  name := "import_rebuilder_settings"
  ctors := [[("set_to_pe_headers", .num 1), ("auto_zero_directory_entry_iat", .num 1)]]
  getters := [
    ("get_offset_from_section_start", .num 32), ("build_original_iat", .num 1), ("save_iat_and_original_iat_rvas", .num 1),
      ("rewrite_iat_and_original_iat_contents", .num 1), ("fill_missing_original_iats", .num 1), ("auto_set_to_pe_headers",
      .num 1), ("zero_directory_entry_iat", .num 1), ("auto_strip_last_section_enabled", .num 1)]
  setters := [
    ("set_offset_from_section_start", [.num 32]), ("build_original_iat", [.num 1]), ("save_iat_and_original_iat_rvas",
      [.num 1, .num 1]), ("fill_missing_original_iats", [.num 1]), ("auto_set_to_pe_headers", [.num 1]),
      ("zero_directory_entry_iat", [.num 1]), ("enable_auto_strip_last_section", [.num 1])]

/-- pe_imports.h:15-39 `imported_function`. -/
def importedFunctionD : Decl where
  name := "imported_function"
  ctors := [[]]
  getters := [
    ("has_name", .num 1), ("get_name", .str), ("get_hint", .num 16), ("get_ordinal", .num 16), ("get_iat_va", .num 64)]
  setters := [
    ("set_name", [.str]), ("set_hint", [.num 16]), ("set_ordinal", [.num 16]), ("set_iat_va", [.num 64])]

/-- pe_imports.h:56-84 `import_library`. -/
def importLibraryD : Decl where
  name := "import_library"
  ctors := [[]]
  getters := [
    ("get_name", .str), ("get_rva_to_iat", .num 32), ("get_rva_to_original_iat", .num 32), ("get_timestamp", .num 32),
      ("get_imported_functions", .seq)]
  setters := [
    ("set_name", [.str]), ("set_rva_to_iat", [.num 32]), ("set_rva_to_original_iat", [.num 32]), ("set_timestamp",
      [.num 32]), ("add_import", [.elem]), ("clear_imports", [])]

/-- pe_load_config.h:18-124 `image_config_info`. -/
def imageConfigInfoD : Decl where
  name := "image_config_info"
  ctors := [[]]
  getters := [
    ("get_time_stamp", .num 32), ("get_major_version", .num 16), ("get_minor_version", .num 16), ("get_global_flags_clear",
      .num 32), ("get_global_flags_set", .num 32), ("get_critical_section_default_timeout", .num 32),
      ("get_decommit_free_block_threshold", .num 64), ("get_decommit_total_free_threshold", .num 64),
      ("get_lock_prefix_table_va", .num 64), ("get_max_allocation_size", .num 64), ("get_virtual_memory_threshold", .num 64),
      ("get_process_affinity_mask", .num 64), ("get_process_heap_flags", .num 32), ("get_service_pack_version", .num 16),
      ("get_edit_list_va", .num 64), ("get_security_cookie_va", .num 64), ("get_se_handler_table_va", .num 64),
      ("get_se_handler_count", .num 64), ("get_se_handler_rvas", .seq), ("get_lock_prefix_rvas", .seq)]
  setters := [
    ("add_se_handler_rva", [.elem]), ("clear_se_handler_list", []), ("add_lock_prefix_rva", [.elem]),
      ("clear_lock_prefix_list", []), ("set_time_stamp", [.num 32]), ("set_major_version", [.num 16]), ("set_minor_version",
      [.num 16]), ("set_global_flags_clear", [.num 32]), ("set_global_flags_set", [.num 32]),
      ("set_critical_section_default_timeout", [.num 32]), ("set_decommit_free_block_threshold", [.num 64]),
      ("set_decommit_total_free_threshold", [.num 64]), ("set_lock_prefix_table_va", [.num 64]), ("set_max_allocation_size",
      [.num 64]), ("set_virtual_memory_threshold", [.num 64]), ("set_process_affinity_mask", [.num 64]),
      ("set_process_heap_flags", [.num 32]), ("set_service_pack_version", [.num 16]), ("set_edit_list_va", [.num 64]),
      ("set_security_cookie_va", [.num 64]), ("set_se_handler_table_va", [.num 64])]

/-- pe_relocations.h:16-36 `relocation_entry`. -/
def relocationEntryD : Decl where
  name := "relocation_entry"
  ctors := [[], [("rrva", .num 16), ("type", .num 16)]]
  getters := [
    ("get_rva", .num 16), ("get_type", .num 16)]
  setters := [
    ("set_rva", [.num 16]), ("set_type", [.num 16])]

/-- pe_relocations.h:54-71 `relocation_table`. -/
def relocationTableD : Decl where
  name := "relocation_table"
  ctors := [[], [("rva", .num 32)]]
  getters := [
    ("get_relocations", .seq), ("get_rva", .num 32)]
  setters := [
    ("add_relocation", [.elem]), ("set_rva", [.num 32])]

/-- pe_resources.h:16-31 `resource_data_entry`. -/
def resourceDataEntryD : Decl where
  name := "resource_data_entry"
  ctors := [[], [("data", .str), ("codepage", .num 32)]]
  getters := [
    ("get_codepage", .num 32), ("get_data", .str)]
  setters := [
    ("set_codepage", [.num 32]), ("set_data", [.str])]

/-- pe_resources.h:120-165 `resource_directory`. -/
def resourceDirectoryD : Decl where
  name := "resource_directory"
  ctors := [[]]
  getters := [
    ("get_characteristics", .num 32), ("get_timestamp", .num 32), ("get_number_of_named_entries", .num 32),
      ("get_number_of_id_entries", .num 32), ("get_major_version", .num 16), ("get_minor_version", .num 16),
      ("get_entry_list", .seq)]
  setters := [
    ("set_characteristics", [.num 32]), ("set_timestamp", [.num 32]), ("set_number_of_named_entries", [.num 32]),
      ("set_number_of_id_entries", [.num 32]), ("set_major_version", [.num 16]), ("get_minor_version", [.num 16])]

/-- pe_rich_data.h:13-24 `rich_data`. -/
def richDataD : Decl where
  name := "rich_data"
  ctors := [[]]
  getters := [
    ("get_number", .num 32), ("get_version", .num 32), ("get_times", .num 32)]
  setters := [
    ("set_number", [.num 32]), ("set_version", [.num 32]), ("set_times", [.num 32])]

/-- pe_tls.h:19-60 `tls_info`. -/
def tlsInfoD : Decl where
  name := "tls_info"
  ctors := [[]]
  getters := [
    ("get_raw_data_start_rva", .num 32), ("get_raw_data_end_rva", .num 32), ("get_index_rva", .num 32), ("get_callbacks_rva",
      .num 32), ("get_size_of_zero_fill", .num 32), ("get_characteristics", .num 32), ("get_raw_data", .str),
      ("get_tls_callbacks", .seq)]
  setters := [
    ("set_raw_data_start_rva", [.num 32]), ("set_raw_data_end_rva", [.num 32]), ("set_index_rva", [.num 32]),
      ("set_callbacks_rva", [.num 32]), ("set_size_of_zero_fill", [.num 32]), ("set_characteristics", [.num 32]),
      ("set_raw_data", [.str]), ("add_tls_callback", [.elem]), ("clear_tls_callbacks", [])]

/-- resource_data_info.h:14-21 `resource_data_info`. -/
def resourceDataInfoD : Decl where
  name := "resource_data_info"
  ctors := [[("data", .str), ("codepage", .num 32)]]
  getters := [
    ("get_data", .str), ("get_codepage", .num 32)]
  setters := []

/-- The interfaces of all these classes. -/
def api : List Decl := [fileVersionInfoD, messageTableItemD, boundImportRefD, boundImportD, pdb70InfoD, pdb20InfoD,
      miscDebugInfoD, coffDebugInfoD, coffSymbolD, imageDirectoryD, exceptionEntryD, exportedFunctionD, exportInfoD,
      importRebuilderSettingsD, importedFunctionD, importLibraryD, imageConfigInfoD, relocationEntryD, relocationTableD,
      resourceDataEntryD, resourceDirectoryD, richDataD, tlsInfoD, resourceDataInfoD]

end PE.Plain
