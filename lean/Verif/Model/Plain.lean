/-
Model of the classes that only carry values: descriptions of directories, of their elements and of settings
(/repo/src/pe_lib/pe_tls.cpp, pe_exports.cpp, pe_imports.cpp, pe_load_config.cpp, pe_debug.cpp, ...).
-/
import Verif.Model.Basic
namespace PE.Plain

/-- C++ types of members, parameters and results: unsigned numbers (`bool`: 1 bit), `std::string`, `std::wstring`,
    `std::vector` and (parameters only) an element of a vector: the types used in the headers, e.g. pe_tls.h:65-72. -/
inductive MTy where
  | num (bits : Nat) | str | wstr | seq | elem
  deriving DecidableEq, Repr

/-- Values of these types; the elements of vectors are values of any type `α`, e.g. pe_tls.h:65-72. -/
inductive PVal (α : Type) where
  | num (n : Nat) | str (s : List Nat) | wstr (s : List Nat) | seq (l : List α) | elem (a : α)
  deriving DecidableEq, Repr

/-- Statements in the functions below: `m_ = argument i`, `m_ = constant`, `m_ = !argument i.empty()`,
    `if(argument i) m_ = argument j; else m_ = false` (pe_imports.cpp:93-100), `strip_nullbytes(m_)` (utils.h:27-32),
    `m_.clear()`, `m_.push_back(argument i)`. -/
inductive Stmt where
  | put (m : String) (i : Nat) | putC (m : String) (n : Nat) | putNonEmpty (m : String) (i : Nat) | putIf (m : String) (i j : Nat)
  | strip (m : String) | clear (m : String) | push (m : String) (i : Nat)
  deriving DecidableEq, Repr

/-- What a getter does with the member: returns it, its `size()`, `!empty()`, `== n`, `& n` as `bool`, `!= 0`,
    e.g. pe_exception_directory.cpp:55-96. -/
inductive How where
  | same | size | nonEmpty | isNum (n : Nat) | mask (n : Nat) | nonZero
  deriving DecidableEq, Repr

/-- A constructor: parameters and the effect of initialiser list and body, e.g. pe_bound_import.cpp:15-18. -/
structure Ctor where
  params : List (String × MTy)
  body : List Stmt
  deriving DecidableEq, Repr

/-- A class, e.g. pe_bound_import.h:11-33: members, constructors, getters (with the type of the result) and setters
    (with the types of the parameters, since functions are overloaded). -/
structure Cls where
  name : String
  members : List (String × MTy)
  ctors : List Ctor
  getters : List (String × MTy × String × How)
  setters : List (String × List MTy × List Stmt)

/-- An object: the values of its members; `none` is a member that was never initialised, e.g. pe_tls.h:65-72. -/
abbrev Obj (α : Type) := String → Option (PVal α)

/-- Conversion of a value to the type of the member it is assigned to or of the result of a function: numbers are cut to
    the width of the type (conversions in assignments and `return`, e.g. pe_tls.cpp:89-92). -/
def store {α} (t : MTy) (v : PVal α) : PVal α :=
  match t, v with
  | .num w, .num n => .num (n % 2 ^ w)
  | _, v => v

/-- An object before the constructor's initialiser list has run: strings and vectors are empty, numbers are not
    initialised (e.g. the members pe_bound_import.h:31-32). -/
def Cls.raw {α} (c : Cls) : Obj α := fun m =>
  match c.members.lookup m with
  | some .str => some (.str []) | some .wstr => some (.wstr []) | some .seq => some (.seq []) | _ => none

/-- Assignment to a member, with the conversion to its type, e.g. pe_tls.cpp:89-92. -/
def Cls.setM {α} (c : Cls) (o : Obj α) (m : String) (v : Option (PVal α)) : Obj α := fun x =>
  if x = m then v.bind fun v => (c.members.lookup m).map fun t => store t v else o x

/-- utils.h:27-32 `strip_nullbytes`. -/
def stripV {α} : PVal α → PVal α
  | .str s => .str (s.reverse.dropWhile (· == 0)).reverse
  | .wstr s => .wstr (s.reverse.dropWhile (· == 0)).reverse
  | v => v

/-- `empty()` of strings and vectors, e.g. pe_imports.cpp:139-142. -/
def isEmptyV {α} : PVal α → Bool
  | .str s | .wstr s => s.isEmpty
  | .seq l => l.isEmpty
  | _ => false

/-- `clear()` of strings and vectors, e.g. pe_tls.cpp:77-80. -/
def clearV {α} : PVal α → PVal α
  | .str _ => .str [] | .wstr _ => .wstr [] | .seq _ => .seq [] | v => v

/-- `push_back`, e.g. pe_tls.cpp:71-74. -/
def pushV {α} : PVal α → PVal α → PVal α
  | .seq l, .elem a => .seq (l ++ [a])
  | v, _ => v

/-- A truth value as number, e.g. pe_exception_directory.cpp:62-65. -/
def boolV {α} (b : Bool) : PVal α := .num (if b then 1 else 0)

/-- One statement of a constructor or setter, e.g. message_table.cpp:44-50. -/
def Cls.stmt {α} (c : Cls) (args : List (PVal α)) (o : Obj α) : Stmt → Obj α
  | .put m i => c.setM o m args[i]?
  | .putC m n => c.setM o m (some (.num n))
  | .putNonEmpty m i => c.setM o m (args[i]?.map fun v => boolV (!isEmptyV v))
  | .putIf m i j => c.setM o m (args[i]?.bind fun v => if v matches .num 0 then some (.num 0) else args[j]?)
  | .strip m => c.setM o m ((o m).map stripV)
  | .clear m => c.setM o m ((o m).map clearV)
  | .push m i => c.setM o m ((o m).bind fun v => args[i]?.map (pushV v))

/-- All statements of a function in order, e.g. message_table.cpp:44-50. -/
def Cls.exec {α} (c : Cls) (args : List (PVal α)) (ss : List Stmt) (o : Obj α) : Obj α := ss.foldl (c.stmt args) o

/-- Construction of an object with the constructor that has parameters of these types (e.g. pe_bound_import.cpp:10-18);
    `none`: there is no such constructor. -/
def Cls.new {α} (c : Cls) (tys : List MTy) (args : List (PVal α)) : Option (Obj α) :=
  (c.ctors.find? fun k => k.params.map (·.2) = tys).map fun k => c.exec args k.body c.raw

/-- Call of a function that changes the object, the one with parameters of these types (e.g. message_table.cpp:44-59); `none`:
    there is no such function. -/
def Cls.call {α} (c : Cls) (fn : String) (tys : List MTy) (args : List (PVal α)) (o : Obj α) : Option (Obj α) :=
  (c.setters.find? fun s => s.1 = fn && s.2.1 = tys).map fun s => c.exec args s.2.2 o

/-- What a getter makes of the value of the member, e.g. pe_exception_directory.cpp:55-96. -/
def How.eval {α} (h : How) (v : PVal α) : PVal α :=
  match h, v with
  | .same, v => v
  | .size, .seq l => .num l.length
  | .nonEmpty, v => boolV (!isEmptyV v)
  | .isNum n, .num k => boolV (k == n)
  | .mask n, .num k => boolV (k &&& n != 0)
  | .nonZero, .num k => boolV (k != 0)
  | _, v => v

/-- Call of a getter (e.g. pe_tls.cpp:17-20); reading a member that was never initialised is undefined. `none`: there is no
    such function. -/
def Cls.get {α} (c : Cls) (fn : String) (o : Obj α) : Option (Res (PVal α)) :=
  (c.getters.find? fun g => g.1 = fn).map fun g =>
    match o g.2.2.1 with
    | some v => .ok (store g.2.1 (g.2.2.2.eval v))
    | none => ubE .uninit

/-- `file_version_info`: members file_version_info.h:171-176; functions file_version_info.cpp:9-16, 65-68, 71-74, 77-80,
    83-86, 89-92, 95-98, 153-156, 187-190, 193-196, 199-202, 259-262, 265-268, 271-274, 277-280, 283-286, 289-292, 362-365,
    403-406, 409-412, 415-418. -/
def fileVersionInfoC : Cls where
  name := "file_version_info"
  members := [
    ("file_version_ms_", .num 32),
    ("file_version_ls_", .num 32),
    ("product_version_ms_", .num 32),
    ("product_version_ls_", .num 32),
    ("file_flags_", .num 32),
    ("file_os_", .num 32),
    ("file_type_", .num 32),
    ("file_subtype_", .num 32),
    ("file_date_ms_", .num 32),
    ("file_date_ls_", .num 32)]
  ctors := [
    ⟨[], [.putC "file_version_ms_" 0, .putC "file_version_ls_" 0, .putC "product_version_ms_" 0,
      .putC "product_version_ls_" 0, .putC "file_flags_" 0, .putC "file_os_" 0, .putC "file_type_" 0,
      .putC "file_subtype_" 0, .putC "file_date_ms_" 0, .putC "file_date_ls_" 0]⟩]
  getters := [
    ("get_file_flags", .num 32, "file_flags_", .same),
    ("get_file_version_ms", .num 32, "file_version_ms_", .same),
    ("get_file_version_ls", .num 32, "file_version_ls_", .same),
    ("get_product_version_ms", .num 32, "product_version_ms_", .same),
    ("get_product_version_ls", .num 32, "product_version_ls_", .same),
    ("get_file_os_raw", .num 32, "file_os_", .same),
    ("get_file_type_raw", .num 32, "file_type_", .same),
    ("get_file_subtype", .num 32, "file_subtype_", .same),
    ("get_file_date_ms", .num 32, "file_date_ms_", .same),
    ("get_file_date_ls", .num 32, "file_date_ls_", .same)]
  setters := [
    ("set_file_flags", [.num 32], [.put "file_flags_" 0]),
    ("set_file_version_ms", [.num 32], [.put "file_version_ms_" 0]),
    ("set_file_version_ls", [.num 32], [.put "file_version_ls_" 0]),
    ("set_product_version_ms", [.num 32], [.put "product_version_ms_" 0]),
    ("set_product_version_ls", [.num 32], [.put "product_version_ls_" 0]),
    ("set_file_os_raw", [.num 32], [.put "file_os_" 0]),
    ("set_file_type_raw", [.num 32], [.put "file_type_" 0]),
    ("set_file_subtype", [.num 32], [.put "file_subtype_" 0]),
    ("set_file_date_ms", [.num 32], [.put "file_date_ms_" 0]),
    ("set_file_date_ls", [.num 32], [.put "file_date_ls_" 0])]

/-- `message_table_item`: members message_table.h:31-33; functions message_table.cpp:7-9, 12-16, 19-23, 26-29, 32-35, 38-41,
    44-50, 53-59. -/
def messageTableItemC : Cls where
  name := "message_table_item"
  members := [
    ("unicode_", .num 1),
    ("ansi_str_", .str),
    ("unicode_str_", .wstr)]
  ctors := [
    ⟨[], [.putC "unicode_" 0]⟩,
    ⟨[("str", .str)], [.putC "unicode_" 0, .put "ansi_str_" 0, .strip "ansi_str_"]⟩,
    ⟨[("str", .wstr)], [.putC "unicode_" 1, .put "unicode_str_" 0, .strip "unicode_str_"]⟩]
  getters := [
    ("is_unicode", .num 1, "unicode_", .same),
    ("get_ansi_string", .str, "ansi_str_", .same),
    ("get_unicode_string", .wstr, "unicode_str_", .same)]
  setters := [
    ("set_string", [.str], [.put "ansi_str_" 0, .strip "ansi_str_", .clear "unicode_str_", .putC "unicode_" 0]),
    ("set_string", [.wstr], [.put "unicode_str_" 0, .strip "unicode_str_", .clear "ansi_str_", .putC "unicode_" 1])]

/-- `bound_import_ref`: members pe_bound_import.h:31-32; functions pe_bound_import.cpp:11-13, 16-18, 21-24, 27-30, 33-36,
    39-42. -/
def boundImportRefC : Cls where
  name := "bound_import_ref"
  members := [
    ("module_name_", .str),
    ("timestamp_", .num 32)]
  ctors := [
    ⟨[], [.putC "timestamp_" 0]⟩,
    ⟨[("module_name", .str), ("timestamp", .num 32)], [.put "module_name_" 0, .put "timestamp_" 1]⟩]
  getters := [
    ("get_module_name", .str, "module_name_", .same),
    ("get_timestamp", .num 32, "timestamp_", .same)]
  setters := [
    ("set_module_name", [.str], [.put "module_name_" 0]),
    ("set_timestamp", [.num 32], [.put "timestamp_" 0])]

/-- `bound_import`: members pe_bound_import.h:71-73; functions pe_bound_import.cpp:45-47, 50-52, 55-58, 61-64, 67-70, 73-76,
    79-82, 85-88, 91-94, 97-100, 103-106. -/
def boundImportC : Cls where
  name := "bound_import"
  members := [
    ("module_name_", .str),
    ("timestamp_", .num 32),
    ("refs_", .seq)]
  ctors := [
    ⟨[], [.putC "timestamp_" 0]⟩,
    ⟨[("module_name", .str), ("timestamp", .num 32)], [.put "module_name_" 0, .put "timestamp_" 1]⟩]
  getters := [
    ("get_module_name", .str, "module_name_", .same),
    ("get_timestamp", .num 32, "timestamp_", .same),
    ("get_module_ref_list", .seq, "refs_", .same),
    ("get_module_ref_count", .num 64, "refs_", .size)]
  setters := [
    ("set_module_name", [.str], [.put "module_name_" 0]),
    ("set_timestamp", [.num 32], [.put "timestamp_" 0]),
    ("add_module_ref", [.elem], [.push "refs_" 0]),
    ("clear_module_refs", [], [.clear "refs_"])]

/-- `pdb_7_0_info`: members pe_debug.h:25, 27; functions pe_debug.cpp:306-310, 325-328, 331-334. Not included: `guid_`. -/
def pdb70InfoC : Cls where
  name := "pdb_7_0_info"
  members := [
    ("age_", .num 32),
    ("pdb_file_name_", .str)]
  ctors := [
    ⟨[], [.putC "age_" 0]⟩]
  getters := [
    ("get_age", .num 32, "age_", .same),
    ("get_pdb_file_name", .str, "pdb_file_name_", .same)]
  setters := []

/-- `pdb_2_0_info`: members pe_debug.h:47-49; functions pe_debug.cpp:337-339, 348-351, 354-357, 360-363. -/
def pdb20InfoC : Cls where
  name := "pdb_2_0_info"
  members := [
    ("age_", .num 32),
    ("signature_", .num 32),
    ("pdb_file_name_", .str)]
  ctors := [
    ⟨[], [.putC "age_" 0, .putC "signature_" 0]⟩]
  getters := [
    ("get_signature", .num 32, "signature_", .same),
    ("get_age", .num 32, "age_", .same),
    ("get_pdb_file_name", .str, "pdb_file_name_", .same)]
  setters := []

/-- `misc_debug_info`: members pe_debug.h:73-76; functions pe_debug.cpp:366-368, 393-396, 399-402, 405-408, 411-414, 417-420. -/
def miscDebugInfoC : Cls where
  name := "misc_debug_info"
  members := [
    ("data_type_", .num 32),
    ("unicode_", .num 1),
    ("debug_data_ansi_", .str),
    ("debug_data_unicode_", .wstr)]
  ctors := [
    ⟨[], [.putC "data_type_" 0, .putC "unicode_" 0]⟩]
  getters := [
    ("get_data_type", .num 32, "data_type_", .same),
    ("is_unicode", .num 1, "unicode_", .same),
    ("get_data_ansi", .str, "debug_data_ansi_", .same),
    ("get_data_unicode", .wstr, "debug_data_unicode_", .same),
    ("is_exe_name", .num 1, "data_type_", .isNum 1)]
  setters := []

/-- `coff_debug_info`: members pe_debug.h:166-173, 176; functions pe_debug.cpp:423-432, 447-450, 453-456, 459-462, 465-468,
    471-474, 477-480, 483-486, 489-492, 495-498, 501-504. -/
def coffDebugInfoC : Cls where
  name := "coff_debug_info"
  members := [
    ("number_of_symbols_", .num 32),
    ("lva_to_first_symbol_", .num 32),
    ("number_of_line_numbers_", .num 32),
    ("lva_to_first_line_number_", .num 32),
    ("rva_to_first_byte_of_code_", .num 32),
    ("rva_to_last_byte_of_code_", .num 32),
    ("rva_to_first_byte_of_data_", .num 32),
    ("rva_to_last_byte_of_data_", .num 32),
    ("symbols_", .seq)]
  ctors := [
    ⟨[], [.putC "number_of_symbols_" 0, .putC "lva_to_first_symbol_" 0, .putC "number_of_line_numbers_" 0,
      .putC "lva_to_first_line_number_" 0, .putC "rva_to_first_byte_of_code_" 0, .putC "rva_to_last_byte_of_code_" 0,
      .putC "rva_to_first_byte_of_data_" 0, .putC "rva_to_last_byte_of_data_" 0]⟩]
  getters := [
    ("get_number_of_symbols", .num 32, "number_of_symbols_", .same),
    ("get_lva_to_first_symbol", .num 32, "lva_to_first_symbol_", .same),
    ("get_number_of_line_numbers", .num 32, "number_of_line_numbers_", .same),
    ("get_lva_to_first_line_number", .num 32, "lva_to_first_line_number_", .same),
    ("get_rva_to_first_byte_of_code", .num 32, "rva_to_first_byte_of_code_", .same),
    ("get_rva_to_last_byte_of_code", .num 32, "rva_to_last_byte_of_code_", .same),
    ("get_rva_to_first_byte_of_data", .num 32, "rva_to_first_byte_of_data_", .same),
    ("get_rva_to_last_byte_of_data", .num 32, "rva_to_last_byte_of_data_", .same),
    ("get_symbols", .seq, "symbols_", .same)]
  setters := [
    ("add_symbol", [.elem], [.push "symbols_" 0])]

/-- `coff_symbol`: members pe_debug.h:124-129; functions pe_debug.cpp:507-513, 516-519, 522-525, 528-531, 534-537, 540-543,
    546-549, 552-555, 558-561, 564-567, 570-573, 576-580, 583-587, 590-593, 596-599. -/
def coffSymbolC : Cls where
  name := "coff_symbol"
  members := [
    ("storage_class_", .num 32),
    ("index_", .num 32),
    ("section_number_", .num 32),
    ("rva_", .num 32),
    ("type_", .num 16),
    ("is_filename_", .num 1),
    ("name_", .str)]
  ctors := [
    ⟨[], [.putC "storage_class_" 0, .putC "index_" 0, .putC "section_number_" 0, .putC "rva_" 0, .putC "type_" 0,
      .putC "is_filename_" 0]⟩]
  getters := [
    ("get_storage_class", .num 32, "storage_class_", .same),
    ("get_index", .num 32, "index_", .same),
    ("get_section_number", .num 32, "section_number_", .same),
    ("get_rva", .num 32, "rva_", .same),
    ("is_file", .num 1, "is_filename_", .same),
    ("get_symbol", .str, "name_", .same),
    ("get_type", .num 16, "type_", .same)]
  setters := [
    ("set_storage_class", [.num 32], [.put "storage_class_" 0]),
    ("set_index", [.num 32], [.put "index_" 0]),
    ("set_section_number", [.num 32], [.put "section_number_" 0]),
    ("set_rva", [.num 32], [.put "rva_" 0]),
    ("set_file_name", [.str], [.put "name_" 0, .putC "is_filename_" 1]),
    ("set_symbol_name", [.str], [.put "name_" 0, .putC "is_filename_" 0]),
    ("set_type", [.num 16], [.put "type_" 0])]

/-- `image_directory`: members pe_directory.h:26-27; functions pe_directory.cpp:6-8, 11-13, 16-19, 22-25, 28-31, 34-37. -/
def imageDirectoryC : Cls where
  name := "image_directory"
  members := [
    ("rva_", .num 32),
    ("size_", .num 32)]
  ctors := [
    ⟨[], [.putC "rva_" 0, .putC "size_" 0]⟩,
    ⟨[("rva", .num 32), ("size", .num 32)], [.put "rva_" 0, .put "size_" 1]⟩]
  getters := [
    ("get_rva", .num 32, "rva_", .same),
    ("get_size", .num 32, "size_", .same)]
  setters := [
    ("set_rva", [.num 32], [.put "rva_" 0]),
    ("set_size", [.num 32], [.put "size_" 0])]

/-- `exception_entry`: members pe_exception_directory.h:54-59; functions pe_exception_directory.cpp:9-17, 31-34, 37-40,
    43-46, 49-52, 55-58, 62-65, 69-72, 75-78, 81-84, 87-90, 93-96, 100-103, 107-110. -/
def exceptionEntryC : Cls where
  name := "exception_entry"
  members := [
    ("begin_address_", .num 32),
    ("end_address_", .num 32),
    ("unwind_info_address_", .num 32),
    ("unwind_info_version_", .num 8),
    ("flags_", .num 8),
    ("size_of_prolog_", .num 8),
    ("count_of_codes_", .num 8),
    ("frame_register_", .num 8),
    ("frame_offset_", .num 8)]
  ctors := [
    ⟨[], [.putC "begin_address_" 0, .putC "end_address_" 0, .putC "unwind_info_address_" 0, .putC "unwind_info_version_" 0,
      .putC "flags_" 0, .putC "size_of_prolog_" 0, .putC "count_of_codes_" 0, .putC "frame_register_" 0,
      .putC "frame_offset_" 0]⟩]
  getters := [
    ("get_begin_address", .num 32, "begin_address_", .same),
    ("get_end_address", .num 32, "end_address_", .same),
    ("get_unwind_info_address", .num 32, "unwind_info_address_", .same),
    ("get_unwind_info_version", .num 8, "unwind_info_version_", .same),
    ("get_flags", .num 8, "flags_", .same),
    ("get_size_of_prolog", .num 8, "size_of_prolog_", .same),
    ("get_number_of_unwind_slots", .num 8, "count_of_codes_", .same),
    ("get_frame_pointer_register_number", .num 8, "frame_register_", .same),
    ("get_scaled_rsp_offset", .num 8, "frame_offset_", .same),
    ("has_exception_handler", .num 1, "flags_", .mask 1),
    ("has_termination_handler", .num 1, "flags_", .mask 2),
    ("is_chaininfo", .num 1, "flags_", .mask 4),
    ("uses_frame_pointer", .num 1, "frame_register_", .nonZero)]
  setters := []

/-- `exported_function`: members pe_exports.h:53-59; functions pe_exports.cpp:13-15, 18-21, 24-27, 30-33, 36-39, 42-45,
    48-51, 54-57, 60-63, 66-69, 72-76, 79-82, 85-89. -/
def exportedFunctionC : Cls where
  name := "exported_function"
  members := [
    ("ordinal_", .num 16),
    ("rva_", .num 32),
    ("name_", .str),
    ("has_name_", .num 1),
    ("name_ordinal_", .num 16),
    ("forward_", .num 1),
    ("forward_name_", .str)]
  ctors := [
    ⟨[], [.putC "ordinal_" 0, .putC "rva_" 0, .putC "has_name_" 0, .putC "name_ordinal_" 0, .putC "forward_" 0]⟩]
  getters := [
    ("get_ordinal", .num 16, "ordinal_", .same),
    ("get_rva", .num 32, "rva_", .same),
    ("get_name", .str, "name_", .same),
    ("has_name", .num 1, "has_name_", .same),
    ("get_name_ordinal", .num 16, "name_ordinal_", .same),
    ("is_forwarded", .num 1, "forward_", .same),
    ("get_forwarded_name", .str, "forward_name_", .same)]
  setters := [
    ("set_ordinal", [.num 16], [.put "ordinal_" 0]),
    ("set_rva", [.num 32], [.put "rva_" 0]),
    ("set_name_ordinal", [.num 16], [.put "name_ordinal_" 0]),
    ("set_name", [.str], [.put "name_" 0, .putNonEmpty "has_name_" 0]),
    ("set_forwarded_name", [.str], [.put "forward_name_" 0, .putNonEmpty "forward_" 0])]

/-- `export_info`: members pe_exports.h:119-129; functions pe_exports.cpp:92-103, 106-109, 112-115, 118-121, 124-127,
    130-133, 136-139, 142-145, 148-151, 154-157, 160-163, 166-169, 172-175, 178-181, 184-187, 190-193, 196-199, 202-205,
    208-211, 214-217, 220-223, 226-229, 232-235. -/
def exportInfoC : Cls where
  name := "export_info"
  members := [
    ("characteristics_", .num 32),
    ("timestamp_", .num 32),
    ("major_version_", .num 16),
    ("minor_version_", .num 16),
    ("name_", .str),
    ("ordinal_base_", .num 32),
    ("number_of_functions_", .num 32),
    ("number_of_names_", .num 32),
    ("address_of_functions_", .num 32),
    ("address_of_names_", .num 32),
    ("address_of_name_ordinals_", .num 32)]
  ctors := [
    ⟨[], [.putC "characteristics_" 0, .putC "timestamp_" 0, .putC "major_version_" 0, .putC "minor_version_" 0,
      .putC "ordinal_base_" 0, .putC "number_of_functions_" 0, .putC "number_of_names_" 0, .putC "address_of_functions_" 0,
      .putC "address_of_names_" 0, .putC "address_of_name_ordinals_" 0]⟩]
  getters := [
    ("get_characteristics", .num 32, "characteristics_", .same),
    ("get_timestamp", .num 32, "timestamp_", .same),
    ("get_major_version", .num 16, "major_version_", .same),
    ("get_minor_version", .num 16, "minor_version_", .same),
    ("get_name", .str, "name_", .same),
    ("get_ordinal_base", .num 32, "ordinal_base_", .same),
    ("get_number_of_functions", .num 32, "number_of_functions_", .same),
    ("get_number_of_names", .num 32, "number_of_names_", .same),
    ("get_rva_of_functions", .num 32, "address_of_functions_", .same),
    ("get_rva_of_names", .num 32, "address_of_names_", .same),
    ("get_rva_of_name_ordinals", .num 32, "address_of_name_ordinals_", .same)]
  setters := [
    ("set_characteristics", [.num 32], [.put "characteristics_" 0]),
    ("set_timestamp", [.num 32], [.put "timestamp_" 0]),
    ("set_major_version", [.num 16], [.put "major_version_" 0]),
    ("set_minor_version", [.num 16], [.put "minor_version_" 0]),
    ("set_name", [.str], [.put "name_" 0]),
    ("set_ordinal_base", [.num 32], [.put "ordinal_base_" 0]),
    ("set_number_of_functions", [.num 32], [.put "number_of_functions_" 0]),
    ("set_number_of_names", [.num 32], [.put "number_of_names_" 0]),
    ("set_rva_of_functions", [.num 32], [.put "address_of_functions_" 0]),
    ("set_rva_of_names", [.num 32], [.put "address_of_names_" 0]),
    ("set_rva_of_name_ordinals", [.num 32], [.put "address_of_name_ordinals_" 0])]

/-- `import_rebuilder_settings`: members pe_imports.h:156-163; functions pe_imports.cpp:16-25, 28-31, 34-37, 41-44, 49-52,
    56-59, 62-65, 68-71, 74-77, 80-83, 86-89, 93-100, 104-107, 110-113, 116-119, 122-125. -/
def importRebuilderSettingsC : Cls where
  name := "import_rebuilder_settings"
  members := [
    ("offset_from_section_start_", .num 32),
    ("build_original_iat_", .num 1),
    ("save_iat_and_original_iat_rvas_", .num 1),
    ("fill_missing_original_iats_", .num 1),
    ("set_to_pe_headers_", .num 1),
    ("zero_directory_entry_iat_", .num 1),
    ("rewrite_iat_and_original_iat_contents_", .num 1),
    ("auto_strip_last_section_", .num 1)]
  ctors := [
    ⟨[("set_to_pe_headers", .num 1), ("auto_zero_directory_entry_iat", .num 1)], [.putC "offset_from_section_start_" 0,
      .putC "build_original_iat_" 1, .putC "save_iat_and_original_iat_rvas_" 1, .putC "fill_missing_original_iats_" 0,
      .put "set_to_pe_headers_" 0, .put "zero_directory_entry_iat_" 1, .putC "rewrite_iat_and_original_iat_contents_" 0,
      .putC "auto_strip_last_section_" 1]⟩]
  getters := [
    ("get_offset_from_section_start", .num 32, "offset_from_section_start_", .same),
    ("build_original_iat", .num 1, "build_original_iat_", .same),
    ("save_iat_and_original_iat_rvas", .num 1, "save_iat_and_original_iat_rvas_", .same),
    ("rewrite_iat_and_original_iat_contents", .num 1, "rewrite_iat_and_original_iat_contents_", .same),
    ("fill_missing_original_iats", .num 1, "fill_missing_original_iats_", .same),
    ("auto_set_to_pe_headers", .num 1, "set_to_pe_headers_", .same),
    ("zero_directory_entry_iat", .num 1, "zero_directory_entry_iat_", .same),
    ("auto_strip_last_section_enabled", .num 1, "auto_strip_last_section_", .same)]
  setters := [
    ("set_offset_from_section_start", [.num 32], [.put "offset_from_section_start_" 0]),
    ("build_original_iat", [.num 1], [.put "build_original_iat_" 0]),
    ("fill_missing_original_iats", [.num 1], [.put "fill_missing_original_iats_" 0]),
    ("auto_set_to_pe_headers", [.num 1], [.put "set_to_pe_headers_" 0]),
    ("zero_directory_entry_iat", [.num 1], [.put "zero_directory_entry_iat_" 0]),
    ("enable_auto_strip_last_section", [.num 1], [.put "auto_strip_last_section_" 0]),
    ("save_iat_and_original_iat_rvas", [.num 1, .num 1], [.put "save_iat_and_original_iat_rvas_" 0,
      .putIf "rewrite_iat_and_original_iat_contents_" 0 1])]

/-- `imported_function`: members pe_imports.h:42-45; functions pe_imports.cpp:128-130, 133-136, 139-142, 145-148, 151-154,
    157-160, 163-166, 169-172, 175-178, 181-184. -/
def importedFunctionC : Cls where
  name := "imported_function"
  members := [
    ("name_", .str),
    ("hint_", .num 16),
    ("ordinal_", .num 16),
    ("iat_va_", .num 64)]
  ctors := [
    ⟨[], [.putC "hint_" 0, .putC "ordinal_" 0, .putC "iat_va_" 0]⟩]
  getters := [
    ("get_name", .str, "name_", .same),
    ("get_hint", .num 16, "hint_", .same),
    ("get_ordinal", .num 16, "ordinal_", .same),
    ("get_iat_va", .num 64, "iat_va_", .same),
    ("has_name", .num 1, "name_", .nonEmpty)]
  setters := [
    ("set_name", [.str], [.put "name_" 0]),
    ("set_hint", [.num 16], [.put "hint_" 0]),
    ("set_ordinal", [.num 16], [.put "ordinal_" 0]),
    ("set_iat_va", [.num 64], [.put "iat_va_" 0])]

/-- `import_library`: members pe_imports.h:87-90, 92; functions pe_imports.cpp:187-189, 192-195, 198-201, 204-207, 210-213,
    216-219, 222-225, 228-231, 234-237, 240-243, 246-249, 252-255. -/
def importLibraryC : Cls where
  name := "import_library"
  members := [
    ("name_", .str),
    ("rva_to_iat_", .num 32),
    ("rva_to_original_iat_", .num 32),
    ("timestamp_", .num 32),
    ("imports_", .seq)]
  ctors := [
    ⟨[], [.putC "rva_to_iat_" 0, .putC "rva_to_original_iat_" 0, .putC "timestamp_" 0]⟩]
  getters := [
    ("get_name", .str, "name_", .same),
    ("get_rva_to_iat", .num 32, "rva_to_iat_", .same),
    ("get_rva_to_original_iat", .num 32, "rva_to_original_iat_", .same),
    ("get_timestamp", .num 32, "timestamp_", .same),
    ("get_imported_functions", .seq, "imports_", .same)]
  setters := [
    ("set_name", [.str], [.put "name_" 0]),
    ("set_rva_to_iat", [.num 32], [.put "rva_to_iat_" 0]),
    ("set_rva_to_original_iat", [.num 32], [.put "rva_to_original_iat_" 0]),
    ("set_timestamp", [.num 32], [.put "timestamp_" 0]),
    ("add_import", [.elem], [.push "imports_" 0]),
    ("clear_imports", [], [.clear "imports_"])]

/-- `image_config_info`: members pe_load_config.h:127-141, 143-144; functions pe_load_config.cpp:12-28, 55-58, 61-64, 67-70,
    73-76, 79-82, 85-88, 92-95, 99-102, 105-108, 111-114, 117-120, 123-126, 129-132, 135-138, 141-144, 147-150, 153-156,
    159-162, 165-168, 171-174, 177-180, 183-186, 189-192, 195-198, 201-204, 207-210, 213-216, 219-222, 225-228, 231-234,
    238-241, 245-248, 252-255, 258-261, 264-267, 270-273, 276-279, 282-285, 288-291, 294-297, 301-304, 307-310, 313-316. -/
def imageConfigInfoC : Cls where
  name := "image_config_info"
  members := [
    ("time_stamp_", .num 32),
    ("major_version_", .num 16),
    ("minor_version_", .num 16),
    ("global_flags_clear_", .num 32),
    ("global_flags_set_", .num 32),
    ("critical_section_default_timeout_", .num 32),
    ("decommit_free_block_threshold_", .num 64),
    ("decommit_total_free_threshold_", .num 64),
    ("lock_prefix_table_va_", .num 64),
    ("max_allocation_size_", .num 64),
    ("virtual_memory_threshold_", .num 64),
    ("process_affinity_mask_", .num 64),
    ("process_heap_flags_", .num 32),
    ("service_pack_version_", .num 16),
    ("edit_list_va_", .num 64),
    ("security_cookie_va_", .num 64),
    ("se_handler_table_va_", .num 64),
    ("se_handler_count_", .num 64),
    ("se_handlers_", .seq),
    ("lock_prefixes_", .seq)]
  ctors := [
    ⟨[], [.putC "time_stamp_" 0, .putC "major_version_" 0, .putC "minor_version_" 0, .putC "global_flags_clear_" 0,
      .putC "global_flags_set_" 0, .putC "critical_section_default_timeout_" 0, .putC "decommit_free_block_threshold_" 0,
      .putC "decommit_total_free_threshold_" 0, .putC "lock_prefix_table_va_" 0, .putC "max_allocation_size_" 0,
      .putC "virtual_memory_threshold_" 0, .putC "process_affinity_mask_" 0, .putC "process_heap_flags_" 0,
      .putC "service_pack_version_" 0, .putC "edit_list_va_" 0, .putC "security_cookie_va_" 0,
      .putC "se_handler_table_va_" 0, .putC "se_handler_count_" 0]⟩]
  getters := [
    ("get_time_stamp", .num 32, "time_stamp_", .same),
    ("get_major_version", .num 16, "major_version_", .same),
    ("get_minor_version", .num 16, "minor_version_", .same),
    ("get_global_flags_clear", .num 32, "global_flags_clear_", .same),
    ("get_global_flags_set", .num 32, "global_flags_set_", .same),
    ("get_critical_section_default_timeout", .num 32, "critical_section_default_timeout_", .same),
    ("get_decommit_free_block_threshold", .num 64, "decommit_free_block_threshold_", .same),
    ("get_decommit_total_free_threshold", .num 64, "decommit_total_free_threshold_", .same),
    ("get_lock_prefix_table_va", .num 64, "lock_prefix_table_va_", .same),
    ("get_max_allocation_size", .num 64, "max_allocation_size_", .same),
    ("get_virtual_memory_threshold", .num 64, "virtual_memory_threshold_", .same),
    ("get_process_affinity_mask", .num 64, "process_affinity_mask_", .same),
    ("get_process_heap_flags", .num 32, "process_heap_flags_", .same),
    ("get_service_pack_version", .num 16, "service_pack_version_", .same),
    ("get_edit_list_va", .num 64, "edit_list_va_", .same),
    ("get_security_cookie_va", .num 64, "security_cookie_va_", .same),
    ("get_se_handler_table_va", .num 64, "se_handler_table_va_", .same),
    ("get_se_handler_count", .num 64, "se_handler_count_", .same),
    ("get_se_handler_rvas", .seq, "se_handlers_", .same),
    ("get_lock_prefix_rvas", .seq, "lock_prefixes_", .same)]
  setters := [
    ("set_time_stamp", [.num 32], [.put "time_stamp_" 0]),
    ("set_major_version", [.num 16], [.put "major_version_" 0]),
    ("set_minor_version", [.num 16], [.put "minor_version_" 0]),
    ("set_global_flags_clear", [.num 32], [.put "global_flags_clear_" 0]),
    ("set_global_flags_set", [.num 32], [.put "global_flags_set_" 0]),
    ("set_critical_section_default_timeout", [.num 32], [.put "critical_section_default_timeout_" 0]),
    ("set_decommit_free_block_threshold", [.num 64], [.put "decommit_free_block_threshold_" 0]),
    ("set_decommit_total_free_threshold", [.num 64], [.put "decommit_total_free_threshold_" 0]),
    ("set_lock_prefix_table_va", [.num 64], [.put "lock_prefix_table_va_" 0]),
    ("set_max_allocation_size", [.num 64], [.put "max_allocation_size_" 0]),
    ("set_virtual_memory_threshold", [.num 64], [.put "virtual_memory_threshold_" 0]),
    ("set_process_affinity_mask", [.num 64], [.put "process_affinity_mask_" 0]),
    ("set_process_heap_flags", [.num 32], [.put "process_heap_flags_" 0]),
    ("set_service_pack_version", [.num 16], [.put "service_pack_version_" 0]),
    ("set_edit_list_va", [.num 64], [.put "edit_list_va_" 0]),
    ("set_security_cookie_va", [.num 64], [.put "security_cookie_va_" 0]),
    ("set_se_handler_table_va", [.num 64], [.put "se_handler_table_va_" 0]),
    ("add_se_handler_rva", [.elem], [.push "se_handlers_" 0]),
    ("clear_se_handler_list", [], [.clear "se_handlers_"]),
    ("add_lock_prefix_rva", [.elem], [.push "lock_prefixes_" 0]),
    ("clear_lock_prefix_list", [], [.clear "lock_prefixes_"])]

/-- `relocation_entry`: members pe_relocations.h:42-43; functions pe_relocations.cpp:11-13, 21-23, 26-29, 32-35, 38-41,
    44-47. -/
def relocationEntryC : Cls where
  name := "relocation_entry"
  members := [
    ("rva_", .num 16),
    ("type_", .num 16)]
  ctors := [
    ⟨[], [.putC "rva_" 0, .putC "type_" 0]⟩,
    ⟨[("rrva", .num 16), ("type", .num 16)], [.put "rva_" 0, .put "type_" 1]⟩]
  getters := [
    ("get_rva", .num 16, "rva_", .same),
    ("get_type", .num 16, "type_", .same)]
  setters := [
    ("set_rva", [.num 16], [.put "rva_" 0]),
    ("set_type", [.num 16], [.put "type_" 0])]

/-- `relocation_table`: members pe_relocations.h:74-75; functions pe_relocations.cpp:63-66, 69-72, 75-77, 80-82, 85-88,
    91-94, 97-100. -/
def relocationTableC : Cls where
  name := "relocation_table"
  members := [
    ("rva_", .num 32),
    ("relocations_", .seq)]
  ctors := [
    ⟨[], [.putC "rva_" 0]⟩,
    ⟨[("rva", .num 32)], [.put "rva_" 0]⟩]
  getters := [
    ("get_relocations", .seq, "relocations_", .same),
    ("get_rva", .num 32, "rva_", .same)]
  setters := [
    ("set_rva", [.num 32], [.put "rva_" 0]),
    ("add_relocation", [.elem], [.push "relocations_" 0])]

/-- `resource_data_entry`: members pe_resources.h:34-35; functions pe_resources.cpp:11-13, 16-18, 21-24, 27-30, 33-36, 39-42. -/
def resourceDataEntryC : Cls where
  name := "resource_data_entry"
  members := [
    ("codepage_", .num 32),
    ("data_", .str)]
  ctors := [
    ⟨[], [.putC "codepage_" 0]⟩,
    ⟨[("data", .str), ("codepage", .num 32)], [.put "codepage_" 1, .put "data_" 0]⟩]
  getters := [
    ("get_codepage", .num 32, "codepage_", .same),
    ("get_data", .str, "data_", .same)]
  setters := [
    ("set_codepage", [.num 32], [.put "codepage_" 0]),
    ("set_data", [.str], [.put "data_" 0])]

/-- `resource_directory`: members pe_resources.h:168-172; functions pe_resources.cpp:206-211, 222-225, 228-231, 234-237,
    240-243, 246-249, 252-255, 258-261, 264-267, 288-291, 294-297, 300-303, 306-309, 312-315, 318-321. -/
def resourceDirectoryC : Cls where
  name := "resource_directory"
  members := [
    ("characteristics_", .num 32),
    ("timestamp_", .num 32),
    ("major_version_", .num 16),
    ("minor_version_", .num 16),
    ("number_of_named_entries_", .num 32),
    ("number_of_id_entries_", .num 32),
    ("entries_", .seq)]
  ctors := [
    ⟨[], [.putC "characteristics_" 0, .putC "timestamp_" 0, .putC "major_version_" 0, .putC "minor_version_" 0,
      .putC "number_of_named_entries_" 0, .putC "number_of_id_entries_" 0]⟩]
  getters := [
    ("get_characteristics", .num 32, "characteristics_", .same),
    ("get_timestamp", .num 32, "timestamp_", .same),
    ("get_major_version", .num 16, "major_version_", .same),
    ("get_minor_version", .num 16, "minor_version_", .same),
    ("get_number_of_named_entries", .num 32, "number_of_named_entries_", .same),
    ("get_number_of_id_entries", .num 32, "number_of_id_entries_", .same),
    ("get_entry_list", .seq, "entries_", .same)]
  setters := [
    ("set_characteristics", [.num 32], [.put "characteristics_" 0]),
    ("set_timestamp", [.num 32], [.put "timestamp_" 0]),
    ("set_number_of_named_entries", [.num 32], [.put "number_of_named_entries_" 0]),
    ("set_number_of_id_entries", [.num 32], [.put "number_of_id_entries_" 0]),
    ("set_major_version", [.num 16], [.put "major_version_" 0]),
    ("get_minor_version", [.num 16], [.put "minor_version_" 0])]

/-- `rich_data`: members pe_rich_data.h:27-29; functions pe_rich_data.cpp:7-9, 12-15, 17-20, 22-25, 27-30, 32-35, 37-40. -/
def richDataC : Cls where
  name := "rich_data"
  members := [
    ("number_", .num 32),
    ("version_", .num 32),
    ("times_", .num 32)]
  ctors := [
    ⟨[], [.putC "number_" 0, .putC "version_" 0, .putC "times_" 0]⟩]
  getters := [
    ("get_number", .num 32, "number_", .same),
    ("get_version", .num 32, "version_", .same),
    ("get_times", .num 32, "times_", .same)]
  setters := [
    ("set_number", [.num 32], [.put "number_" 0]),
    ("set_version", [.num 32], [.put "version_" 0]),
    ("set_times", [.num 32], [.put "times_" 0])]

/-- `tls_info`: members pe_tls.h:65-66, 69, 72; functions pe_tls.cpp:11-14, 17-20, 23-26, 29-32, 35-38, 41-44, 47-50, 53-56,
    59-62, 65-68, 71-74, 77-80, 89-92, 95-98, 101-104, 107-110, 113-116, 119-122, 125-128. -/
def tlsInfoC : Cls where
  name := "tls_info"
  members := [
    ("start_rva_", .num 32),
    ("end_rva_", .num 32),
    ("index_rva_", .num 32),
    ("callbacks_rva_", .num 32),
    ("size_of_zero_fill_", .num 32),
    ("characteristics_", .num 32),
    ("raw_data_", .str),
    ("callbacks_", .seq)]
  ctors := [
    ⟨[], [.putC "start_rva_" 0, .putC "end_rva_" 0, .putC "index_rva_" 0, .putC "callbacks_rva_" 0,
      .putC "size_of_zero_fill_" 0, .putC "characteristics_" 0]⟩]
  getters := [
    ("get_raw_data_start_rva", .num 32, "start_rva_", .same),
    ("get_raw_data_end_rva", .num 32, "end_rva_", .same),
    ("get_index_rva", .num 32, "index_rva_", .same),
    ("get_callbacks_rva", .num 32, "callbacks_rva_", .same),
    ("get_size_of_zero_fill", .num 32, "size_of_zero_fill_", .same),
    ("get_characteristics", .num 32, "characteristics_", .same),
    ("get_raw_data", .str, "raw_data_", .same),
    ("get_tls_callbacks", .seq, "callbacks_", .same)]
  setters := [
    ("set_raw_data_start_rva", [.num 32], [.put "start_rva_" 0]),
    ("set_raw_data_end_rva", [.num 32], [.put "end_rva_" 0]),
    ("set_index_rva", [.num 32], [.put "index_rva_" 0]),
    ("set_callbacks_rva", [.num 32], [.put "callbacks_rva_" 0]),
    ("set_size_of_zero_fill", [.num 32], [.put "size_of_zero_fill_" 0]),
    ("set_characteristics", [.num 32], [.put "characteristics_" 0]),
    ("set_raw_data", [.str], [.put "raw_data_" 0]),
    ("add_tls_callback", [.elem], [.push "callbacks_" 0]),
    ("clear_tls_callbacks", [], [.clear "callbacks_"])]

/-- `resource_data_info`: members resource_data_info.h:24-25; functions resource_data_info.cpp:7-9, 17-20, 23-26. -/
def resourceDataInfoC : Cls where
  name := "resource_data_info"
  members := [
    ("data_", .str),
    ("codepage_", .num 32)]
  ctors := [
    ⟨[("data", .str), ("codepage", .num 32)], [.put "data_" 0, .put "codepage_" 1]⟩]
  getters := [
    ("get_data", .str, "data_", .same),
    ("get_codepage", .num 32, "codepage_", .same)]
  setters := []

/-- All classes above. -/
def classes : List Cls := [fileVersionInfoC, messageTableItemC, boundImportRefC, boundImportC, pdb70InfoC, pdb20InfoC,
      miscDebugInfoC, coffDebugInfoC, coffSymbolC, imageDirectoryC, exceptionEntryC, exportedFunctionC, exportInfoC,
      importRebuilderSettingsC, importedFunctionC, importLibraryC, imageConfigInfoC, relocationEntryC, relocationTableC,
      resourceDataEntryC, resourceDirectoryC, richDataC, tlsInfoC, resourceDataInfoC]

end PE.Plain
