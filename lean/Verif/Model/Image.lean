/-
Model of the state of class `pe_base` and of the header properties:
/repo/src/pe_lib/pe_base.{h,cpp}, pe_properties_generic.{h,cpp}, pe_structures.h
-/
import Verif.Model.Section
namespace PE

/-- PE32 or PE32+: the two instantiations `pe_types_class_32/64` (pe_properties_generic.h:8-35). -/
inductive Kind | pe32 | pe64
  deriving DecidableEq, Repr

/-- `sizeof(BaseSize)`: 4 (uint32_t) or 8 (uint64_t). -/
def Kind.ptr : Kind → Nat | .pe32 => 4 | .pe64 => 8
/-- `PEClassType::Id`, the optional header magic: pe_properties_generic.cpp:607-612, 614-619 `get_needed_magic`,
    `get_pe_type` and pe_base.cpp:1036-1039, 1673-1676. -/
def Kind.magic : Kind → Nat | .pe32 => 0x10b | .pe64 => 0x20b
/-- Reduction of a value to `BaseSize`. -/
def Kind.wrap : Kind → Nat → Nat | .pe32 => w32 | .pe64 => w64
/-- `sizeof(NtHeaders)` with all 16 directories (pe_structures.h): pe_properties_generic.cpp:572-577
    `get_sizeof_nt_header` and pe_base.cpp:1643-1646. -/
def Kind.sizeofNt : Kind → Nat | .pe32 => 248 | .pe64 => 264
/-- `sizeof(OptHeaders)` with all 16 directories: pe_properties_generic.cpp:579-584 `get_sizeof_opt_headers` and
    pe_base.cpp:1649-1652. -/
def Kind.sizeofOpt : Kind → Nat | .pe32 => 224 | .pe64 => 240

/-- `image_nt_headers32/64` (pe_structures.h, packed): signature, file header, optional header.
    `dirs` is the `DataDirectory[16]` array of (VirtualAddress, Size). -/
structure NtHdr where
  signature : Nat := 0
  machine : Nat := 0
  numSections : Nat := 0
  timeStamp : Nat := 0
  ptrSymTab : Nat := 0
  numSyms : Nat := 0
  sizeOptHdr : Nat := 0
  chars : Nat := 0
  magic : Nat := 0
  majorLinker : Nat := 0
  minorLinker : Nat := 0
  sizeCode : Nat := 0
  sizeInitData : Nat := 0
  sizeUninitData : Nat := 0
  entry : Nat := 0
  baseOfCode : Nat := 0
  baseOfData : Nat := 0     -- PE32 only
  imageBase : Nat := 0
  secAlign : Nat := 0
  fileAlign : Nat := 0
  majorOs : Nat := 0
  minorOs : Nat := 0
  majorImage : Nat := 0
  minorImage : Nat := 0
  majorSubsys : Nat := 0
  minorSubsys : Nat := 0
  win32Version : Nat := 0
  sizeImage : Nat := 0
  sizeHeaders : Nat := 0
  checksum : Nat := 0
  subsystem : Nat := 0
  dllChars : Nat := 0
  stackReserve : Nat := 0
  stackCommit : Nat := 0
  heapReserve : Nat := 0
  heapCommit : Nat := 0
  loaderFlags : Nat := 0
  numRva : Nat := 0
  dirs : List (Nat × Nat) := List.replicate 16 (0, 0)
  deriving DecidableEq, Repr

/-- State of a `pe_base` object (pe_base.h:475-496 data members and the `props_` header struct).
    `dos` is the first 60 bytes of `image_dos_header`, `lfanew` its last field (two's complement
    32-bit pattern). The members are returned by pe_base.cpp:186-189, 1094-1097, 1596-1604 and 1631-1640
    (pe_properties_generic.cpp:559-570). -/
structure Image where
  kind : Kind
  dos : Bytes
  lfanew : Nat
  stub : Bytes := []             -- rich_overlay_
  nt : NtHdr
  secs : List Sec := []          -- sections_
  hasOverlay : Bool := false     -- has_overlay_
  hdrData : Bytes := []          -- full_headers_data_
  debugData : List (Nat × Bytes) := []  -- debug_data_
  deriving DecidableEq, Repr

/-! Directory ids (pe_structures.h `image_directory_entry_*`). -/
def dirExport : Nat := 0
def dirImport : Nat := 1
def dirResource : Nat := 2
def dirException : Nat := 3
def dirSecurity : Nat := 4
def dirBaseReloc : Nat := 5
def dirDebug : Nat := 6
def dirTls : Nat := 9
def dirLoadConfig : Nat := 10
def dirBoundImport : Nat := 11
def dirIat : Nat := 12
def dirDelayImport : Nat := 13
def dirComDescriptor : Nat := 14

/-- `nt_headers_.OptionalHeader.DataDirectory[id]`: undefined outside the 16-element array. -/
def NtHdr.dirAt (h : NtHdr) (id : Nat) : Res (Nat × Nat) :=
  match h.dirs[id]? with
  | some d => .ok d
  | none => ubE .oobIndex

/-- `nt_headers_.OptionalHeader.DataDirectory[id] = d`. -/
def NtHdr.dirSet (h : NtHdr) (id : Nat) (d : Nat × Nat) : Res NtHdr :=
  if id < h.dirs.length then .ok { h with dirs := h.dirs.set id d } else ubE .oobIndex

/-- pe_properties_generic.cpp:45-49 (and pe_base.cpp:505-508) `directory_exists`:
    `(NumberOfRvaAndSizes - 1) >= id && DataDirectory[id].VirtualAddress`. -/
def NtHdr.directoryExists (h : NtHdr) (id : Nat) : Res Bool :=
  if sub32 h.numRva 1 ≥ id then do
    let d ← h.dirAt id
    .ok (d.1 != 0)
  else .ok false

/-- pe_properties_generic.cpp:73-81 (and pe_base.cpp:517-520) `get_directory_rva`. -/
def NtHdr.getDirRva (h : NtHdr) (id : Nat) : Res Nat :=
  if h.numRva ≤ id then throwE .directoryDoesNotExist
  else do let d ← h.dirAt id; .ok d.1

/-- pe_properties_generic.cpp:105-113 (and pe_base.cpp:523-526) `get_directory_size`. -/
def NtHdr.getDirSize (h : NtHdr) (id : Nat) : Res Nat :=
  if h.numRva ≤ id then throwE .directoryDoesNotExist
  else do let d ← h.dirAt id; .ok d.2

/-- pe_properties_generic.cpp:84-92 (and pe_base.cpp:529-532) `set_directory_rva`. -/
def NtHdr.setDirRva (h : NtHdr) (id v : Nat) : Res NtHdr :=
  if h.numRva ≤ id then throwE .directoryDoesNotExist
  else do let d ← h.dirAt id; h.dirSet id (v, d.2)

/-- pe_properties_generic.cpp:94-102 (and pe_base.cpp:535-538) `set_directory_size`. -/
def NtHdr.setDirSize (h : NtHdr) (id v : Nat) : Res NtHdr :=
  if h.numRva ≤ id then throwE .directoryDoesNotExist
  else do let d ← h.dirAt id; h.dirSet id (d.1, v)

/-- pe_base.cpp:1106-1109, pe_properties.cpp:16-19 `set_characteristics_flags` (16-bit word). -/
def NtHdr.setCharFlags (h : NtHdr) (f : Nat) : NtHdr := { h with chars := h.chars ||| f }
/-- pe_base.cpp:1100-1103, pe_properties.cpp:10-13 `clear_characteristics_flags`. -/
def NtHdr.clearCharFlags (h : NtHdr) (f : Nat) : NtHdr := { h with chars := h.chars &&& (65535 - f) }

/-- pe_properties_generic.cpp:52-70 (and pe_base.cpp:511-514) `remove_directory` (0x1 relocs_stripped, 0x40 dynamic_base,
    0x2000 dll). -/
def NtHdr.removeDirectory (h : NtHdr) (id : Nat) : Res NtHdr := do
  if ← h.directoryExists id then
    let h ← h.dirSet id (0, 0)
    if id = dirBaseReloc then
      let h := h.setCharFlags 0x1
      .ok { h with dllChars := h.dllChars &&& (65535 - 0x40) }
    else if id = dirExport then .ok (h.clearCharFlags 0x2000)
    else .ok h
  else .ok h

/-- Loop of pe_properties_generic.cpp:124-132; the argument is `i + 1`, the result is the final
    `i + 1`. `i <= (int)min_count - 2` is written `i + 2 ≤ minCount` (minCount below 2^31). -/
def NtHdr.stripLoop (h : NtHdr) (minCount : Nat) (stripIat : Bool) : Nat → Res Nat
  | 0 => .ok 0
  | i + 1 => do
    let d ← h.dirAt i
    if d.1 ≠ 0 ∧ (i ≠ dirIat ∨ stripIat = false) then .ok (i + 1)
    else if i + 2 ≤ minCount then .ok (i + 1)
    else h.stripLoop minCount stripIat i

/-- pe_properties_generic.cpp:118-139 (and pe_base.cpp:543-546) `strip_data_directories`: (new header, returned count).
    Simplification: `NumberOfRvaAndSizes` and `min_count` are below 2^31 (the source converts them to
    `int`). -/
def NtHdr.stripDataDirectories (h : NtHdr) (minCount : Nat) (stripIat : Bool) : Res (NtHdr × Nat) := do
  let k ← h.stripLoop minCount stripIat h.numRva
  if k = 16 then .ok (h, 16)
  else .ok ({ h with numRva := k }, k)

/-- pe_properties_generic.cpp:487-494 (and pe_base.cpp:1249-1252) `va_to_rva(uint32_t)`; the base is promoted to 64 bits in the
    check; the subtraction is in `BaseSize`. -/
def Image.vaToRva32 (p : Image) (va : Nat) (boundCheck : Bool := true) : Res Nat :=
  if boundCheck ∧ sub64 va p.nt.imageBase > 4294967295 then throwE .incorrectAddressConversion
  else .ok (w32 (sub64 va p.nt.imageBase))

/-- pe_properties_generic.cpp:497-504 (and pe_base.cpp:1254-1257) `va_to_rva(uint64_t)`. -/
def Image.vaToRva64 (p : Image) (va : Nat) (boundCheck : Bool := true) : Res Nat :=
  if boundCheck ∧ sub64 va p.nt.imageBase > 4294967295 then throwE .incorrectAddressConversion
  else .ok (w32 (sub64 va p.nt.imageBase))

/-- pe_properties_generic.cpp:507-514 (and pe_base.cpp:1259-1262, 1270-1273) `rva_to_va_32`. -/
def Image.rvaToVa32 (p : Image) (rva : Nat) : Res Nat :=
  if ¬ isSumSafe rva (w32 p.nt.imageBase) then throwE .incorrectAddressConversion
  else .ok (w32 (rva + p.nt.imageBase))

/-- pe_properties_generic.cpp:517-521 (and pe_base.cpp:1264-1267) `rva_to_va_64` (no check, 64-bit sum). -/
def Image.rvaToVa64 (p : Image) (rva : Nat) : Nat := w64 (rva + p.nt.imageBase)

/-- pe_base.cpp:1276-1285 `rva_to_va(uint32_t, BaseSize&)`: the overload selected by the pointer
    type of the image kind. -/
def Image.rvaToVa (p : Image) (rva : Nat) : Res Nat :=
  match p.kind with
  | .pe32 => p.rvaToVa32 rva
  | .pe64 => .ok (p.rvaToVa64 rva)

/-- `va_to_rva` overload selected by the pointer type of the image kind. -/
def Image.vaToRva (p : Image) (va : Nat) (boundCheck : Bool := true) : Res Nat :=
  match p.kind with
  | .pe32 => p.vaToRva32 va boundCheck
  | .pe64 => p.vaToRva64 va boundCheck

/-- pe_properties_generic.cpp:163-167 `set_image_base_64`: truncated to `BaseSize`. -/
def Image.setImageBase64 (p : Image) (b : Nat) : Image :=
  { p with nt := { p.nt with imageBase := p.kind.wrap b } }

/-- pe_properties_generic.cpp:18-36 `create_pe`. -/
def createNt (k : Kind) (secAlign subsystem : Nat) : NtHdr :=
  { signature := 0x4550, machine := 0x14C, sizeOptHdr := k.sizeofOpt, magic := k.magic,
    imageBase := 0x400000, secAlign := secAlign, fileAlign := 0x200, sizeHeaders := 1024,
    subsystem := subsystem, heapReserve := 0x100000, heapCommit := 0x1000,
    stackReserve := 0x100000, stackCommit := 0x1000, numRva := 16 }

/-- The DOS header bytes set up by pe_base.cpp:54-62 (first 60 bytes):
    e_magic, e_cblp, e_cp, e_crlc, e_cparhdr, e_minalloc, e_maxalloc, e_ss, e_sp, e_csum, e_ip, e_cs,
    e_lfarlc, then zeros. -/
def createDos : Bytes :=
  leBytes 2 0x5A4D ++ leBytes 2 0x90 ++ leBytes 2 3 ++ leBytes 2 0 ++ leBytes 2 4 ++ leBytes 2 0 ++
  leBytes 2 0xFFFF ++ leBytes 2 0 ++ leBytes 2 0xB8 ++ leBytes 2 0 ++ leBytes 2 0 ++ leBytes 2 0 ++
  leBytes 2 64 ++ zeros 34

/-- pe_base.cpp:48-75 constructor of an empty image (0x2 executable, 0x1 relocs stripped,
    0x100 32-bit machine, 0x2000 dll). -/
def createImage (k : Kind) (secAlign : Nat) (dll : Bool) (subsystem : Nat) : Image :=
  let h := createNt k secAlign subsystem
  let h := { h with chars := 0x3 }
  let h := if k = .pe32 then h.setCharFlags 0x100 else h
  let h := if dll then h.setCharFlags 0x2000 else h
  { kind := k, dos := createDos, lfanew := 0,
    nt := { h with majorSubsys := 5, minorSubsys := 1, majorOs := 5, minorOs := 1 } }

end PE
