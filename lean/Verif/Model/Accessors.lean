/-
Model of the header accessors and of the accessors by virtual address: /repo/src/pe_lib/pe_base.cpp and
pe_properties_generic.cpp
-/
import Verif.Model.Rva
namespace PE

/-- The header values that can be read (and mostly written) through `pe_base`. -/
inductive Acc where
  | signature | machine | numSections | timeStamp | sizeOptHdr | chars | magic | entry | baseOfCode | imageBase | secAlign
  | fileAlign | majorOs | minorOs | majorSubsys | minorSubsys | sizeImage | sizeHeaders | checksum | subsystem | dllChars
  | stackReserve | stackCommit | heapReserve | heapCommit | numRva
  deriving DecidableEq, Repr

/-- The getters: pe_properties_generic.cpp:142-153, 170-174, 184-195, 254-321, 331-342, 352-363, 380-384, 401-412, 422-440,
    451-462, 473-484, 524-528, 601-605 and the forwarding members
    pe_base.cpp:160-183, 228-231, 251-284, 401-434, 1118-1175, 1301-1352, 1403-1406, 1464-1505, 1514-1517, 1526-1529, 1538-1541,
    1550-1553, 1667-1670 (the 64-bit versions where there are two). -/
def NtHdr.getAcc (h : NtHdr) : Acc → Nat
  | .signature => h.signature | .machine => h.machine | .numSections => h.numSections | .timeStamp => h.timeStamp
  | .sizeOptHdr => h.sizeOptHdr | .chars => h.chars | .magic => h.magic | .entry => h.entry | .baseOfCode => h.baseOfCode
  | .imageBase => h.imageBase | .secAlign => h.secAlign | .fileAlign => h.fileAlign | .majorOs => h.majorOs
  | .minorOs => h.minorOs | .majorSubsys => h.majorSubsys | .minorSubsys => h.minorSubsys | .sizeImage => h.sizeImage
  | .sizeHeaders => h.sizeHeaders | .checksum => h.checksum | .subsystem => h.subsystem | .dllChars => h.dllChars
  | .stackReserve => h.stackReserve | .stackCommit => h.stackCommit | .heapReserve => h.heapReserve
  | .heapCommit => h.heapCommit | .numRva => h.numRva

/-- The `_32` getters, pe_properties_generic.cpp:142-146, 254-258, 268-272, 282-286, 296-300, and the getters with a
    32-bit argument pe_base.cpp:1508-1511, 1520-1523, 1532-1535, 1544-1547: truncated to 32 bits. -/
def NtHdr.getAcc32 (h : NtHdr) (a : Acc) : Nat := w32 (h.getAcc a)

/-- The setters: pe_properties_generic.cpp:156-167, 177-181, 198-251, 324-328, 345-349, 366-377, 387-398, 415-419, 443-448,
    465-470, 531-556, 587-598 and the forwarding members pe_base.cpp:287-290, 1409-1461, 1607-1628, 1655-1664 and others. The argument is truncated to the type of the
    parameter; addresses and sizes of pointer width to the type of the field. There are no setters for the signature,
    the magic number and the section alignment. `set_os_version` and `set_subsystem_version` set two values. -/
def NtHdr.setAcc (k : Kind) (h : NtHdr) (a : Acc) (v : Nat) : NtHdr :=
  match a with
  | .signature | .magic | .secAlign => h
  | .machine => { h with machine := w16 v } | .numSections => { h with numSections := w16 v }
  | .timeStamp => { h with timeStamp := w32 v } | .sizeOptHdr => { h with sizeOptHdr := w16 v }
  | .chars => { h with chars := w16 v } | .entry => { h with entry := w32 v }
  | .baseOfCode => { h with baseOfCode := w32 v } | .imageBase => { h with imageBase := k.wrap v }
  | .fileAlign => { h with fileAlign := w32 v } | .majorOs => { h with majorOs := w16 v }
  | .minorOs => { h with minorOs := w16 v } | .majorSubsys => { h with majorSubsys := w16 v }
  | .minorSubsys => { h with minorSubsys := w16 v } | .sizeImage => { h with sizeImage := w32 v }
  | .sizeHeaders => { h with sizeHeaders := w32 v } | .checksum => { h with checksum := w32 v }
  | .subsystem => { h with subsystem := w16 v } | .dllChars => { h with dllChars := w16 v }
  | .stackReserve => { h with stackReserve := k.wrap v } | .stackCommit => { h with stackCommit := k.wrap v }
  | .heapReserve => { h with heapReserve := k.wrap v } | .heapCommit => { h with heapCommit := k.wrap v }
  | .numRva => { h with numRva := w32 v }

/-- The setter applied to an image. -/
def Image.setAcc (p : Image) (a : Acc) (v : Nat) : Image := { p with nt := p.nt.setAcc p.kind a v }

/-- pe_base.cpp:1130-1139 `is_console`, `is_gui`. -/
def NtHdr.isConsole (h : NtHdr) : Bool := decide (h.subsystem = 3)
def NtHdr.isGui (h : NtHdr) : Bool := decide (h.subsystem = 2)

/-- pe_base.cpp:1112-1115 `check_characteristics_flag`. -/
def NtHdr.checkFlag (h : NtHdr) (f : Nat) : Bool := decide (h.chars &&& f ≠ 0)

/-- pe_base.cpp:1226-1247 `section_from_va`. -/
def Image.sectionFromVa (p : Image) (va : Nat) : Res Sec := do
  let rva ← p.vaToRva va
  p.sectionFromRva rva

/-- pe_base.cpp:1196-1199, 1220-1223 `section_data_from_va(va, type, headers)`. -/
def Image.ptrFromVa (p : Image) (va : Nat) (t : DataType) (hdrs : Bool) : Res (Bytes × Nat) := do
  let rva ← p.vaToRva va
  p.ptrFromRva rva t hdrs

/-- pe_base.h:416-430 `section_data_from_va<T>(va, type, headers)` with `sizeof(T) = n`. -/
def Image.readVa (p : Image) (n va : Nat) (t : DataType) (hdrs : Bool) : Res Bytes := do
  let rva ← p.vaToRva va
  p.readT n rva t hdrs

/-- pe_base.cpp:657-666 `section_data_length_from_va(va, type, headers)`. -/
def Image.dataLenVa (p : Image) (va : Nat) (t : DataType) (hdrs : Bool) : Res Nat := do
  let rva ← p.vaToRva va
  p.dataLenTotal rva t hdrs

/-- pe_base.cpp:690-699 `section_data_length_from_va(va, va_inside, type, headers)`. (The order in which the two
    arguments are converted is unspecified in C++; both failures are the same exception.) -/
def Image.dataLenFromVa (p : Image) (va vaInside : Nat) (t : DataType) (hdrs : Bool) : Res Nat := do
  let rva ← p.vaToRva va
  let inside ← p.vaToRva vaInside
  p.dataLenFrom rva inside t hdrs

/-- pe_base.cpp:621-633 `section_data_from_rva(section&, rva)` (non-const): an offset in the raw data of the section.
    `&raw[i]` is undefined for `i` beyond the length of the string. -/
def Image.mutPtrSec (p : Image) (s : Sec) (rva : Nat) : Res Nat :=
  if s.containsRva p.nt.secAlign rva then
    if s.data = [] then throwE .sectionIsEmpty
    else if sub32 rva s.va > s.data.length then ubE .oobIndex
    else .ok (sub32 rva s.va)
  else throwE .rvaNotExists

/-- pe_base.cpp:1178-1181, 1202-1205 `section_data_from_va(section&, va)`. -/
def Image.mutPtrVaSec (p : Image) (s : Sec) (va : Nat) : Res Nat := do
  let rva ← p.vaToRva va
  p.mutPtrSec s rva

/-- pe_base.cpp:1184-1187, 1208-1211 `section_data_from_va(const section&, va, type)`. -/
def Image.ptrVaSec (p : Image) (s : Sec) (va : Nat) (t : DataType) : Res (Bytes × Nat) := do
  let rva ← p.vaToRva va
  p.ptrFromRvaSec s rva t

/-- pe_base.cpp:1190-1193, 1214-1217 `section_data_from_va(va, headers)` (non-const). -/
def Image.mutPtrVa (p : Image) (va : Nat) (hdrs : Bool) : Res Loc := do
  let rva ← p.vaToRva va
  p.mutPtrFromRva rva hdrs

/-- pe_base.h:403-414 `section_data_from_va<T>(s, va, type)` with `sizeof(T) = n`. -/
def Image.readVaSec (p : Image) (n : Nat) (s : Sec) (va : Nat) (t : DataType) : Res Bytes := do
  let rva ← p.vaToRva va
  p.readTSec n s rva t

/-- pe_base.cpp:721-730 `section_data_length_from_va(s, va_inside, type)`. -/
def Image.dataLenVaSec (p : Image) (s : Sec) (va : Nat) (t : DataType) : Res Nat := do
  let rva ← p.vaToRva va
  p.dataLenSec s rva t

/-- pe_base.cpp:323-332 `section_from_directory`. -/
def Image.sectionFromDirectory (p : Image) (id : Nat) : Res Sec := do
  let rva ← p.nt.getDirRva id
  p.sectionFromRva rva

/-- pe_base.cpp:1294-1298 `section_and_offset_from_rva`. -/
def Image.sectionAndOffset (p : Image) (rva : Nat) : Res (Nat × Sec) := do
  let s ← p.sectionFromRva rva
  .ok (sub32 rva s.va, s)

end PE
