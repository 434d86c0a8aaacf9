/-
Model of address based access to an image: /repo/src/pe_lib/pe_base.{h,cpp}
-/
import Verif.Model.Image
namespace PE

/-- `section_data_type`: raw or virtual view of a section (pe_base.h). -/
inductive DataType | raw | virt
  deriving DecidableEq, Repr

/-- `datatype == section_data_raw ? s.get_raw_data() : s.get_virtual_data(alignment)`. -/
def Sec.view (s : Sec) (t : DataType) (secAlign : Nat) : Bytes :=
  match t with
  | .raw => s.data
  | .virt => s.virt secAlign

/-- The length expression `datatype == section_data_raw ? raw length : aligned virtual size`
    (pe_base.cpp:653, 680, 708). -/
def Sec.viewLen (s : Sec) (t : DataType) (secAlign : Nat) : Nat :=
  match t with
  | .raw => s.data.length
  | .virt => s.alignedVS secAlign

/-- The test of pe_base.cpp:300, 315, 624, 639, 705 and pe_base.h:371:
    `rva >= VA && rva < VA + aligned_virtual_size` (32-bit sum). -/
def Sec.containsRva (s : Sec) (secAlign rva : Nat) : Bool :=
  decide (s.va ≤ rva) && decide (rva < w32 (s.va + s.alignedVS secAlign))

/-- pe_base.cpp:308-320 `section_from_rva` (const). -/
def Image.sectionFromRva (p : Image) (rva : Nat) : Res Sec :=
  match p.secs.find? (fun s => s.containsRva p.nt.secAlign rva) with
  | some s => .ok s
  | none => throwE .noSectionFound

/-- pe_base.cpp:293-305 `section_from_rva` (non-const): position of the found section. -/
def Image.secIdxFromRva (p : Image) (rva : Nat) : Res Nat :=
  match p.secs.findIdx? (fun s => s.containsRva p.nt.secAlign rva) with
  | some i => .ok i
  | none => throwE .noSectionFound

/-- pe_base.cpp:646-654 `section_data_length_from_rva(rva, type, headers)`: total length. -/
def Image.dataLenTotal (p : Image) (rva : Nat) (t : DataType) (hdrs : Bool) : Res Nat :=
  if hdrs ∧ rva < p.hdrData.length then .ok (w32 p.hdrData.length)
  else do
    let s ← p.sectionFromRva rva
    .ok (w32 (s.viewLen t p.nt.secAlign))

/-- pe_base.cpp:669-687 `section_data_length_from_rva(rva, rva_inside, type, headers)`; `long` is
    64 bits wide, so the signed computation is exact: a negative length is reported as 0. -/
def Image.dataLenFrom (p : Image) (rva rvaInside : Nat) (t : DataType) (hdrs : Bool) : Res Nat :=
  if hdrs ∧ rva < p.hdrData.length ∧ rvaInside < p.hdrData.length then
    .ok (w32 (p.hdrData.length - rvaInside))
  else do
    let s ← p.sectionFromRva rva
    if rvaInside < s.va then throwE .rvaNotExists
    else .ok (w32 (s.viewLen t p.nt.secAlign + s.va - rvaInside))

/-- pe_base.cpp:702-718 `section_data_length_from_rva(s, rva_inside, type)`: computed in
    `int32_t`, negative values reported as 0. -/
def Image.dataLenSec (p : Image) (s : Sec) (rvaInside : Nat) (t : DataType) : Res Nat :=
  if s.containsRva p.nt.secAlign rvaInside then
    let len := sub32 (w32 (w32 (s.viewLen t p.nt.secAlign) + s.va)) rvaInside
    .ok (if len ≥ 2147483648 then 0 else len)
  else throwE .rvaNotExists

/-- pe_base.cpp:748-756 `section_data_from_rva(rva, type, headers) const`: a pointer, modelled as
    (buffer, offset). Dereferencing is modelled by `readN`/`readU`. -/
def Image.ptrFromRva (p : Image) (rva : Nat) (t : DataType) (hdrs : Bool) : Res (Bytes × Nat) :=
  if hdrs ∧ rva < p.hdrData.length then .ok (p.hdrData, rva)
  else do
    let s ← p.sectionFromRva rva
    .ok (s.view t p.nt.secAlign, rva - s.va)

/-- pe_base.cpp:636-643 `section_data_from_rva(const section&, rva, type)`. -/
def Image.ptrFromRvaSec (p : Image) (s : Sec) (rva : Nat) (t : DataType) : Res (Bytes × Nat) :=
  if s.containsRva p.nt.secAlign rva then .ok (s.view t p.nt.secAlign, rva - s.va)
  else throwE .rvaNotExists

/-- A place in the image a mutable `char*` can point to. -/
inductive Loc
  | hdr (off : Nat)            -- inside full_headers_data_
  | sec (idx : Nat) (off : Nat)  -- inside the raw data of a section
  deriving DecidableEq, Repr

/-- pe_base.cpp:733-745 `section_data_from_rva(rva, headers)` (non-const). `&raw[i]` is undefined
    for `i` beyond the length of the string. -/
def Image.mutPtrFromRva (p : Image) (rva : Nat) (hdrs : Bool) : Res Loc :=
  if hdrs ∧ rva < p.hdrData.length then .ok (.hdr rva)
  else do
    let i ← p.secIdxFromRva rva
    match p.secs[i]? with
    | none => ubE .badIter
    | some s =>
      if s.data = [] then throwE .sectionIsEmpty
      else if rva - s.va > s.data.length then ubE .oobIndex
      else .ok (.sec i (rva - s.va))

/-- `memcpy(ptr, d, |d|)` through such a pointer. -/
def Image.writeLoc (p : Image) (l : Loc) (d : Bytes) : Res Image :=
  match l with
  | .hdr off => do
    let h ← writeAt p.hdrData off d
    .ok { p with hdrData := h }
  | .sec i off =>
    match p.secs[i]? with
    | none => ubE .badIter
    | some s => do
      let b ← writeAt s.data off d
      .ok { p with secs := p.secs.set i { s with data := b } }

/-- pe_base.h:387-401 `section_data_from_rva<T>(rva, type, headers)` with `sizeof(T) = n`: the bytes
    of the value. -/
def Image.readT (p : Image) (n rva : Nat) (t : DataType) (hdrs : Bool) : Res Bytes :=
  if hdrs ∧ isSumSafe rva n ∧ rva + n < p.hdrData.length then readN p.hdrData rva n
  else do
    let s ← p.sectionFromRva rva
    let data := s.view t p.nt.secAlign
    if data.length < sub32 rva s.va + n then throwE .rvaNotExists
    else readN data (sub32 rva s.va) n

/-- pe_base.h:369-383 `section_data_from_rva<T>(s, rva, type)`. -/
def Image.readTSec (p : Image) (n : Nat) (s : Sec) (rva : Nat) (t : DataType) : Res Bytes :=
  if s.containsRva p.nt.secAlign rva ∧ isSumSafe rva n then
    let data := s.view t p.nt.secAlign
    if data.length < sub32 rva s.va + n then throwE .rvaNotExists
    else readN data (sub32 rva s.va) n
  else throwE .rvaNotExists

/-- `readT` for an integer type of `n` bytes. -/
def Image.readInt (p : Image) (n rva : Nat) (t : DataType) (hdrs : Bool) : Res Nat := do
  let b ← p.readT n rva t hdrs
  .ok (fromLE b)

/-- pe_base.cpp:1355-1363 `rva_to_file_offset` (32-bit sums). -/
def Image.rvaToFileOffset (p : Image) (rva : Nat) : Res Nat :=
  if rva < p.nt.sizeHeaders then .ok rva
  else do
    let s ← p.sectionFromRva rva
    .ok (sub32 (w32 (s.rawPtr + rva)) s.va)

/-- pe_section.cpp:268-272 `section_by_raw_offset` (32-bit sum). -/
def Sec.containsOffset (s : Sec) (off : Nat) : Bool :=
  decide (s.rawPtr ≤ off) && decide (w32 (s.rawPtr + s.rawSize) > off)

/-- pe_base.cpp:1377-1394, 1281-1285, 1288-1291 `file_offset_to_section` and the two `section_from_file_offset`. -/
def Image.fileOffsetToSection (p : Image) (off : Nat) : Res Sec :=
  match p.secs.find? (fun s => s.containsOffset off) with
  | some s => .ok s
  | none => throwE .noSectionFound

/-- pe_base.cpp:1366-1374 `file_offset_to_rva`. -/
def Image.fileOffsetToRva (p : Image) (off : Nat) : Res Nat :=
  if off < p.nt.sizeHeaders then .ok off
  else do
    let s ← p.fileOffsetToSection off
    .ok (w32 (sub32 off s.rawPtr + s.va))

/-- pe_base.cpp:1397-1400 `rva_from_section_offset`. -/
def Sec.rvaFromOffset (s : Sec) (off : Nat) : Nat := w32 (s.va + off)

/-- pe_base.cpp:499-502 and pe_section.cpp:274-281 `section_attached` for the section reference with position `i`. -/
def Image.sectionAttached (p : Image) (i : Nat) : Bool := decide (i < p.secs.length)

/-- `directory_exists` (pe_base.cpp:505-508) as the readers call it; the `has_*` functions are in Model/Has.lean. -/
def Image.hasDir (p : Image) (id : Nat) : Res Bool := p.nt.directoryExists id

/-- pe_base.cpp:573-576 `has_reloc`: directory exists and the relocs-stripped flag (0x1) is clear. -/
def Image.hasReloc (p : Image) : Res Bool := do
  let e ← p.nt.directoryExists dirBaseReloc
  .ok (e && (p.nt.chars &&& 1) == 0)

end PE
