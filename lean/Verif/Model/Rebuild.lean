/-
Model of writing a PE file: /repo/src/pe_lib/pe_rebuilder.cpp
-/
import Verif.Model.Edit
import Verif.Model.Header
import Verif.Model.Rva
namespace PE

/-- pe_rebuilder.cpp:39, 69, 140: bytes of data directories that are not stored; the count is a 32-bit value, the
    product a `size_t`. -/
def NtHdr.dirGap (h : NtHdr) : Nat := 8 * sub32 16 h.numRva

/-- pe_rebuilder.cpp:72-80: raw pointers of the sections that have raw data, in order; `ptr` is a `size_t`. -/
def placeSecs (fileAlign : Nat) : Nat → List Sec → List Sec
  | _, [] => []
  | ptr, s :: l =>
    if s.rawSize ≠ 0 then { s with rawPtr := w32 ptr } :: placeSecs fileAlign (w64 (ptr + s.alignedRS fileAlign)) l
    else s :: placeSecs fileAlign ptr l

/-- pe_rebuilder.cpp:18-40: the stub is dropped together with the DOS header (and `BaseOfCode` set to the offset
    of the NT headers). -/
def Image.stripDos (p : Image) (strip : Bool) : Image :=
  if strip then { p with stub := [], nt := { p.nt with baseOfCode := 16 } } else p

/-- pe_rebuilder.cpp:42, 92, 150: `save_bound_import && pe.has_bound_import()`. -/
def Image.boundWanted (p : Image) (saveBound : Bool) : Res Bool :=
  if saveBound then p.hasDir dirBoundImport else .ok false

/-- pe_rebuilder.cpp:42-47: the bound import directory is put behind the section table. -/
def NtHdr.placeBound (h : NtHdr) (wanted : Bool) (ptr : Nat) : Res (NtHdr × Nat) :=
  if wanted then do
    let h ← h.setDirRva dirBoundImport (w32 ptr)
    let size ← h.getDirSize dirBoundImport
    .ok (h, w64 (ptr + size))
  else .ok (h, ptr)

/-- pe_rebuilder.cpp:60: the new size of the headers. -/
def NtHdr.resizeHeaders (h : NtHdr) (changeSize : Bool) (ptr : Nat) : NtHdr :=
  if changeSize then { h with sizeHeaders := w32 ptr } else h

/-- pe_rebuilder.cpp:63-80: number of sections, size of image, size of optional header, raw pointers. -/
def Image.finishHeaders (p : Image) (nt : NtHdr) (ptr : Nat) : Image :=
  let p := ({ p with nt := { nt with numSections := w16 p.secs.length } } : Image).updateImageSize
  { p with
    nt := { p.nt with sizeOptHdr := w16 (sub64 p.kind.sizeofOpt p.nt.dirGap) },
    secs := placeSecs nt.fileAlign ptr p.secs }

/-- pe_rebuilder.cpp:36-40: end of the section table as a `size_t`. -/
def Image.tablePtr (p : Image) (strip : Bool) : Nat :=
  w64 (sub64 ((if strip then 16 else 64) + p.kind.sizeofNt + alignUp64 p.stub.length 4) p.nt.dirGap + 40 * p.secs.length)

/-- pe_rebuilder.cpp:30-31: the new `e_lfanew` (of the copied DOS header only). -/
def Image.newLfanew (p : Image) (strip : Bool) : Nat :=
  if strip then p.lfanew else w32 (64 + alignUp (w32 p.stub.length) 4)

/-- pe_rebuilder.cpp:14-81 `rebuild_pe(pe, dos_header, ...)`: the changed image and the `e_lfanew` field of
    `dos_header` (whose other fields are those of the image). -/
def Image.rebuildHeaders (p : Image) (strip changeSize saveBound : Bool) : Res (Image × Nat) := do
  let p := p.stripDos strip
  let wanted ← p.boundWanted saveBound
  let (nt, ptr) ← p.nt.placeBound wanted (p.tablePtr strip)
  let ptr := alignUp64 ptr nt.fileAlign
  throwIf (changeSize = true ∧ p.secs.head?.any (fun s => decide (w32 ptr > s.va)) = true) .cannotRebuildImage
  .ok (p.finishHeaders (nt.resizeHeaders changeSize ptr) ptr, p.newLfanew strip)

/-- pe_rebuilder.cpp:157-169: raw data of the sections, each preceded by zero bytes up to its raw pointer (the
    difference to the stream position is signed, so there are none if the position is behind it). `SizeOfRawData`
    bytes are read from the raw data string, whose buffer is terminated by one zero byte. -/
def writeSecs : Nat → List Sec → Res Bytes
  | _, [] => .ok []
  | pos, s :: l => do
    let b ← readN (s.data ++ [0]) 0 s.rawSize
    let r ← writeSecs (pos + (s.rawPtr - pos) + s.rawSize) l
    .ok (zeros (s.rawPtr - pos) ++ (b ++ r))

/-- pe_rebuilder.cpp:138-147: NT headers with the stored directories (undefined for more than 16) and section
    headers. -/
def Image.headerBytes (p : Image) : Res Bytes :=
  if p.nt.numRva > 16 then ubE .oobRead
  else .ok (encFields (ntFields p.kind p.nt) ++ encDirs (p.nt.dirs.take p.nt.numRva) ++ p.secs.flatMap encSec)

/-- pe_rebuilder.cpp:92-97: the bound import directory has to be readable if it is to be saved. -/
def Image.checkBound (p : Image) (saveBound : Bool) : Res Unit := do
  let wanted ← p.boundWanted saveBound
  if wanted then
    let rva ← p.nt.getDirRva dirBoundImport
    let n ← p.dataLenFrom rva rva .raw true
    let size ← p.nt.getDirSize dirBoundImport
    throwIf (n < size) .incorrectBoundImportDirectory
  else .ok ()

/-- pe_rebuilder.cpp:103: the original address of the bound import directory. -/
def Image.boundRva (p : Image) : Res Nat := do
  let has ← p.hasDir dirBoundImport
  if has then p.nt.getDirRva dirBoundImport else .ok 0

/-- pe_rebuilder.cpp:149-154: the bytes of the bound import directory at their original place `rva`. -/
def Image.boundBytes (p : Image) (saveBound : Bool) (rva : Nat) : Res Bytes := do
  let wanted ← p.boundWanted saveBound
  if wanted then
    let (b, o) ← p.ptrFromRva rva .raw true
    let size ← p.nt.getDirSize dirBoundImport
    readN b o size
  else .ok []

/-- pe_rebuilder.cpp:113-136: DOS header (16 bytes of it if stripped) and stub, padded to 4 bytes. -/
def Image.dosBytes (p : Image) (strip : Bool) (lfanew : Nat) : Bytes :=
  (if strip then (p.dos ++ leBytes 4 lfanew).take 16 else p.dos ++ leBytes 4 lfanew) ++
    (p.stub ++ zeros (alignUp64 p.stub.length 4 - p.stub.length))

/-- pe_rebuilder.cpp:87-170 `rebuild_pe(pe, out, ...)` for a good stream at position 0 (write errors are not
    modelled): the changed image and the bytes written. -/
def Image.rebuildPe (p : Image) (strip changeSize saveBound : Bool) : Res (Image × Bytes) := do
  p.checkBound saveBound
  let rva ← p.boundRva
  let save := saveBound && !decide (rva ≠ 0 ∧ rva > p.nt.sizeHeaders)
  let (q, lfanew) ← p.rebuildHeaders strip changeSize save
  let hdr ← q.headerBytes
  let bound ← q.boundBytes save rva
  let head := q.dosBytes strip lfanew ++ (hdr ++ bound)
  let data ← writeSecs head.length q.secs
  .ok (q, head ++ data)

end PE
