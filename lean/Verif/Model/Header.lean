/-
Byte layout of the headers: /repo/src/pe_lib/pe_structures.h (all structures packed).
-/
import Verif.Model.Image
namespace PE

/-- Concatenation of little-endian fields given as (width, value). -/
def encFields (fs : List (Nat × Nat)) : Bytes := fs.flatMap (fun f => leBytes f.1 f.2)

/-- pe_structures.h:381-398 `image_section_header`, 40 bytes, read from memory. -/
def decSec (b : Bytes) : Sec :=
  { name := slice b 0 8, vsize := rd 4 b 8, va := rd 4 b 12, rawSize := rd 4 b 16, rawPtr := rd 4 b 20,
    relPtr := rd 4 b 24, linePtr := rd 4 b 28, nReloc := rd 2 b 32, nLine := rd 2 b 34, chars := rd 4 b 36 }

/-- pe_structures.h:381-398 `image_section_header` as memory. -/
def encSec (s : Sec) : Bytes :=
  s.name ++ encFields [(4, s.vsize), (4, s.va), (4, s.rawSize), (4, s.rawPtr), (4, s.relPtr), (4, s.linePtr),
    (2, s.nReloc), (2, s.nLine), (4, s.chars)]

/-- pe_structures.h `image_nt_headers32/64` without the data directories: the fields in order with their
    widths. `BaseOfData` exists in PE32 only. -/
def ntFields (k : Kind) (h : NtHdr) : List (Nat × Nat) :=
  [(4, h.signature), (2, h.machine), (2, h.numSections), (4, h.timeStamp), (4, h.ptrSymTab), (4, h.numSyms),
   (2, h.sizeOptHdr), (2, h.chars), (2, h.magic), (1, h.majorLinker), (1, h.minorLinker), (4, h.sizeCode),
   (4, h.sizeInitData), (4, h.sizeUninitData), (4, h.entry), (4, h.baseOfCode)] ++
  (match k with | .pe32 => [(4, h.baseOfData), (4, h.imageBase)] | .pe64 => [(8, h.imageBase)]) ++
  [(4, h.secAlign), (4, h.fileAlign), (2, h.majorOs), (2, h.minorOs), (2, h.majorImage), (2, h.minorImage),
   (2, h.majorSubsys), (2, h.minorSubsys), (4, h.win32Version), (4, h.sizeImage), (4, h.sizeHeaders),
   (4, h.checksum), (2, h.subsystem), (2, h.dllChars), (k.ptr, h.stackReserve), (k.ptr, h.stackCommit),
   (k.ptr, h.heapReserve), (k.ptr, h.heapCommit), (4, h.loaderFlags), (4, h.numRva)]

/-- Size of the NT headers without data directories: `get_sizeof_nt_header() - 16 * 8`. -/
def Kind.sizeofNtBase (k : Kind) : Nat := k.sizeofNt - 128

/-- The NT headers without data directories read from memory (the inverse direction of `ntFields`, given by
    explicit offsets); `dirs` is what the directory array holds. -/
def decNt (k : Kind) (b : Bytes) (dirs : List (Nat × Nat)) : NtHdr :=
  let w := k.ptr
  { signature := rd 4 b 0, machine := rd 2 b 4, numSections := rd 2 b 6, timeStamp := rd 4 b 8,
    ptrSymTab := rd 4 b 12, numSyms := rd 4 b 16, sizeOptHdr := rd 2 b 20, chars := rd 2 b 22,
    magic := rd 2 b 24, majorLinker := rd 1 b 26, minorLinker := rd 1 b 27, sizeCode := rd 4 b 28,
    sizeInitData := rd 4 b 32, sizeUninitData := rd 4 b 36, entry := rd 4 b 40, baseOfCode := rd 4 b 44,
    baseOfData := match k with | .pe32 => rd 4 b 48 | .pe64 => 0,
    imageBase := match k with | .pe32 => rd 4 b 52 | .pe64 => rd 8 b 48,
    secAlign := rd 4 b 56, fileAlign := rd 4 b 60, majorOs := rd 2 b 64, minorOs := rd 2 b 66,
    majorImage := rd 2 b 68, minorImage := rd 2 b 70, majorSubsys := rd 2 b 72, minorSubsys := rd 2 b 74,
    win32Version := rd 4 b 76, sizeImage := rd 4 b 80, sizeHeaders := rd 4 b 84, checksum := rd 4 b 88,
    subsystem := rd 2 b 92, dllChars := rd 2 b 94, stackReserve := rd w b 96, stackCommit := rd w b (96 + w),
    heapReserve := rd w b (96 + 2 * w), heapCommit := rd w b (96 + 3 * w), loaderFlags := rd 4 b (96 + 4 * w),
    numRva := rd 4 b (100 + 4 * w), dirs := dirs }

/-- `n` data directories (VirtualAddress, Size) read from memory. -/
def decDirs (b : Bytes) (n : Nat) : List (Nat × Nat) :=
  (List.range n).map (fun i => (rd 4 b (8 * i), rd 4 b (8 * i + 4)))

/-- Data directories as memory. -/
def encDirs (ds : List (Nat × Nat)) : Bytes := ds.flatMap (fun d => leBytes 4 d.1 ++ leBytes 4 d.2)

end PE
