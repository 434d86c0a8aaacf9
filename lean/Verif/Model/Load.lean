/-
Model of reading a PE file: /repo/src/pe_lib/pe_base.cpp:17-46, 759-1033, 1042-1091 and pe_factory.cpp
-/
import Verif.Model.Rva
import Verif.Model.Header
import Verif.Model.Checksum
namespace PE

/-- A `std::istream` over `data`, with `eofbit` and `failbit`; `badbit` (a broken device) is not modelled.
    `strict` says whether seeking behind the end fails (`std::stringbuf`) or succeeds (`std::filebuf`). -/
structure Stream where
  data : Bytes
  strict : Bool
  pos : Nat := 0
  eof : Bool := false
  fail : Bool := false
  deriving DecidableEq, Repr

/-- `std::istream::seekg(pos)`: clears `eofbit`; does nothing on a failed stream; fails for a position that
    cannot be reached. -/
def Stream.seekg (f : Stream) (o : Int) : Stream :=
  let f := { f with eof := false }
  if f.fail = true then f
  else if 0 ≤ o ∧ (f.strict = true → o ≤ f.data.length) then { f with pos := o.toNat }
  else { f with fail := true }

/-- `std::istream::read(buf, n)`: the bytes stored and the new state. On a stream that is not good nothing is
    read and `failbit` is set; a short read sets `eofbit` and `failbit`. -/
def Stream.read (f : Stream) (n : Nat) : Bytes × Stream :=
  if f.eof = true ∨ f.fail = true then ([], { f with fail := true })
  else
    let b := slice f.data f.pos n
    if b.length < n then (b, { f with pos := f.pos + b.length, eof := true, fail := true })
    else (b, { f with pos := f.pos + n })

/-- `file.read(...); if(file.bad() || file.eof()) throw e;`. The streams this is applied to are never in the
    failed state (otherwise the buffer would keep its old contents without an exception). -/
def Stream.readOr (f : Stream) (n : Nat) (e : Err) : Res (Bytes × Stream) :=
  let (b, f) := f.read n
  if f.eof = true then throwE e else .ok (b, f)

/-- pe_base.cpp:805-807: at most 16 directories. -/
def NtHdr.clampRva (h : NtHdr) : NtHdr := { h with numRva := if h.numRva > 16 then 16 else h.numRva }

/-- pe_base.cpp:809-815: the directories read from the file replace the first entries of the array. -/
def NtHdr.readDirs (h : NtHdr) (b : Bytes) : NtHdr := { h with dirs := decDirs b h.numRva ++ h.dirs.drop h.numRva }

/-- pe_base.cpp:787-815: NT headers and data directories. `pre` is what the directory array held before (all
    zeros for the properties object of the factory). -/
def loadNt (k : Kind) (pre : List (Nat × Nat)) (f : Stream) (lfanew : Nat) : Res (NtHdr × Stream) := do
  throwIf (lfanew % 4 ≠ 0) .badDosHeader
  let f := f.seekg (int32 lfanew)
  throwIf (f.fail = true) .imageNtHeadersNotFound
  let (b, f) ← f.readOr k.sizeofNtBase .errorReadingImageNtHeaders
  let h := decNt k b pre
  throwIf (h.signature ≠ 0x4550) .peSignatureIncorrect
  let h := h.clampRva
  if h.numRva > 0 then
    if h.numRva > 16 then ubE .oobWrite  -- the array has 16 entries; excluded by the clamp
    else
      let (b, f) ← f.readOr (8 * h.numRva) .errorReadingDataDirectories
      .ok (h.readDirs b, f)
  else .ok (h, f)

/-- pe_base.cpp:817-839: checks of the optional header (96 sections, 512 bytes minimum file alignment). -/
def checkNt (k : Kind) (h : NtHdr) : Res Unit := do
  throwIf (h.numSections > 96) .sectionNumberIncorrect
  throwIf (h.magic ≠ k.magic) .peSignatureIncorrect
  throwIf (isPowerOf2 h.secAlign = false) .incorrectSectionAlignment
  throwIf (isPowerOf2 h.fileAlign = false) .incorrectFileAlignment
  throwIf (h.fileAlign ≠ h.secAlign ∧ (h.fileAlign < 512 ∨ h.fileAlign > h.secAlign)) .incorrectFileAlignment
  throwIf (alignUp h.sizeImage h.secAlign = 0) .incorrectSizeOfImage

/-- pe_base.cpp:841-849: the bytes between the DOS header and the PE header. -/
def loadStub (f : Stream) (lfanew : Nat) : Res (Bytes × Stream) :=
  if lfanew > 64 then (f.seekg 64).readOr (lfanew - 64) .errorReadingOverlay
  else .ok ([], f)

/-- pe_base.cpp:886-927: raw data of one section with non-zero `SizeOfRawData`. -/
def loadRaw (h : NtHdr) (fsize : Nat) (fromMem : Bool) (f : Stream) (s : Sec) : Res (Sec × Stream) := do
  let s := if alignUp s.rawSize h.fileAlign > alignUp s.vsize h.secAlign then { s with rawSize := s.vsize } else s
  throwIf (w32 (s.va + alignUp s.vsize h.secAlign) > alignUp h.sizeImage h.secAlign ∨
    w32 (alignDown s.rawPtr h.fileAlign + s.rawSize) > w32 fsize) .sectionIncorrectAddrOrSize
  let off := if fromMem then alignDown s.va h.secAlign else alignDown s.rawPtr h.fileAlign
  let f := f.seekg off
  throwIf (f.fail = true) .imageSectionDataNotFound
  let (b, f) := f.read s.rawSize
  throwIf (f.fail = true) .imageSectionDataNotFound
  .ok ({ s with data := b }, f)

/-- pe_base.cpp:877-884: checks of a section header (two_gb = 2^31). -/
def checkSec (s : Sec) : Res Unit := do
  throwIf (s.rawSize = 0 ∧ s.vsize = 0) .zeroSectionSizes
  throwIf (isSumSafe s.va s.vsize = false ∨ s.vsize > 2147483648 ∨
    isSumSafe s.rawPtr s.rawSize = false ∨ s.rawSize > 2147483648) .sectionIncorrectAddrOrSize

/-- pe_base.cpp:868-937: one section; also the new `last_raw_size`. -/
def loadSec (h : NtHdr) (fsize : Nat) (fromMem : Bool) (f : Stream) (last : Nat) : Res (Sec × Nat × Stream) := do
  let (b, f) ← f.readOr 40 .errorReadingSectionHeader
  let next := f.pos
  let s := decSec b
  checkSec s
  let last := if s.rawSize ≠ 0 then s.rawSize else last
  let (s, f) ← if s.rawSize ≠ 0 then loadRaw h fsize fromMem f s else .ok (s, f)
  throwIf (w32 (s.va + s.alignedVS h.secAlign) > alignUp h.sizeImage h.secAlign) .sectionIncorrectAddrOrSize
  .ok (s, last, f.seekg next)

/-- pe_base.cpp:865-938: all section headers with their data. -/
def loadSecs (h : NtHdr) (fsize : Nat) (fromMem : Bool) : Nat → Stream → Nat → Res (List Sec × Nat × Stream)
  | 0, f, last => .ok ([], last, f)
  | n + 1, f, last => do
    let (s, last, f) ← loadSec h fsize fromMem f last
    let (rest, last, f) ← loadSecs h fsize fromMem n f last
    .ok (s :: rest, last, f)

/-- pe_base.cpp:944-953: each section starts at the aligned end of its predecessor (32-bit sums). -/
def contigTest (secAlign : Nat) : List Sec → Bool
  | s :: t :: l => (t.va == w32 (s.va + s.alignedVS secAlign)) && contigTest secAlign (t :: l)
  | _ => true

/-- pe_base.cpp:958-979: how many bytes of the file are kept as headers. -/
def headersLen (h : NtHdr) (fsize : Nat) (secs : List Sec) : Nat :=
  match secs.find? (fun s => !s.empty) with
  | some s => min h.sizeHeaders s.rawPtr
  | none => min h.sizeHeaders (w32 fsize)

/-- `std::map::insert`: an existing key keeps its value. -/
def mapInsert (m : List (Nat × Bytes)) (k : Nat) (v : Bytes) : List (Nat × Bytes) :=
  if m.any (fun e => e.1 == k) then m else m ++ [(k, v)]

/-- pe_base.cpp:995-1018: the loop over debug directory entries; `dir` is the entry at `pos`. An exception
    ends the loop and keeps what was read so far. (Types: 1 COFF, 2 CodeView, 4 misc.) Going on with a wrapped
    position is recorded as `hang`; it is proved not to happen. Running out of memory is not modelled. -/
def debugLoop (p : Image) (fin : Nat) (f : Stream) (pos : Nat) (dir : Bytes) (acc : List (Nat × Bytes)) :
    Res (List (Nat × Bytes)) :=
  let ptr := rd 4 dir 24
  let type := rd 4 dir 12
  let size := rd 4 dir 16
  if ptr ≠ 0 ∧ pos < fin then
    let want := (type = 2 ∨ type = 4 ∨ type = 1) ∧ size ≠ 0
    let g := f.seekg ptr
    let r := g.read size
    if want ∧ r.2.eof = true then .ok acc
    else
      let acc := if want then mapInsert acc ptr (resize r.1 size) else acc
      let f := if want then r.2 else f
      match p.readT 28 (w32 (pos + 28)) .virt true with
      | .error (.exn _) => .ok acc
      | .error (.ub u) => .error (.ub u)
      | .ok d =>
        if h : pos < w32 (pos + 28) then debugLoop p fin f (w32 (pos + 28)) d acc
        else ubE .hang
  else .ok acc
termination_by 4294967296 - pos
decreasing_by
  have : w32 (pos + 28) < 4294967296 := Nat.mod_lt _ (by decide)
  omega

/-- pe_base.cpp:981-1032: raw data of debug directories; all library exceptions are swallowed. -/
def loadDebug (p : Image) (f : Stream) : Res (List (Nat × Bytes)) := do
  if ← p.hasDir dirDebug then
    let go : Res (List (Nat × Bytes)) := do
      let rva ← p.nt.getDirRva dirDebug
      let n ← p.dataLenFrom rva rva .virt true
      if n < 28 then .ok []
      else
        let size ← p.nt.getDirSize dirDebug
        let d ← p.readT 28 rva .virt true
        debugLoop p (w32 (rva + size)) f rva d []
    match go with
    | .error (.exn _) => .ok []
    | r => r
  else .ok []

/-- pe_base.cpp:955-956: overlay detection. -/
def overlayTest (fsize : Nat) (secs : List Sec) (last : Nat) : Bool :=
  match secs.getLast? with
  | some s => decide (fsize > w32 (s.rawPtr + last))
  | none => false

/-- pe_base.cpp:759-979 (`read_dos_header`, `read_pe` up to the debug data), for a good stream at position 0. -/
def loadCore (k : Kind) (strict fromMem : Bool) (pre : List (Nat × Nat)) (file : Bytes) : Res (Image × Stream) := do
  let dos ← readDosHeader file
  let lfanew := rd 4 dos 60
  let f : Stream := { data := file, strict := strict, pos := 64 }
  let (h, f) ← loadNt k pre f lfanew
  checkNt k h
  let (stub, f) ← loadStub f lfanew
  let first := w32 (lfanew + h.sizeOptHdr + 24)
  let f := if h.numSections > 0 then f.seekg first else f
  throwIf (f.fail = true) .imageSectionHeadersNotFound
  let (secs, last, f) ← loadSecs h file.length fromMem h.numSections f 0
  throwIf (secs.head?.any (fun s => decide (h.sizeHeaders > s.va)) = true) .incorrectSizeOfHeaders
  throwIf (contigTest h.secAlign secs = false) .imageSectionTableIncorrect
  let (hd, f) ← (f.seekg 0).readOr (headersLen h file.length secs) .errorReadingFile
  .ok ({ kind := k, dos := slice dos 0 60, lfanew := lfanew, stub := stub, nt := h, secs := secs,
         hasOverlay := overlayTest file.length secs last, hdrData := hd }, f)

/-- pe_base.cpp:17-46 (constructor from a stream) with 759-1033. Allocation failures are not modelled;
    what happens to the stream is modelled in Model/StreamState. -/
def load (k : Kind) (strict fromMem readDebug : Bool) (pre : List (Nat × Nat)) (file : Bytes) : Res Image := do
  let (p, f) ← loadCore k strict fromMem pre file
  if readDebug then
    let d ← loadDebug p f
    .ok { p with debugData := d }
  else .ok p

/-- pe_base.cpp:1042-1091 `get_pe_type(std::istream&)`: 120 bytes of NT headers are read. -/
def peType (strict : Bool) (file : Bytes) : Res Kind := do
  let dos ← readDosHeader file
  let f : Stream := { data := file, strict := strict, pos := 64 }
  let f := f.seekg (int32 (rd 4 dos 60))
  throwIf (f.fail = true) .imageNtHeadersNotFound
  let (b, _) ← f.readOr 120 .errorReadingImageNtHeaders
  throwIf (rd 4 b 0 ≠ 0x4550) .peSignatureIncorrect
  throwIf (rd 2 b 24 ≠ 0x10b ∧ rd 2 b 24 ≠ 0x20b) .peSignatureIncorrect
  .ok (if rd 2 b 24 = 0x20b then .pe64 else .pe32)

/-- pe_factory.cpp:6-11 `pe_factory::create_pe` (the properties object is value-initialised: zero
    directories). -/
def createPe (strict fromMem readDebug : Bool) (file : Bytes) : Res Image := do
  let k ← peType strict file
  load k strict fromMem readDebug (List.replicate 16 (0, 0)) file

end PE
