/-
Model of opening a file with regard to the stream it is read from: /repo/src/pe_lib/pe_base.cpp:17-46, 759-1033, 1042-1091,
pe_factory.cpp. `Model/Load` describes the image that is read; here the stream is followed through failures as well.
-/
import Verif.Model.Load
namespace PE

/-- A computation that works on a stream: the outcome and the stream afterwards, also if an exception was thrown. -/
def SM (α : Type) : Type := Stream → Res α × Stream

/-- Sequencing: an exception ends the computation and leaves the stream as it is. -/
def SM.andThen {α β : Type} (m : SM α) (g : α → SM β) : SM β := fun f =>
  match m f with
  | (.ok a, f) => g a f
  | (.error e, f) => (.error e, f)

instance : Monad SM where
  pure a := fun f => (.ok a, f)
  bind := SM.andThen

/-- A computation that does not touch the stream. -/
def SM.lift {α : Type} (r : Res α) : SM α := fun f => (r, f)

/-- The stream, for asking for its state. -/
def SM.stream : SM Stream := fun f => (.ok f, f)

def SM.seekg (o : Int) : SM Unit := fun f => (.ok (), f.seekg o)
def SM.read (n : Nat) : SM Bytes := fun f => (.ok (f.read n).1, (f.read n).2)

/-- `file.read(...); if(file.bad() || file.eof()) throw e;` and use of the buffer, which has not been filled if the stream
    was in the failed state before. -/
def SM.readOr (n : Nat) (e : Err) : SM Bytes := do
  let b ← SM.read n
  let f ← SM.stream
  if f.eof = true then SM.lift (throwE e)
  else if f.fail = true then SM.lift (ubE .uninit)
  else pure b

/-- pe_base.cpp:759-773 `read_dos_header` at the current position. -/
def dosS : SM Bytes := do
  let f ← SM.stream
  SM.lift (throwIf (f.eof = true) .badPeFile)
  let b ← SM.readOr 64 .badDosHeader
  SM.lift (throwIf (rd 2 b 0 ≠ 0x5a4d) .badDosHeader)
  pure b

/-- pe_base.cpp:787-815, see `loadNt`. -/
def loadNtS (k : Kind) (pre : List (Nat × Nat)) (lfanew : Nat) : SM NtHdr := do
  SM.lift (throwIf (lfanew % 4 ≠ 0) .badDosHeader)
  SM.seekg (int32 lfanew)
  let f ← SM.stream
  SM.lift (throwIf (f.fail = true) .imageNtHeadersNotFound)
  let b ← SM.readOr k.sizeofNtBase .errorReadingImageNtHeaders
  let h := decNt k b pre
  SM.lift (throwIf (h.signature ≠ 0x4550) .peSignatureIncorrect)
  let h := h.clampRva
  if h.numRva > 0 then
    if h.numRva > 16 then SM.lift (ubE .oobWrite)
    else do
      let b ← SM.readOr (8 * h.numRva) .errorReadingDataDirectories
      pure (h.readDirs b)
  else pure h

/-- pe_base.cpp:841-849, see `loadStub`. -/
def loadStubS (lfanew : Nat) : SM Bytes :=
  if lfanew > 64 then do
    SM.seekg 64
    SM.readOr (lfanew - 64) .errorReadingOverlay
  else pure []

/-- pe_base.cpp:886-927, see `loadRaw`. -/
def loadRawS (h : NtHdr) (fsize : Nat) (fromMem : Bool) (s : Sec) : SM Sec := do
  let s := if alignUp s.rawSize h.fileAlign > alignUp s.vsize h.secAlign then { s with rawSize := s.vsize } else s
  SM.lift (throwIf (w32 (s.va + alignUp s.vsize h.secAlign) > alignUp h.sizeImage h.secAlign ∨
    w32 (alignDown s.rawPtr h.fileAlign + s.rawSize) > w32 fsize) .sectionIncorrectAddrOrSize)
  SM.seekg ((if fromMem then alignDown s.va h.secAlign else alignDown s.rawPtr h.fileAlign : Nat) : Int)
  let f ← SM.stream
  SM.lift (throwIf (f.fail = true) .imageSectionDataNotFound)
  let b ← SM.read s.rawSize
  let f ← SM.stream
  SM.lift (throwIf (f.fail = true) .imageSectionDataNotFound)
  pure { s with data := b }

/-- pe_base.cpp:868-937, see `loadSec`. -/
def loadSecS (h : NtHdr) (fsize : Nat) (fromMem : Bool) (last : Nat) : SM (Sec × Nat) := do
  let b ← SM.readOr 40 .errorReadingSectionHeader
  let f ← SM.stream
  let next := f.pos
  let s := decSec b
  SM.lift (checkSec s)
  let last := if s.rawSize ≠ 0 then s.rawSize else last
  let s ← if s.rawSize ≠ 0 then loadRawS h fsize fromMem s else pure s
  SM.lift (throwIf (w32 (s.va + s.alignedVS h.secAlign) > alignUp h.sizeImage h.secAlign) .sectionIncorrectAddrOrSize)
  SM.seekg next
  pure (s, last)

/-- pe_base.cpp:865-938, see `loadSecs`. -/
def loadSecsS (h : NtHdr) (fsize : Nat) (fromMem : Bool) : Nat → Nat → SM (List Sec × Nat)
  | 0, last => pure ([], last)
  | n + 1, last => do
    let r ← loadSecS h fsize fromMem last
    let q ← loadSecsS h fsize fromMem n r.2
    pure (r.1 :: q.1, q.2)

/-- pe_base.cpp:995-1018, see `debugLoop`. -/
def debugLoopS (p : Image) (fin : Nat) (f : Stream) (pos : Nat) (dir : Bytes) (acc : List (Nat × Bytes)) :
    Res (List (Nat × Bytes)) × Stream :=
  let ptr := rd 4 dir 24
  let type := rd 4 dir 12
  let size := rd 4 dir 16
  if ptr ≠ 0 ∧ pos < fin then
    let want := (type = 2 ∨ type = 4 ∨ type = 1) ∧ size ≠ 0
    let g := f.seekg ptr
    let r := g.read size
    let f := if want then r.2 else f
    if want ∧ r.2.eof = true then (.ok acc, f)
    else
      let acc := if want then mapInsert acc ptr (resize r.1 size) else acc
      match p.readT 28 (w32 (pos + 28)) .virt true with
      | .error (.exn _) => (.ok acc, f)
      | .error (.ub u) => (.error (.ub u), f)
      | .ok d =>
        if h : pos < w32 (pos + 28) then debugLoopS p fin f (w32 (pos + 28)) d acc
        else (ubE .hang, f)
  else (.ok acc, f)
termination_by 4294967296 - pos
decreasing_by
  have : w32 (pos + 28) < 4294967296 := Nat.mod_lt _ (by decide)
  omega

/-- The first three values of pe_base.cpp:986-993: where the directory begins and ends, and its first record. -/
def debugStart (p : Image) : Res (Option (Nat × Nat × Bytes)) := do
  let rva ← p.nt.getDirRva dirDebug
  let n ← p.dataLenFrom rva rva .virt true
  if n < 28 then .ok none
  else
    let size ← p.nt.getDirSize dirDebug
    let d ← p.readT 28 rva .virt true
    .ok (some (rva, size, d))

/-- pe_base.cpp:981-1032, see `loadDebug`. -/
def loadDebugS (p : Image) : SM (List (Nat × Bytes)) := do
  let e ← SM.lift (p.hasDir dirDebug)
  if e then
    match debugStart p with
    | .error (.exn _) => pure []
    | .error (.ub u) => SM.lift (.error (.ub u))
    | .ok none => pure []
    | .ok (some (rva, size, d)) => fun f => debugLoopS p (w32 (rva + size)) f rva d []
  else pure []

/-- pe_base.cpp:782-979 `read_pe` up to the debug data, with `dos` the DOS header. -/
def readPeS (k : Kind) (fromMem : Bool) (pre : List (Nat × Nat)) (dos : Bytes) : SM Image := do
  let f ← SM.stream
  let fsize := f.data.length
  let lfanew := rd 4 dos 60
  let h ← loadNtS k pre lfanew
  SM.lift (checkNt k h)
  let stub ← loadStubS lfanew
  if h.numSections > 0 then SM.seekg (w32 (lfanew + h.sizeOptHdr + 24)) else pure ()
  let f ← SM.stream
  SM.lift (throwIf (f.fail = true) .imageSectionHeadersNotFound)
  let r ← loadSecsS h fsize fromMem h.numSections 0
  SM.lift (throwIf (r.1.head?.any (fun s => decide (h.sizeHeaders > s.va)) = true) .incorrectSizeOfHeaders)
  SM.lift (throwIf (contigTest h.secAlign r.1 = false) .imageSectionTableIncorrect)
  SM.seekg 0
  let hd ← SM.readOr (headersLen h fsize r.1) .errorReadingFile
  pure { kind := k, dos := slice dos 0 60, lfanew := lfanew, stub := stub, nt := h, secs := r.1,
         hasOverlay := overlayTest fsize r.1 r.2, hdrData := hd }

/-- pe_base.cpp:27-29, 782-1033: the body of the constructor. -/
def bodyS (k : Kind) (fromMem readDebug : Bool) (pre : List (Nat × Nat)) : SM Image := do
  let dos ← dosS
  let p ← readPeS k fromMem pre dos
  if readDebug then do
    let d ← loadDebugS p
    pure { p with debugData := d }
  else pure p

/-- Which state bits make the stream throw (`file.exceptions()`). -/
structure Mask where
  eof : Bool := false
  fail : Bool := false
  deriving DecidableEq, Repr

/-- The stream would throw in this state. -/
def Mask.hits (m : Mask) (f : Stream) : Bool := (m.eof && f.eof) || (m.fail && f.fail)

/-- `file.tellg()`: -1 for a stream that is not good, which gets `failbit`. -/
def Stream.tellg (f : Stream) : Int × Stream :=
  if f.eof = true ∨ f.fail = true then (-1, { f with fail := true }) else ((f.pos : Int), f)

/-- pe_base.cpp:34-37, 43-45: `file.seekg(old_offset); file.exceptions(state); file.clear();`. -/
def Stream.restore (f : Stream) (m : Mask) (old : Int) : Res Unit × Stream :=
  let f := f.seekg old
  if m.hits f then (throwE .iosFailure, f) else (.ok (), { f with eof := false, fail := false })

/-- pe_base.cpp:1078-1081, 1086-1089: `file.exceptions(state); file.seekg(old_offset); file.clear();`. (With a mask that
    is not hit, the stream has not failed, or failures are not masked; the seek then does not throw, as positions of
    the past can be reached again.) -/
def Stream.restore' (f : Stream) (m : Mask) (old : Int) : Res Unit × Stream :=
  if m.hits f then (throwE .iosFailure, f)
  else (.ok (), { f.seekg old with eof := false, fail := false })

/-- pe_base.cpp:17-46: the constructor. The result of the body (value or exception) is passed on unless restoring the
    stream throws. -/
def openS (k : Kind) (fromMem readDebug : Bool) (pre : List (Nat × Nat)) (m : Mask) : SM Image := fun f =>
  let t := f.tellg
  if m.hits t.2 then (throwE .iosFailure, t.2)
  else
    let r := bodyS k fromMem readDebug pre t.2
    match r.1 with
    | .error (.ub u) => (.error (.ub u), r.2)
    | v =>
      let z := r.2.restore m t.1
      match z.1 with
      | .ok _ => (v, z.2)
      | .error e => (.error e, z.2)

/-- pe_base.cpp:1052-1073: the body of `get_pe_type`. -/
def typeBodyS : SM Kind := do
  let dos ← dosS
  SM.seekg (int32 (rd 4 dos 60))
  let f ← SM.stream
  SM.lift (throwIf (f.fail = true) .imageNtHeadersNotFound)
  let b ← SM.readOr 120 .errorReadingImageNtHeaders
  SM.lift (throwIf (rd 4 b 0 ≠ 0x4550) .peSignatureIncorrect)
  SM.lift (throwIf (rd 2 b 24 ≠ 0x10b ∧ rd 2 b 24 ≠ 0x20b) .peSignatureIncorrect)
  pure (if rd 2 b 24 = 0x20b then .pe64 else .pe32)

/-- pe_base.cpp:1042-1091 `get_pe_type`. -/
def typeS (m : Mask) : SM Kind := fun f =>
  let t := f.tellg
  if m.hits t.2 then (throwE .iosFailure, t.2)
  else
    let r := typeBodyS t.2
    match r.1 with
    | .error (.ub u) => (.error (.ub u), r.2)
    | v =>
      let z := r.2.restore' m t.1
      match z.1 with
      | .ok _ => (v, z.2)
      | .error e => (.error e, z.2)

/-- pe_factory.cpp:6-11. -/
def createS (fromMem readDebug : Bool) (m : Mask) : SM Image := do
  let k ← typeS m
  openS k fromMem readDebug (List.replicate 16 (0, 0)) m

end PE
