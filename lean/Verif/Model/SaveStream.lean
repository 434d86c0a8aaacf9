/-
Model of writing a PE file with regard to the stream it is written to: /repo/src/pe_lib/pe_rebuilder.cpp:87-170.
`Model/Rebuild` and `Model/Failing` say which bytes are written and what happens to the image; here the stream is followed, with
its position, state bits, exception mask and failing writes.
-/
import Verif.Model.Failing
namespace PE

/-- What is behind a stream (disk, memory): how many bytes it takes when `n` bytes are written at a position. More than `n` means
    all. -/
def Medium : Type := Nat → Nat → Nat

/-- An output stream: contents, put position, the bits of `rdstate()` and the mask set by `exceptions(...)`. Buffering is not
    modelled: a medium that cannot take bytes reports it at once. -/
structure OStream where
  data : Bytes := []
  pos : Nat := 0
  bad : Bool := false
  fail : Bool := false
  eof : Bool := false
  mask : Nat := 0
  deriving DecidableEq, Repr

/-- `std::ios::good()`. -/
def OStream.good (o : OStream) : Bool := !(o.bad || o.fail || o.eof)

/-- The bytes `b` written at position `k`; a gap is filled with zeros. -/
def overwrite (d : Bytes) (k : Nat) (b : Bytes) : Bytes :=
  if b = [] then d else resize d k ++ (b ++ d.drop (k + b.length))

/-- `std::ostream::write(b, |b|)` and `put` with exception mask `goodbit`: nothing happens on a stream that is not good
    (except for `failbit`); `badbit` is set if not all bytes are taken. -/
def OStream.write (md : Medium) (b : Bytes) (o : OStream) : OStream :=
  if o.good then
    let n := min b.length (md o.pos b.length)
    { o with data := overwrite o.data o.pos (b.take n), pos := o.pos + n, bad := decide (n < b.length) }
  else { o with fail := true }

/-- `std::ostream::tellp()`. -/
def OStream.tellp (o : OStream) : Int := if o.bad || o.fail then -1 else o.pos

/-- pe_rebuilder.cpp:100-101: `out.exceptions(std::ios::goodbit); out.clear();`. -/
def OStream.fresh (o : OStream) : OStream := { o with bad := false, fail := false, eof := false, mask := 0 }

/-- An operation on an image and a stream: its result or exception, and both afterwards. -/
def OM (α : Type) : Type := Image × OStream → Res α × (Image × OStream)

/-- Sequencing: an exception ends the operation. -/
def OM.andThen {α β : Type} (m : OM α) (g : α → OM β) : OM β := fun x =>
  match m x with
  | (.ok a, y) => g a y
  | (.error e, y) => (.error e, y)

instance : Monad OM where
  pure a := fun x => (.ok a, x)
  bind := OM.andThen

/-- A computation that changes neither image nor stream. -/
def OM.lift {α : Type} (r : Res α) : OM α := fun x => (r, x)
/-- The current image. -/
def OM.image : OM Image := fun x => (.ok x.1, x)
/-- The stream, for asking for its state. -/
def OM.out : OM OStream := fun x => (.ok x.2, x)
/-- An operation on the image. -/
def OM.ofImage {α : Type} (m : IM α) : OM α := fun x => ((m x.1).1, (m x.1).2, x.2)
/-- A change of the stream that cannot throw. -/
def OM.modify (f : OStream → OStream) : OM Unit := fun x => (.ok (), x.1, f x.2)
/-- `out.write(ptr, n)`; the memory `r` is read only if the stream is good. -/
def OM.write (md : Medium) (r : Res Bytes) : OM Unit := fun x =>
  if x.2.good then
    match r with
    | .ok b => (.ok (), x.1, x.2.write md b)
    | .error e => (.error e, x)
  else (.ok (), x.1, x.2.write md [])

/-- `n` times `out.put('\0')`. -/
def putZerosO (md : Medium) : Nat → OM Unit
  | 0 => pure ()
  | n + 1 => do
    OM.write md (.ok [0])
    putZerosO md n

/-- pe_rebuilder.cpp:122-135: the stub, padded to 4 bytes. -/
def putStubO (md : Medium) (stub : Bytes) : OM Unit :=
  if stub = [] then pure ()
  else do
    OM.write md (.ok stub)
    putZerosO md (alignUp64 stub.length 4 - stub.length)

/-- pe_rebuilder.cpp:119: the DOS header, 16 bytes of it if stripped. -/
def Image.dosHeader (p : Image) (strip : Bool) (lfanew : Nat) : Bytes :=
  if strip then (p.dos ++ leBytes 4 lfanew).take 16 else p.dos ++ leBytes 4 lfanew

/-- pe_rebuilder.cpp:139-140: the NT headers with the stored directories (behind the structure for more than 16). -/
def Image.ntBytes (p : Image) : Res Bytes :=
  if p.nt.numRva > 16 then ubE .oobRead else .ok (encFields (ntFields p.kind p.nt) ++ encDirs (p.nt.dirs.take p.nt.numRva))

/-- pe_rebuilder.cpp:143-147: the section headers. -/
def putHeadersO (md : Medium) : List Sec → OM Unit
  | [] => pure ()
  | s :: l => do
    OM.write md (.ok (encSec s))
    putHeadersO md l

/-- pe_rebuilder.cpp:152-153: the bound import directory. -/
def putDirO (md : Medium) (q : Image) (rva : Nat) : OM Unit := do
  let b ← OM.lift (q.ptrFromRva rva .raw true)
  let size ← OM.lift (q.nt.getDirSize dirBoundImport)
  OM.write md (readN b.1 b.2 size)

/-- pe_rebuilder.cpp:150-154: only if wanted. -/
def putBoundO (md : Medium) (q : Image) (save : Bool) (rva : Nat) : OM Unit := do
  let wanted ← OM.lift (q.boundWanted save)
  if wanted then putDirO md q rva else pure ()

/-- pe_rebuilder.cpp:161-165: zero bytes up to the raw pointer; `wpos` is -1 for a failed stream, the counter has 32 bits. -/
def fillToO (md : Medium) (ptr : Nat) (wpos : Int) : OM Unit :=
  if ((ptr : Int) - wpos).toNat ≥ 4294967296 then OM.lift (ubE .hang) else putZerosO md ((ptr : Int) - wpos).toNat

/-- pe_rebuilder.cpp:157-169: the raw data of the sections. -/
def putSecsO (md : Medium) : List Sec → OM Unit
  | [] => pure ()
  | s :: l => do
    let o ← OM.out
    fillToO md s.rawPtr o.tellp
    OM.write md (readN (s.data ++ [0]) 0 s.rawSize)
    putSecsO md l

/-- pe_rebuilder.cpp:113-169: everything that is written. -/
def putFileO (md : Medium) (q : Image) (strip : Bool) (lfanew : Nat) (save : Bool) (rva : Nat) : OM Unit := do
  OM.write md (.ok (q.dosHeader strip lfanew))
  putStubO md q.stub
  OM.write md q.ntBytes
  putHeadersO md q.secs
  putBoundO md q save rva
  putSecsO md q.secs

/-- pe_rebuilder.cpp:87-170 `rebuild_pe(pe, out, ...)`. -/
def rebuildPeO (md : Medium) (strip changeSize saveBound : Bool) : OM Unit := do
  let o ← OM.out
  OM.lift (throwIf (o.bad = true) .streamIsBad)
  let p ← OM.image
  OM.lift (p.checkBound saveBound)
  OM.modify OStream.fresh
  let rva ← OM.lift p.boundRva
  let save := saveBound && !decide (rva ≠ 0 ∧ rva > p.nt.sizeHeaders)
  let lfanew ← OM.ofImage (rebuildHeadersM strip changeSize save)
  let q ← OM.image
  putFileO md q strip lfanew save rva

end PE
