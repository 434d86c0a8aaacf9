/-
Model of /repo/src/pe_lib/pe_exception_directory.cpp
-/
import Verif.Model.Rva

namespace PE

/-- `exception_entry` (pe_exception_directory.h): a RUNTIME_FUNCTION record with the head of its unwind info. -/
structure ExcEntry where
  beginAddr : Nat
  endAddr : Nat
  unwindAddr : Nat
  version : Nat
  flags : Nat
  prolog : Nat
  codes : Nat
  frameReg : Nat
  frameOff : Nat
  deriving DecidableEq, Repr

/-- pe_exception_directory.cpp:20-28 the constructor from the two structures (pe_structures.h:702-707, 734-742;
    bit fields are allocated from the low bits: Version 3 bits, Flags 5, FrameRegister 4, FrameOffset 4). -/
def ExcEntry.ofBytes (r u : Bytes) : ExcEntry where
  beginAddr := rd 4 r 0
  endAddr := rd 4 r 4
  unwindAddr := rd 4 r 8
  version := rd 1 u 0 &&& 7
  flags := rd 1 u 0 >>> 3
  prolog := rd 1 u 1
  codes := rd 1 u 2
  frameReg := rd 1 u 3 &&& 15
  frameOff := rd 1 u 3 >>> 4

/-- pe_exception_directory.cpp:136-152, the loop; `r` is the record at `pos`. `sizeof(unwind_info)` is 6. Going on with
    a wrapped position (which could be repeated for ever) is recorded as `hang`; see `C46_safe`. -/
def Image.excLoop (p : Image) (pos : Nat) (r : Bytes) : Res (List ExcEntry) :=
  if rd 4 r 0 ≠ 0 then do
    throwIf (rd 4 r 0 > rd 4 r 4) .incorrectExceptionDirectory
    let u ← p.readT 6 (rd 4 r 8) .virt true
    let next ← p.readT 12 (w32 (pos + 12)) .virt true
    if h : pos < w32 (pos + 12) then do
      let rest ← p.excLoop (w32 (pos + 12)) next
      .ok (ExcEntry.ofBytes r u :: rest)
    else ubE .hang
  else .ok []
termination_by 4294967296 - pos
decreasing_by
  have : w32 (pos + 12) < 4294967296 := Nat.mod_lt _ (by decide)
  omega

/-- pe_exception_directory.cpp:114-155 `get_exception_directory_data`. -/
def Image.getExceptions (p : Image) : Res (List ExcEntry) := do
  if ← p.hasDir dirException then
    let rva ← p.nt.getDirRva dirException
    let n ← p.dataLenFrom rva rva .virt true
    throwIf (n < 12) .incorrectExceptionDirectory
    throwIf (rva % 4 ≠ 0) .incorrectExceptionDirectory
    let r ← p.readT 12 rva .virt true
    p.excLoop rva r
  else .ok []

end PE
