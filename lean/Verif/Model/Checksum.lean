/-
Model of /repo/src/pe_lib/pe_checksum.cpp
-/
import Verif.Model.Utils
namespace PE

/-- Signed value of a 32-bit pattern (`int32_t`, e.g. `e_lfanew`). -/
def int32 (x : Nat) : Int := if x < 2147483648 then (x : Int) else (x : Int) - 4294967296

/-- pe_base.cpp:759-773 `read_dos_header` at the beginning of a stream: the 64 header bytes.
    `e_magic` is checked; a short read sets eof. -/
def readDosHeader (file : Bytes) : Res Bytes := do
  throwIf (file.length < 64) .badDosHeader
  throwIf (rd 2 file 0 ≠ 0x5a4d) .badDosHeader
  .ok (slice file 0 64)

/-- One iteration of pe_checksum.cpp:52-55 (`& 0xffffffff` is `% 2^32`, `>> 32` is `/ 2^32`; the 64-bit
    sums cannot overflow). -/
def csStep (c dw : Nat) : Nat :=
  let c := c % 4294967296 + dw + c / 4294967296
  if c > 4294967296 then c % 4294967296 + c / 4294967296 else c

/-- Loop of pe_checksum.cpp:41-55: `i` is the file position, the list holds the bytes still to be
    read; a partial read at the end of the file leaves the high bytes of `dw` zero. -/
def csLoop (pos : Int) (i : Nat) (bs : Bytes) (c : Nat) : Nat :=
  if h : bs = [] then c
  else
    let dw := fromLE (bs.take 4)
    let c := if (i : Int) = pos then c else csStep c dw
    csLoop pos (i + 4) (bs.drop 4) c
termination_by bs.length
decreasing_by
  have := List.length_pos_iff.mpr h
  simp; omega

/-- pe_checksum.cpp:59-60. -/
def csFinish (c : Nat) : Nat :=
  let c := c % 65536 + c / 65536
  let c := c + c / 65536
  c % 65536

/-- pe_checksum.cpp:10-81 `calculate_checksum` of a stream positioned at its beginning that contains
    `file`. 88 = sizeof(image_file_header) + sizeof(uint32_t) + 64. -/
def calculateChecksum (file : Bytes) : Res Nat := do
  let hdr ← readDosHeader file
  let pos : Int := int32 (rd 4 hdr 60) + 88
  .ok (w32 (csFinish (csLoop pos 0 file 0) + w32 file.length))

end PE
