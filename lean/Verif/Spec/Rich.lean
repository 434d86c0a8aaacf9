/-
The layout of the linker's "Rich" header, independent of the code that reads it: words masked with a key, between
the (masked) word "DanS" and the (plain) word "Rich".
-/
import Verif.Model.Rich

namespace PE

/-- Fields within their widths: 16 bits each for number and version, 32 bits for the use count. -/
def RichRec.InRange (r : RichRec) : Prop := r.number < 65536 ∧ r.version < 65536 ∧ r.times < 4294967296

/-- The two words of a record before masking. -/
def RichRec.words (r : RichRec) : List Nat := [r.number * 65536 + r.version, r.times]

/-- 32-bit words, little endian. -/
def encWords (ws : List Nat) : Bytes := ws.flatMap (leBytes 4)

/-- The header from "DanS" up to but excluding "Rich": "DanS", three zero words and the records, all masked. -/
def richBody (key : Nat) (rs : List RichRec) : Bytes :=
  encWords (([0x536e6144, 0, 0, 0] ++ rs.flatMap RichRec.words).map (fun w => w ^^^ key))

/-- A stub overlay with a Rich header: bytes in front (the real mode program), the header, bytes behind. -/
def richStub (pre : Bytes) (key : Nat) (rs : List RichRec) (post : Bytes) : Bytes :=
  pre ++ (richBody key rs ++ (encWords [0x68636952, key] ++ post))

/-- No 32-bit word of `b` at a byte position below `n` equals `w`. -/
def NoWordBefore (b : Bytes) (n w : Nat) : Prop := ∀ i, i < n → rd 4 b i ≠ w

end PE
