/-
What the PE checksum is supposed to be (independent of the code).
-/
import Verif.Model.Basic
namespace PE

/-- Sum of the little-endian 16-bit words of a byte string (zero padded at the end). -/
def wordSum : Bytes → Nat
  | [] => 0
  | [a] => a.toNat
  | a :: b :: t => a.toNat + 256 * b.toNat + wordSum t

/-- The byte string with the (up to) 4 bytes at `pos` replaced by zeros. -/
def zeroField (b : Bytes) (pos : Nat) : Bytes :=
  b.take pos ++ List.replicate (min 4 (b.length - pos)) 0 ++ b.drop (pos + 4)

end PE
