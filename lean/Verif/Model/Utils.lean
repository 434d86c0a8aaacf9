/-
Model of /repo/src/pe_lib/utils.h
-/
import Verif.Model.Basic
namespace PE

/-- utils.h:13-24 `is_null_terminated<char>`: some byte among the first `rawLength` is zero.
    The bytes must exist: reading beyond the buffer is undefined (stops at the first zero). -/
def isNullTerminated (b : Bytes) (rawLength : Nat) : Res Bool :=
  if hasNul (b.take rawLength) then .ok true
  else if rawLength ≤ b.length then .ok false
  else ubE .oobRead

/-- utils.h:27-32 `strip_nullbytes`: drop all trailing zero bytes. -/
def stripNullbytes (b : Bytes) : Bytes := (b.reverse.dropWhile (· == 0)).reverse

/-- utils.h:35-39 `is_power_of_2<uint32_t>`: `!(x & (x - 1))`. -/
def isPowerOf2 (x : Nat) : Bool := (x &&& sub32 x 1) == 0

/-- utils.h:42-46 `align_down<T>`: `x & ~(static_cast<T>(align) - 1)`;
    `W` is the number of values of `T` (2^16, 2^32 or 2^64). -/
def alignDownT (W x a : Nat) : Nat := x &&& (W - 1 - (a % W + (W - 1)) % W)

/-- utils.h:49-53 `align_up<T>`:
    `(x & static_cast<T>(align - 1)) ? align_down(x, align) + static_cast<T>(align) : x`,
    `align - 1` being computed in `uint32_t`, the result in `T`. -/
def alignUpT (W x a : Nat) : Nat :=
  if x &&& (sub32 a 1 % W) ≠ 0 then (alignDownT W x a + a % W) % W else x

/-- `align_down<uint32_t>`. -/
def alignDown (x a : Nat) : Nat := alignDownT 4294967296 x a
/-- `align_up<uint32_t>`. -/
def alignUp (x a : Nat) : Nat := alignUpT 4294967296 x a
/-- `align_up<uint16_t>`. -/
def alignUp16 (x a : Nat) : Nat := alignUpT 65536 x a
/-- `align_up<size_t>`. -/
def alignUp64 (x a : Nat) : Nat := alignUpT 18446744073709551616 x a

/-- utils.h:56-59 `is_sum_safe`: `a <= 0xFFFFFFFF - b`. -/
def isSumSafe (a b : Nat) : Bool := decide (a ≤ 4294967295 - b)

end PE
