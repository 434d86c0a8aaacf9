/-
Reading C strings out of buffers.
-/
import Verif.Model.Utils

namespace PE

/-- `std::string(&b[off])`: the bytes up to the first zero byte; undefined if there is none in the buffer. -/
def readCStr (b : Bytes) (off : Nat) : Res Bytes :=
  if hasNul (b.drop off) then .ok (cstr (b.drop off)) else ubE .oobRead

/-- The pattern `off >= len || !is_null_terminated(&b[off], len - off)` → throw, then `std::string(&b[off])`
    (e.g. pe_bound_import.cpp:142-149). -/
def checkedCStr (b : Bytes) (len off : Nat) (e : Err) : Res Bytes := do
  throwIf (off ≥ len) e
  let t ← isNullTerminated (b.drop off) (len - off)
  throwIf (t = false) e
  readCStr b off

end PE
