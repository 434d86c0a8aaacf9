/-
Reading zero terminated strings of an image by address.
-/
import Verif.Model.CStr
import Verif.Model.Rva

namespace PE

/-- pe_exports.cpp:284-294, 369-382, 388-398, pe_imports.cpp:290-299, 356-365: a string at `rva` with at least two available
    bytes, checked for its terminator. -/
def Image.strAt (p : Image) (e : Err) (rva : Nat) : Res Bytes := do
  let len ← p.dataLenFrom rva rva .virt true
  throwIf (len < 2) e
  let (b, o) ← p.ptrFromRva rva .virt true
  let t ← isNullTerminated (b.drop o) len
  throwIf (t = false) e
  readCStr b o

end PE
