/-
Model of the .NET header: /repo/src/pe_lib/pe_dotnet.cpp
-/
import Verif.Model.Header
import Verif.Model.Rva

namespace PE

/-- pe_structures.h:872-902 `image_cor20_header` (packed, 72 bytes); directories are (address, size). `basic_dotnet_info`
    (pe_dotnet.h) holds one, zero at first (pe_dotnet.cpp:9-12); its getters (pe_dotnet.cpp:20-151) return the fields. -/
structure CorHdr where
  cb : Nat := 0
  major : Nat := 0
  minor : Nat := 0
  metaData : Nat × Nat := (0, 0)
  flags : Nat := 0
  entry : Nat := 0
  resources : Nat × Nat := (0, 0)
  strongName : Nat × Nat := (0, 0)
  codeManager : Nat × Nat := (0, 0)
  vtableFixups : Nat × Nat := (0, 0)
  jumps : Nat × Nat := (0, 0)
  native : Nat × Nat := (0, 0)
  deriving DecidableEq, Repr

/-- The directory (address, size) at offset `o`. -/
def rdDir (b : Bytes) (o : Nat) : Nat × Nat := (rd 4 b o, rd 4 b (o + 4))

/-- The structure in memory, field by field (pe_structures.h:872-902). -/
def CorHdr.ofBytes (b : Bytes) : CorHdr :=
  { cb := rd 4 b 0, major := rd 2 b 4, minor := rd 2 b 6, metaData := rdDir b 8, flags := rd 4 b 16, entry := rd 4 b 20,
    resources := rdDir b 24, strongName := rdDir b 32, codeManager := rdDir b 40, vtableFixups := rdDir b 48,
    jumps := rdDir b 56, native := rdDir b 64 }

/-- pe_dotnet.cpp:50-53 `is_native_entry_point`. -/
def CorHdr.nativeEntry (h : CorHdr) : Bool := h.flags &&& 0x10 != 0
/-- pe_dotnet.cpp:56-59 `is_32bit_required`. -/
def CorHdr.bits32 (h : CorHdr) : Bool := h.flags &&& 0x2 != 0
/-- pe_dotnet.cpp:62-65 `is_il_library`. -/
def CorHdr.ilLibrary (h : CorHdr) : Bool := h.flags &&& 0x4 != 0
/-- pe_dotnet.cpp:68-71 `is_il_only`. -/
def CorHdr.ilOnly (h : CorHdr) : Bool := h.flags &&& 0x1 != 0

/-- pe_dotnet.cpp:156-164 `get_basic_dotnet_info` (`is_dotnet`: pe_base.cpp:603-606). -/
def Image.getDotNet (p : Image) : Res CorHdr := do
  let has ← p.hasDir dirComDescriptor
  throwIf (has = false) .imageDoesNotHaveManagedCode
  let rva ← p.nt.getDirRva dirComDescriptor
  let b ← p.readT 72 rva .virt true
  .ok (CorHdr.ofBytes b)

end PE
