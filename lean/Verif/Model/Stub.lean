/-
Model of the stub overlay functions of /repo/src/pe_lib/pe_base.cpp: the bytes between the DOS header and the NT
headers (`rich_overlay_`).
-/
import Verif.Model.Load
import Verif.Model.Rich

namespace PE

/-- pe_base.cpp:110-119 `get_dos_header` (both overloads). Simplification: the DOS header is the 60 bytes before
    `e_lfanew`. -/
def Image.getDosHeader (p : Image) : Bytes := p.dos

/-- pe_base.cpp:122-125 `get_pe_header_start`. -/
def Image.peHeaderStart (p : Image) : Nat := p.lfanew

/-- pe_base.cpp:128-131 `strip_stub_overlay`. -/
def Image.stripStub (p : Image) : Image := { p with stub := [] }

/-- pe_base.cpp:134-138 `fill_stub_overlay`. -/
def Image.fillStub (p : Image) (c : UInt8) : Image :=
  if p.stub.length ≠ 0 then { p with stub := List.replicate p.stub.length c } else p

/-- pe_base.cpp:141-144 `set_stub_overlay`. -/
def Image.setStub (p : Image) (data : Bytes) : Image := { p with stub := data }

/-- pe_base.cpp:147-150 `get_stub_overlay`. -/
def Image.getStub (p : Image) : Bytes := p.stub

end PE
