/-
Model of /repo/src/pe_lib/pe_section.{h,cpp}
-/
import Verif.Model.Utils
namespace PE

/-- `pe_win::image_section_header` (pe_structures.h, 40 bytes packed) together with the section's
    raw data: the abstract state of class `section` (pe_section.h). New sections are zero (pe_section.cpp:11-15). The
    fields are read and written by pe_section.cpp:167-206, 234-265. -/
structure Sec where
  name    : Bytes := zeros 8   -- Name[8]
  vsize   : Nat := 0           -- Misc.VirtualSize
  va      : Nat := 0           -- VirtualAddress
  rawSize : Nat := 0           -- SizeOfRawData
  rawPtr  : Nat := 0           -- PointerToRawData
  relPtr  : Nat := 0           -- PointerToRelocations
  linePtr : Nat := 0           -- PointerToLinenumbers
  nReloc  : Nat := 0           -- NumberOfRelocations
  nLine   : Nat := 0           -- NumberOfLinenumbers
  chars   : Nat := 0           -- Characteristics
  data    : Bytes := []        -- raw_data_ (in the unmapped state)
  deriving DecidableEq, Repr

/-- pe_section.cpp:18-22 `set_name`: `memset` the array, copy at most 8 bytes. -/
def Sec.setName (s : Sec) (n : Bytes) : Sec :=
  { s with name := n.take (min n.length 8) ++ zeros (8 - min n.length 8) }

/-- pe_section.cpp:25-30 `get_name`: the C string in a 9-byte zero terminated copy of the array. -/
def Sec.getName (s : Sec) : Bytes := cstr (s.name.take 8 ++ [0])

/-- pe_section.cpp:33-41 `set_flag`: `|= flag` or `&= ~flag`. -/
def Sec.setFlag (s : Sec) (flag : Nat) (b : Bool) : Sec :=
  if b then { s with chars := s.chars ||| flag }
  else { s with chars := s.chars &&& (4294967295 - flag) }

/-- The section attributes with a setter / getter pair. -/
inductive Attr | readable | writeable | executable | shared | discardable
  deriving DecidableEq, Repr

/-- pe_structures.h `image_scn_mem_*` masks used by pe_section.cpp:44-99. -/
def Attr.mask : Attr → Nat
  | .readable => 0x40000000
  | .writeable => 0x80000000
  | .executable => 0x20000000
  | .shared => 0x10000000
  | .discardable => 0x02000000

/-- pe_section.cpp:44-71 `readable(bool)` ... `discardable(bool)`. -/
def Sec.setAttr (s : Sec) (a : Attr) (b : Bool) : Sec := s.setFlag a.mask b

/-- pe_section.cpp:74-99 `readable() const` ... `discardable() const`. -/
def Sec.getAttr (s : Sec) (a : Attr) : Bool := (s.chars &&& a.mask) != 0

/-- pe_section.cpp:102-108 `empty` (for the abstract, unmapped state). -/
def Sec.empty (s : Sec) : Bool := s.data.isEmpty

/-- pe_section.cpp:209-222 `get_aligned_virtual_size`. -/
def Sec.alignedVS (s : Sec) (secAlign : Nat) : Nat :=
  if s.rawSize ≠ 0 ∧ s.vsize = 0 then alignUp s.rawSize secAlign
  else alignUp s.vsize secAlign

/-- pe_section.cpp:225-231 `get_aligned_raw_size`. -/
def Sec.alignedRS (s : Sec) (fileAlign : Nat) : Nat :=
  if s.rawSize ≠ 0 then alignUp s.rawSize fileAlign else 0

/-- Virtual view of the (unmapped) raw data: pe_section.cpp:132-154 as a pure function.
    `Verif.Props.Section` shows that the stateful code below refines this function. -/
def Sec.virt (s : Sec) (secAlign : Nat) : Bytes :=
  s.data ++ zeros (s.alignedVS secAlign - s.data.length)

/-- The concrete, stateful section object of pe_section.h: the header fields (with `hdr.data`
    unused), the buffer `raw_data_`, and `old_size_` (`none` is `size_t(-1)`; a buffer of that
    length cannot exist). -/
structure SecObj where
  hdr : Sec
  buf : Bytes
  oldSize : Option Nat
  deriving DecidableEq, Repr

/-- pe_section.cpp:146-154 `map_virtual`. -/
def SecObj.mapVirtual (o : SecObj) (secAlign : Nat) : SecObj :=
  if o.oldSize = none ∧ o.hdr.alignedVS secAlign ≠ 0 ∧ o.hdr.alignedVS secAlign > o.buf.length then
    { o with oldSize := some o.buf.length, buf := resize o.buf (o.hdr.alignedVS secAlign) }
  else o

/-- pe_section.cpp:157-164 `unmap_virtual`. -/
def SecObj.unmapVirtual (o : SecObj) : SecObj :=
  match o.oldSize with
  | none => o
  | some n => { o with buf := resize o.buf n, oldSize := none }

/-- pe_section.cpp:111-115, 125-129 `get_raw_data`: new object state and result. -/
def SecObj.getRawData (o : SecObj) : SecObj × Bytes := (o.unmapVirtual, o.unmapVirtual.buf)

/-- pe_section.cpp:132-143 `get_virtual_data`. -/
def SecObj.getVirtualData (o : SecObj) (secAlign : Nat) : SecObj × Bytes :=
  (o.mapVirtual secAlign, (o.mapVirtual secAlign).buf)

/-- pe_section.cpp:118-122 `set_raw_data`. -/
def SecObj.setRawData (o : SecObj) (d : Bytes) : SecObj := { o with oldSize := none, buf := d }

/-- pe_section.cpp:102-108 `empty` on the concrete state. -/
def SecObj.isEmpty (o : SecObj) : Bool :=
  match o.oldSize with
  | some n => n == 0
  | none => o.buf.isEmpty

/-- pe_section.cpp:246-265 setters of header fields that influence the virtual size. -/
def SecObj.setVirtualSize (o : SecObj) (v : Nat) : SecObj := { o with hdr := { o.hdr with vsize := v } }

end PE
