/-
A client of the library: an image rebuilt from its parts, /repo/src/samples/full_pe_rebuilder/main.cpp
-/
import Verif.Model.Accessors
import Verif.Model.Edit
import Verif.Spec.Layout
namespace PE

/-- The header values that a client copies with the getters and setters. samples/full_pe_rebuilder/main.cpp:40-50 copies the
    characteristics, the sizes of stack and heap, the image base, the entry point and the subsystem; here the other values with a
    setter that do not depend on the layout of the file are copied, too. -/
def copyAccs : List Acc :=
  [.machine, .timeStamp, .chars, .dllChars, .heapCommit, .heapReserve, .stackCommit, .stackReserve, .imageBase, .entry, .baseOfCode,
   .majorOs, .minorOs, .majorSubsys, .minorSubsys, .numRva, .subsystem]

/-- samples/full_pe_rebuilder/main.cpp:40-50: `new_image->set_x(image.get_x())`. -/
def Image.copyHeaders (c p : Image) : Image := copyAccs.foldl (fun c a => c.setAcc a (p.nt.getAcc a)) c

/-- samples/full_pe_rebuilder/main.cpp:53-57: the directory entries from number `i` on, `n` of them. -/
def Image.copyDirs (c p : Image) (i : Nat) : Nat → Res Image
  | 0 => .ok c
  | n + 1 => do
    let rva ← p.nt.getDirRva i
    let h ← c.nt.setDirRva i rva
    let size ← p.nt.getDirSize i
    let h ← h.setDirSize i size
    ({ c with nt := h } : Image).copyDirs p (i + 1) n

/-- samples/full_pe_rebuilder/main.cpp:60-64: `set_section_virtual_size(add_section(s), s.get_virtual_size())` for every section. -/
def Image.copySecs (c : Image) : List Sec → Res Image
  | [] => .ok c
  | s :: l => do
    let c ← c.addSection s
    let c ← c.setSectionVirtualSize (c.secs.length - 1) s.vsize
    c.copySecs l

/-- samples/full_pe_rebuilder/main.cpp:35-64: a new image of the same kind and section alignment; the header values; the file
    alignment; the directories; the sections. -/
def Image.copied (p : Image) : Res Image := do
  let c := createImage p.kind p.nt.secAlign false 3
  let c := c.copyHeaders p
  let c ← c.setFileAlignment p.nt.fileAlign
  let c ← c.copyDirs p 0 p.nt.numRva
  c.copySecs p.secs

/-- A section whose raw size is its data, rounded up to the file alignment. -/
def Sec.fitted (f : Nat) (s : Sec) : Sec := { s with rawSize := ceilTo s.data.length f }

end PE
