/-
Model of section editing: /repo/src/pe_lib/pe_base.cpp
-/
import Verif.Model.Rva
namespace PE

/-- pe_base.cpp:234-248 `set_file_alignment` (`minimum_file_alignment` is 512, pe_base.h:516). -/
def Image.setFileAlignment (p : Image) (a : Nat) : Res Image := do
  throwIf (a < 512) .incorrectFileAlignment
  throwIf (isPowerOf2 a = false) .incorrectFileAlignment
  throwIf (a > p.nt.secAlign) .incorrectFileAlignment
  .ok { p with nt := { p.nt with fileAlign := a } }

/-- pe_base.cpp:391-398 `update_image_size`. -/
def Image.updateImageSize (p : Image) : Image :=
  match p.secs.getLast? with
  | some s => { p with nt := { p.nt with sizeImage := w32 (s.va + s.alignedVS p.nt.secAlign) } }
  | none => { p with nt := { p.nt with sizeImage := p.nt.sizeHeaders } }

/-- pe_base.cpp:335-360 `set_section_virtual_size` for the attached section with position `i`
    (sections are identified by their position, as the source does by address).
    An index outside of the list is the "unbound section" case of the source: its search does not
    find it, the bound sections are left alone; that case is not modelled. -/
def Image.setSectionVirtualSize (p : Image) (i vsize : Nat) : Res Image :=
  match p.secs[i]? with
  | none => throwE .errorChangingSectionVirtualSize
  | some s =>
    if i + 1 ≠ p.secs.length then throwE .errorChangingSectionVirtualSize
    else if vsize = 0 then
      if s.empty then throwE .errorChangingSectionVirtualSize
      else .ok ({ p with secs := p.secs.set i { s with vsize := s.rawSize } } : Image).updateImageSize
    else .ok ({ p with secs := p.secs.set i { s with vsize := vsize } } : Image).updateImageSize

/-- pe_base.cpp:437-458 `prepare_section`. `align_up` of the raw length is computed in `size_t` and
    truncated to 32 bits. -/
def prepareSection (fileAlign secAlign : Nat) (s : Sec) : Res Sec := do
  let s := { s with rawSize := w32 (alignUp64 s.data.length fileAlign) }
  throwIf (s.rawSize = 0 ∧ s.vsize = 0) .zeroSectionSizes
  if s.vsize = 0 then .ok { s with vsize := s.rawSize }
  else .ok { s with vsize := max (alignUp s.rawSize fileAlign) (alignUp s.vsize secAlign) }

/-- pe_base.cpp:461-496 `add_section` (`maximum_number_of_sections` is 0x60, pe_base.h:515). -/
def Image.addSection (p : Image) (s : Sec) (autoupdate : Bool := true) : Res Image := do
  throwIf (p.secs.length ≥ 96) .noMoreSectionsCanBeAdded
  let s ← prepareSection p.nt.fileAlign p.nt.secAlign s
  let sa := p.nt.secAlign
  let s : Sec := match p.secs.getLast? with
    | some last => { s with va := alignUp (w32 (last.va + last.alignedVS sa)) sa }
    | none => { s with va := if s.va = 0 then alignUp p.nt.sizeHeaders sa else alignUp s.va sa }
  let secs := match p.secs.getLast? with
    | some last =>
      if autoupdate then
        p.secs.dropLast ++
          [{ last with rawSize := w32 (alignUp64 last.data.length p.nt.fileAlign) }]
      else p.secs
    | none => p.secs
  let secs := secs ++ [s]
  .ok { p with
    secs := secs
    nt := { p.nt with
      numSections := w16 secs.length
      sizeImage := w32 (p.nt.sizeImage + s.alignedVS sa) } }

/-- Strip loop of pe_base.cpp:1572-1584: drop trailing zero bytes but keep at least one byte;
    argument is the reversed data. -/
def stripKeepOne : Bytes → Bytes
  | [] => []
  | [b] => [b]
  | b :: bs => if b = 0 then stripKeepOne bs else b :: bs

/-- pe_base.cpp:1564-1592 `recalculate_section_sizes` for the attached section with position `i`.
    Note the condition of the source: stripping happens when the section is *not* the last one. -/
def Image.recalculateSectionSizes (p : Image) (i : Nat) (autoStrip : Bool) : Res Image := do
  match p.secs[i]? with
  | none => ubE .badIter
  | some s =>
    let s ← prepareSection p.nt.fileAlign p.nt.secAlign s
    let s : Sec :=
      if autoStrip ∧ i + 1 ≠ p.secs.length then
        let d := (stripKeepOne s.data.reverse).reverse
        { s with data := d, rawSize := w32 d.length }
      else s
    let p := { p with secs := p.secs.set i s }
    if alignUp s.vsize p.nt.secAlign < alignUp s.rawSize p.nt.fileAlign then
      p.setSectionVirtualSize i (alignUp s.rawSize p.nt.secAlign)
    else .ok p

/-- pe_base.cpp:192-225 `realign_section`. -/
def Image.realignSection (p : Image) (i : Nat) : Res Image :=
  match p.secs[i]? with
  | none => throwE .sectionNotFound
  | some s =>
    if i + 1 = p.secs.length then
      let d := stripNullbytes s.data
      .ok { p with secs := p.secs.set i { s with data := d, rawSize := w32 d.length } }
    else
      let n := s.alignedRS p.nt.fileAlign
      .ok { p with secs := p.secs.set i { s with data := resize s.data n, rawSize := n } }

/-- Loop of pe_base.cpp:153-157 `realign_all_sections`, from position `i`, `n` sections left. -/
def Image.realignFrom (p : Image) (i : Nat) : Nat → Res Image
  | 0 => .ok p
  | n + 1 => do
    let p ← p.realignSection i
    p.realignFrom (i + 1) n

/-- pe_base.cpp:1556-1561 `realign_file`. -/
def Image.realignFile (p : Image) (a : Nat) : Res Image := do
  let p ← p.setFileAlignment a
  p.realignFrom 0 p.secs.length

/-- `expand_section_raw` / `expand_section_virtual`. -/
inductive ExpandType | raw | virt
  deriving DecidableEq, Repr

/-- pe_base.cpp:365-388 `expand_section` for the attached section with position `i`:
    (new image, returned bool). The raw resize length is computed in `uint32_t`. -/
def Image.expandSection (p : Image) (i neededRva neededSize : Nat) (e : ExpandType) :
    Res (Image × Bool) :=
  match p.secs[i]? with
  | none => throwE .errorExpandingSection
  | some s =>
    if i + 1 ≠ p.secs.length then throwE .errorExpandingSection
    else match e with
      | .raw => do
        let len ← p.dataLenSec s neededRva .raw
        if len < neededSize then
          let s := { s with data := resize s.data (w32 (sub32 neededRva s.va + neededSize)) }
          let p ← ({ p with secs := p.secs.set i s } : Image).recalculateSectionSizes i false
          .ok (p, true)
        else .ok (p, false)
      | .virt => do
        let len ← p.dataLenSec s neededRva .virt
        if len < neededSize then
          let p ← p.setSectionVirtualSize i (w32 (sub32 neededRva s.va + neededSize))
          .ok (p, true)
        else .ok (p, false)

end PE
