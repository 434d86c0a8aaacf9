/-
Model of /repo/src/pe_lib/pe_relocations.cpp
-/
import Verif.Model.Edit
namespace PE

/-- `relocation_entry` (pe_relocations.h): 16-bit relative rva and type. -/
structure RelocEntry where
  rva : Nat
  type : Nat
  deriving DecidableEq, Repr

/-- `relocation_table` (pe_relocations.h): page rva and its entries. -/
structure RelocTable where
  rva : Nat
  relocs : List RelocEntry
  deriving DecidableEq, Repr

/-- pe_relocations.cpp:16-18, 56-60: constructor from an item and `set_item`. -/
def RelocEntry.ofItem (item : Nat) : RelocEntry :=
  { rva := item &&& ((1 <<< 12) - 1), type := item >>> 12 }

/-- pe_relocations.cpp:50-53 `get_item`: `rva_ | (type_ << 12)` converted to `uint16_t`. -/
def RelocEntry.item (e : RelocEntry) : Nat := w16 (e.rva ||| (e.type <<< 12))

/-- pe_relocations.cpp:140-145, inner loop over the items of the block at `pos` of `size` bytes, from offset `i`.
    Simplification: `i` does not wrap; a wrap needs `size` = 2^32 - 1, excluded by the preceding
    `is_sum_safe(pos, size)` check for any nonzero `pos`, and the directory rva is nonzero. -/
def Image.relocEntries (p : Image) (listAbs : Bool) (pos size i : Nat) : Res (List RelocEntry) :=
  if i < size then do
    let item ← p.readInt 2 (w32 (pos + i)) .virt true
    let rest ← p.relocEntries listAbs pos size (i + 2)
    let e := RelocEntry.ofItem item
    if listAbs ∨ e.type ≠ 0 then .ok (e :: rest) else .ok rest
  else .ok []
termination_by size - i

/-- pe_relocations.cpp:129-160, the block loop. `bRva`, `bSize`: the current block header, at `pos`.
    The recursion is on `current_pos`, which grows towards 2^32. -/
def Image.relocBlocks (p : Image) (listAbs : Bool) (relocSize : Nat) (pos bRva bSize readSize : Nat) :
    Res (List RelocTable) :=
  if bSize ≠ 0 ∧ readSize < relocSize then
    if _hs : isSumSafe pos bSize = false then throwE .incorrectRelocationDirectory
    else do
      let es ← p.relocEntries listAbs pos bSize 8
      let pos' := pos + bSize
      let readSize' := w32 (readSize + bSize)
      if readSize' ≥ relocSize then .ok [⟨bRva, es⟩]
      else do
        let hdr ← p.readT 8 pos' .virt true
        let rest ← p.relocBlocks listAbs relocSize pos' (rd 4 hdr 0) (rd 4 hdr 4) readSize'
        .ok (⟨bRva, es⟩ :: rest)
  else .ok []
termination_by 4294967296 - pos
decreasing_by
  simp only [isSumSafe, decide_eq_false_iff_not] at _hs
  omega

/-- pe_relocations.cpp:104-163 `get_relocations`. -/
def Image.getRelocations (p : Image) (listAbs : Bool := false) : Res (List RelocTable) := do
  if ← p.hasReloc then
    let dirRva ← p.nt.getDirRva dirBaseReloc
    let len ← p.dataLenFrom dirRva dirRva .virt true
    throwIf (len < 8) .incorrectRelocationDirectory
    let hdr ← p.readT 8 dirRva .virt true
    throwIf (rd 4 hdr 4 % 2 ≠ 0) .incorrectRelocationDirectory
    let relocSize ← p.nt.getDirSize dirBaseReloc
    p.relocBlocks listAbs relocSize dirRva (rd 4 hdr 0) (rd 4 hdr 4) 0
  else .ok []

/-- pe_relocations.cpp:185-191: the loop adding up the needed size. -/
def relocNeeded (start delta : Nat) : List RelocTable → Nat → Nat
  | [], needed => needed
  | t :: ts, needed =>
    let n := w32 (needed + w32 (t.relocs.length * 2 + 8))
    let n := if sub32 (w32 (start + n)) delta % 4 ≠ 0 then w32 (n + 2) else n
    relocNeeded start delta ts n

/-- pe_relocations.cpp:219-225: writing the items of a table. -/
def relocWriteEntries (d : Bytes) (pos : Nat) : List RelocEntry → Res (Bytes × Nat)
  | [] => .ok (d, pos)
  | e :: es => do
    let d ← writeAt d pos (leBytes 2 e.item)
    relocWriteEntries d (w32 (pos + 2)) es

/-- pe_relocations.cpp:205-232: writing the tables. -/
def relocWriteTables (d : Bytes) (pos : Nat) : List RelocTable → Res (Bytes × Nat)
  | [] => .ok (d, pos)
  | t :: ts => do
    let size := w32 (8 + 2 * t.relocs.length)
    let size := if (t.relocs.length * 2) % 4 ≠ 0 then w32 (size + 2) else size
    let d ← writeAt d pos (leBytes 4 t.rva ++ leBytes 4 size)
    let (d, pos) ← relocWriteEntries d (w32 (pos + 8)) t.relocs
    if pos % 4 ≠ 0 then do
      let d ← writeAt d pos (zeros 2)
      relocWriteTables d (w32 (pos + 2)) ts
    else relocWriteTables d pos ts

/-- pe_relocations.cpp:171-250 `rebuild_relocations` into the section with position `i`:
    (new image, returned directory (rva, size)). The state left behind by a throwing call is not modelled. -/
def Image.rebuildRelocations (p : Image) (tables : List RelocTable) (i off : Nat) (save strip : Bool) :
    Res (Image × (Nat × Nat)) := do
  match p.secs[i]? with
  | none => throwE .sectionIsNotAttached
  | some s =>
    let start := alignUp off 4
    let delta := sub32 start off
    let needed := relocNeeded start delta tables delta
    throwIf (i + 1 ≠ p.secs.length ∧
      (s.empty = true ∨ alignUp s.rawSize p.nt.fileAlign < w32 (needed + start))) .insufficientSpace
    let d := if s.data.length < w32 (needed + start) then
      resize s.data (alignUp (w32 (needed + start)) p.nt.fileAlign) else s.data
    let (d, _) ← relocWriteTables d start tables
    let dir := (s.rvaFromOffset start, sub32 needed delta)
    let p ← ({ p with secs := p.secs.set i { s with data := d } } : Image).recalculateSectionSizes i strip
    if save then do
      let nt ← p.nt.setDirRva dirBaseReloc dir.1
      let nt ← nt.setDirSize dirBaseReloc dir.2
      let nt := nt.clearCharFlags 0x1
      .ok ({ p with nt := { nt with dllChars := nt.dllChars ||| 0x40 } }, dir)
    else .ok (p, dir)

/-- pe_relocations.cpp:285-296: one relocated word. `delta` is `base_rel`. -/
def Image.rebaseOne (p : Image) (delta rva : Nat) : Res Image := do
  let v ← p.readT p.kind.ptr rva .raw true
  let l ← p.mutPtrFromRva rva true
  p.writeLoc l (leBytes p.kind.ptr (p.kind.wrap (fromLE v + delta)))

/-- pe_relocations.cpp:285-296: the entries of one table. -/
def Image.rebaseEntries (p : Image) (delta baseRva : Nat) : List RelocEntry → Res Image
  | [] => .ok p
  | e :: es =>
    if e.type = 0 then p.rebaseEntries delta baseRva es
    else do
      let p ← p.rebaseOne delta (w32 (baseRva + e.rva))
      p.rebaseEntries delta baseRva es

/-- pe_relocations.cpp:278-297: all tables. -/
def Image.rebaseTables (p : Image) (delta : Nat) : List RelocTable → Res Image
  | [] => .ok p
  | t :: ts => do
    let p ← p.rebaseEntries delta t.rva t.relocs
    p.rebaseTables delta ts

/-- pe_relocations.cpp:253-301 `rebase_image`: `base_rel = (BaseSize)((int64_t)new_base - image_base)`. -/
def Image.rebase (p : Image) (tables : List RelocTable) (newBase : Nat) : Res Image := do
  let delta := p.kind.wrap (sub64 (w64 newBase) p.nt.imageBase)
  let p ← p.rebaseTables delta tables
  .ok (p.setImageBase64 newBase)

end PE
