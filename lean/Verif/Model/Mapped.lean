/-
Model of an image whose sections carry their mapping state (`mutable raw_data_`, `mutable old_size_`): the access
functions and the section editing functions of /repo/src/pe_lib/pe_base.{h,cpp} as operations that change this state.
-/
import Verif.Model.Accessors
import Verif.Model.Reloc
namespace PE

/-- The members of pe_base (pe_base.h:466-489) with `sections_` as a list of section objects. The list `img.secs` is not
    used. -/
structure MImage where
  img : Image
  objs : List SecObj
  deriving DecidableEq, Repr

/-- `datatype == section_data_raw ? s.get_raw_data() : s.get_virtual_data(get_section_alignment())`. -/
def SecObj.view (o : SecObj) (t : DataType) (secAlign : Nat) : SecObj × Bytes :=
  match t with
  | .raw => o.getRawData
  | .virt => o.getVirtualData secAlign

/-- `datatype == section_data_raw ? s.get_raw_data().length() : s.get_aligned_virtual_size(get_section_alignment())`
    (pe_base.cpp:653, 680, 708): only the raw length goes through the buffer. -/
def SecObj.viewLen (o : SecObj) (t : DataType) (secAlign : Nat) : SecObj × Nat :=
  match t with
  | .raw => (o.getRawData.1, o.getRawData.2.length)
  | .virt => (o, o.hdr.alignedVS secAlign)

/-- pe_base.cpp:293-320 `section_from_rva`: the position of the section, or an exception. -/
def MImage.idxFromRva (m : MImage) (rva : Nat) : Res Nat :=
  match m.objs.findIdx? (fun o => o.hdr.containsRva m.img.nt.secAlign rva) with
  | some i => .ok i
  | none => throwE .noSectionFound

/-- Run `f` on the section object with position `i`, storing the new state of the object. -/
def MImage.onObj {α : Type} (m : MImage) (i : Nat) (f : SecObj → SecObj × Res α) : MImage × Res α :=
  match m.objs[i]? with
  | none => (m, ubE .badIter)
  | some o => ({ m with objs := m.objs.set i (f o).1 }, (f o).2)

/-- Run `f` on the section object that contains `rva`. -/
def MImage.onRva {α : Type} (m : MImage) (rva : Nat) (f : SecObj → SecObj × Res α) : MImage × Res α :=
  match m.idxFromRva rva with
  | .error e => (m, .error e)
  | .ok i => m.onObj i f

/-- Section part of pe_base.h:397-400: choose the view, check its size, read. -/
def SecObj.readT (o : SecObj) (n rva : Nat) (t : DataType) (a : Nat) : SecObj × Res Bytes :=
  ((o.view t a).1,
    if (o.view t a).2.length < sub32 rva o.hdr.va + n then throwE .rvaNotExists
    else readN (o.view t a).2 (sub32 rva o.hdr.va) n)

/-- pe_base.h:387-401 `section_data_from_rva<T>(rva, type, headers)` with `sizeof(T) = n`. -/
def MImage.readT (m : MImage) (n rva : Nat) (t : DataType) (hdrs : Bool) : MImage × Res Bytes :=
  if hdrs ∧ isSumSafe rva n ∧ rva + n < m.img.hdrData.length then (m, readN m.img.hdrData rva n)
  else m.onRva rva (fun o => o.readT n rva t m.img.nt.secAlign)

/-- pe_base.cpp:646-654 `section_data_length_from_rva(rva, type, headers)`. -/
def MImage.dataLenTotal (m : MImage) (rva : Nat) (t : DataType) (hdrs : Bool) : MImage × Res Nat :=
  if hdrs ∧ rva < m.img.hdrData.length then (m, .ok (w32 m.img.hdrData.length))
  else m.onRva rva (fun o =>
    ((o.viewLen t m.img.nt.secAlign).1, .ok (w32 (o.viewLen t m.img.nt.secAlign).2)))

/-- pe_base.cpp:669-687 `section_data_length_from_rva(rva, rva_inside, type, headers)`. -/
def MImage.dataLenFrom (m : MImage) (rva rvaInside : Nat) (t : DataType) (hdrs : Bool) : MImage × Res Nat :=
  if hdrs ∧ rva < m.img.hdrData.length ∧ rvaInside < m.img.hdrData.length then
    (m, .ok (w32 (m.img.hdrData.length - rvaInside)))
  else m.onRva rva (fun o =>
    if rvaInside < o.hdr.va then (o, throwE .rvaNotExists)
    else ((o.viewLen t m.img.nt.secAlign).1,
      .ok (w32 ((o.viewLen t m.img.nt.secAlign).2 + o.hdr.va - rvaInside))))

/-- pe_base.cpp:748-756 `section_data_from_rva(rva, type, headers) const`. The pointer is modelled as a snapshot
    (buffer, offset): it must be used before the next call that maps or unmaps the section, as all callers in the
    library do. -/
def MImage.ptrFromRva (m : MImage) (rva : Nat) (t : DataType) (hdrs : Bool) : MImage × Res (Bytes × Nat) :=
  if hdrs ∧ rva < m.img.hdrData.length then (m, .ok (m.img.hdrData, rva))
  else m.onRva rva (fun o => ((o.view t m.img.nt.secAlign).1, .ok ((o.view t m.img.nt.secAlign).2, rva - o.hdr.va)))

/-- pe_base.cpp:702-718 `section_data_length_from_rva(s, rva_inside, type)` for the section with position `i`. -/
def MImage.dataLenSec (m : MImage) (i rvaInside : Nat) (t : DataType) : MImage × Res Nat :=
  m.onObj i (fun o =>
    if o.hdr.containsRva m.img.nt.secAlign rvaInside then
      let len := sub32 (w32 (w32 (o.viewLen t m.img.nt.secAlign).2 + o.hdr.va)) rvaInside
      ((o.viewLen t m.img.nt.secAlign).1, .ok (if len ≥ 2147483648 then 0 else len))
    else (o, throwE .rvaNotExists))

/-- pe_base.h:369-383 `section_data_from_rva<T>(s, rva, type)` for the section with position `i`. -/
def MImage.readTSec (m : MImage) (n i rva : Nat) (t : DataType) : MImage × Res Bytes :=
  m.onObj i (fun o =>
    if o.hdr.containsRva m.img.nt.secAlign rva ∧ isSumSafe rva n then o.readT n rva t m.img.nt.secAlign
    else (o, throwE .rvaNotExists))

/-- pe_base.cpp:636-643 `section_data_from_rva(const section&, rva, type)` for the section with position `i`. -/
def MImage.ptrFromRvaSec (m : MImage) (i rva : Nat) (t : DataType) : MImage × Res (Bytes × Nat) :=
  m.onObj i (fun o =>
    if o.hdr.containsRva m.img.nt.secAlign rva then
      ((o.view t m.img.nt.secAlign).1, .ok ((o.view t m.img.nt.secAlign).2, rva - o.hdr.va))
    else (o, throwE .rvaNotExists))

/-- The calls that look at an image. `bare`: everything that does not go through section contents (headers, section
    headers, directories). `view`: `get_raw_data` or `get_virtual_data` of a section. `empty`: `section::empty`. -/
inductive Ask where
  | bare
  | total (rva : Nat) (t : DataType) (hdrs : Bool)
  | from (rva rvaInside : Nat) (t : DataType) (hdrs : Bool)
  | read (n rva : Nat) (t : DataType) (hdrs : Bool)
  | ptr (rva : Nat) (t : DataType) (hdrs : Bool)
  | lenIn (i rvaInside : Nat) (t : DataType)
  | readIn (n i rva : Nat) (t : DataType)
  | ptrIn (i rva : Nat) (t : DataType)
  | view (i : Nat) (t : DataType)
  | empty (i : Nat)
  deriving DecidableEq, Repr

/-- Types of the answers. -/
def Ask.Ans : Ask → Type
  | .bare => Image
  | .total .. | .from .. | .lenIn .. => Res Nat
  | .read .. | .readIn .. | .view .. => Res Bytes
  | .ptr .. | .ptrIn .. => Res (Bytes × Nat)
  | .empty _ => Res Bool

/-- A section without its contents. -/
def Sec.bare (s : Sec) : Sec := { s with data := [] }

/-- Perform a call: new state and answer (pe_base.cpp:621-756, pe_base.h:369-401, pe_section.cpp:102-143). -/
def MImage.perform (m : MImage) : (q : Ask) → MImage × q.Ans
  | .bare => (m, { m.img with secs := m.objs.map (fun o => o.hdr.bare) })
  | .total rva t h => m.dataLenTotal rva t h
  | .from rva r t h => m.dataLenFrom rva r t h
  | .read n rva t h => m.readT n rva t h
  | .ptr rva t h => m.ptrFromRva rva t h
  | .lenIn i r t => m.dataLenSec i r t
  | .readIn n i rva t => m.readTSec n i rva t
  | .ptrIn i rva t => m.ptrFromRvaSec i rva t
  | .view i t => m.onObj i (fun o => ((o.view t m.img.nt.secAlign).1, .ok (o.view t m.img.nt.secAlign).2))
  | .empty i => m.onObj i (fun o => (o, .ok o.isEmpty))

/-! ### Editing -/

/-- pe_base.cpp:391-398 `update_image_size`. -/
def MImage.updateImageSize (m : MImage) : MImage :=
  { m with img := { m.img with nt := { m.img.nt with sizeImage :=
      match m.objs.getLast? with
      | some o => w32 (o.hdr.va + o.hdr.alignedVS m.img.nt.secAlign)
      | none => m.img.nt.sizeHeaders } } }

/-- pe_base.cpp:335-360 `set_section_virtual_size` for the attached section with position `i`. -/
def MImage.setSectionVirtualSize (m : MImage) (i vsize : Nat) : Res MImage :=
  match m.objs[i]? with
  | none => throwE .errorChangingSectionVirtualSize
  | some o =>
    if i + 1 ≠ m.objs.length then throwE .errorChangingSectionVirtualSize
    else if vsize = 0 then
      if o.isEmpty then throwE .errorChangingSectionVirtualSize
      else .ok ({ m with objs := m.objs.set i (o.setVirtualSize o.hdr.rawSize) } : MImage).updateImageSize
    else .ok ({ m with objs := m.objs.set i (o.setVirtualSize vsize) } : MImage).updateImageSize

/-- pe_base.cpp:437-458 `prepare_section`: the raw length is taken through `get_raw_data`. -/
def SecObj.prepare (fileAlign secAlign : Nat) (o : SecObj) : Res SecObj := do
  let r := o.getRawData
  let rs := w32 (alignUp64 r.2.length fileAlign)
  throwIf (rs = 0 ∧ r.1.hdr.vsize = 0) .zeroSectionSizes
  .ok { r.1 with hdr := { r.1.hdr with
    rawSize := rs
    vsize := if r.1.hdr.vsize = 0 then rs else max (alignUp rs fileAlign) (alignUp r.1.hdr.vsize secAlign) } }

/-- pe_base.cpp:1570-1587: `raw_data` is a reference to the (unmapped) buffer. -/
def SecObj.strip (o : SecObj) : SecObj :=
  let r := o.getRawData
  let d := (stripKeepOne r.2.reverse).reverse
  { r.1 with buf := d, hdr := { r.1.hdr with rawSize := w32 d.length } }

/-- pe_base.cpp:1564-1592 `recalculate_section_sizes` for the attached section with position `i`. -/
def MImage.recalculateSectionSizes (m : MImage) (i : Nat) (autoStrip : Bool) : Res MImage :=
  match m.objs[i]? with
  | none => ubE .badIter
  | some o =>
    match o.prepare m.img.nt.fileAlign m.img.nt.secAlign with
    | .error e => .error e
    | .ok o =>
      let o := if autoStrip ∧ i + 1 ≠ m.objs.length then o.strip else o
      let m := { m with objs := m.objs.set i o }
      if alignUp o.hdr.vsize m.img.nt.secAlign < alignUp o.hdr.rawSize m.img.nt.fileAlign then
        m.setSectionVirtualSize i (alignUp o.hdr.rawSize m.img.nt.secAlign)
      else .ok m

/-- pe_base.cpp:192-225 `realign_section`: every access goes through `get_raw_data`. -/
def MImage.realignSection (m : MImage) (i : Nat) : Res MImage :=
  match m.objs[i]? with
  | none => throwE .sectionNotFound
  | some o =>
    let r := o.getRawData
    if i + 1 = m.objs.length then
      let d := stripNullbytes r.2
      .ok { m with objs := m.objs.set i { r.1 with buf := d, hdr := { r.1.hdr with rawSize := w32 d.length } } }
    else
      let n := r.1.hdr.alignedRS m.img.nt.fileAlign
      .ok { m with objs := m.objs.set i { r.1 with buf := resize r.2 n, hdr := { r.1.hdr with rawSize := n } } }

/-- pe_base.cpp:365-388 `expand_section` for the attached section with position `i`. -/
def MImage.expandSection (m : MImage) (i neededRva neededSize : Nat) (e : ExpandType) : Res (MImage × Bool) :=
  match m.objs[i]? with
  | none => throwE .errorExpandingSection
  | some o =>
    if i + 1 ≠ m.objs.length then throwE .errorExpandingSection
    else match e with
      | .raw =>
        match m.dataLenSec i neededRva .raw with
        | (_, .error x) => .error x
        | (m, .ok len) =>
          if len < neededSize then do
            let r := o.getRawData
            let o : SecObj := { r.1 with buf := resize r.2 (w32 (sub32 neededRva r.1.hdr.va + neededSize)) }
            let m ← ({ m with objs := m.objs.set i o } : MImage).recalculateSectionSizes i false
            .ok (m, true)
          else .ok (m, false)
      | .virt =>
        match m.dataLenSec i neededRva .virt with
        | (_, .error x) => .error x
        | (m, .ok len) =>
          if len < neededSize then do
            let m ← m.setSectionVirtualSize i (w32 (sub32 neededRva o.hdr.va + neededSize))
            .ok (m, true)
          else .ok (m, false)

/-- pe_base.cpp:461-496 `add_section`: the section is passed by value, its mapping state is copied with it. -/
def MImage.addSection (m : MImage) (o : SecObj) (autoupdate : Bool) : Res MImage :=
  if m.objs.length ≥ 96 then throwE .noMoreSectionsCanBeAdded
  else match o.prepare m.img.nt.fileAlign m.img.nt.secAlign with
  | .error e => .error e
  | .ok o =>
    let sa := m.img.nt.secAlign
    let va := match m.objs.getLast? with
      | some last => alignUp (w32 (last.hdr.va + last.hdr.alignedVS sa)) sa
      | none => if o.hdr.va = 0 then alignUp m.img.nt.sizeHeaders sa else alignUp o.hdr.va sa
    let o : SecObj := { o with hdr := { o.hdr with va := va } }
    let objs := match m.objs.getLast? with
      | some last =>
        if autoupdate then
          m.objs.dropLast ++ [{ last.getRawData.1 with hdr := { last.hdr with
            rawSize := w32 (alignUp64 last.getRawData.2.length m.img.nt.fileAlign) } }]
        else m.objs
      | none => m.objs
    let objs := objs ++ [o]
    .ok { m with objs := objs, img := { m.img with nt := { m.img.nt with
      numSections := w16 objs.length
      sizeImage := w32 (m.img.nt.sizeImage + o.hdr.alignedVS sa) } } }

/-- pe_base.cpp:733-745 `section_data_from_rva(rva, headers)` (non-const) followed by `memcpy(ptr, d, |d|)`. -/
def MImage.poke (m : MImage) (rva : Nat) (hdrs : Bool) (d : Bytes) : Res MImage :=
  if hdrs ∧ rva < m.img.hdrData.length then
    match writeAt m.img.hdrData rva d with
    | .error e => .error e
    | .ok h => .ok { m with img := { m.img with hdrData := h } }
  else match m.idxFromRva rva with
    | .error e => .error e
    | .ok i =>
      match m.objs[i]? with
      | none => ubE .badIter
      | some o =>
        let r := o.getRawData
        if r.2 = [] then throwE .sectionIsEmpty
        else if rva - r.1.hdr.va > r.2.length then ubE .oobIndex
        else match writeAt r.2 (rva - r.1.hdr.va) d with
          | .error e => .error e
          | .ok b => .ok { m with objs := m.objs.set i { r.1 with buf := b } }

/-- The calls that change an image. `header`: a header setter; `raw`: `section::set_raw_data`. -/
inductive Change where
  | header (a : Acc) (v : Nat)
  | raw (i : Nat) (d : Bytes)
  | poke (rva : Nat) (hdrs : Bool) (d : Bytes)
  | vsize (i v : Nat)
  | expand (i rva n : Nat) (e : ExpandType)
  | recalc (i : Nat) (strip : Bool)
  | realign (i : Nat)
  | add (o : SecObj) (autoupdate : Bool)
  deriving DecidableEq, Repr

/-- Perform a change (pe_base.cpp:192-225, 335-398, 437-496, 733-745, 1564-1592, pe_section.cpp:118-122). An exception
    ends the run: the state it leaves behind is not modelled. -/
def MImage.change (m : MImage) : Change → Res MImage
  | .header a v => .ok { m with img := m.img.setAcc a v }
  | .raw i d => match m.objs[i]? with
    | none => ubE .badIter
    | some o => .ok { m with objs := m.objs.set i (o.setRawData d) }
  | .poke rva h d => m.poke rva h d
  | .vsize i v => m.setSectionVirtualSize i v
  | .expand i rva n e => do
    let r ← m.expandSection i rva n e
    .ok r.1
  | .recalc i s => m.recalculateSectionSizes i s
  | .realign i => m.realignSection i
  | .add o u => m.addSection o u

/-- A client of the library: looks at the image and changes it, every step depending on the answers so far. -/
inductive Client (α : Type) where
  | done (a : α)
  | ask (q : Ask) (k : q.Ans → Client α)
  | change (c : Change) (k : Client α)

/-- Run a client on an image with mapping state. -/
def Client.run {α : Type} : Client α → MImage → Res (MImage × α)
  | .done a, m => .ok (m, a)
  | .ask q k, m => (k (m.perform q).2).run (m.perform q).1
  | .change c k, m => match m.change c with
    | .error e => .error e
    | .ok m => k.run m

/-! ### A reader as a client -/

/-- A call that can throw. -/
def Client.call {α : Type} (q : Ask) (f : q.Ans → Res α) : Client (Res α) := .ask q fun x => .done (f x)

/-- Sequencing of calls that can throw: an exception ends the reader. -/
def Client.bind {α β : Type} : Client (Res α) → (α → Client (Res β)) → Client (Res β)
  | .done (.ok a), f => f a
  | .done (.error e), _ => .done (.error e)
  | .ask q k, f => .ask q fun x => (k x).bind f
  | .change c k, f => .change c (k.bind f)

/-- pe_relocations.cpp:140-145, the loop over the items of a block, on an image with mapping state. -/
def relocEntriesC (listAbs : Bool) (pos size i : Nat) : Client (Res (List RelocEntry)) :=
  if i < size then
    (Client.call (.read 2 (w32 (pos + i)) .virt true) fun b => b).bind fun b =>
      (relocEntriesC listAbs pos size (i + 2)).bind fun rest =>
        let e := RelocEntry.ofItem (fromLE b)
        .done (if listAbs ∨ e.type ≠ 0 then .ok (e :: rest) else .ok rest)
  else .done (.ok [])
termination_by size - i

/-- pe_relocations.cpp:129-160, the block loop, on an image with mapping state. -/
def relocBlocksC (listAbs : Bool) (relocSize : Nat) (pos bRva bSize readSize : Nat) : Client (Res (List RelocTable)) :=
  if bSize ≠ 0 ∧ readSize < relocSize then
    if _hs : isSumSafe pos bSize = false then .done (throwE .incorrectRelocationDirectory)
    else
      (relocEntriesC listAbs pos bSize 8).bind fun es =>
        let pos' := pos + bSize
        let readSize' := w32 (readSize + bSize)
        if readSize' ≥ relocSize then .done (.ok [⟨bRva, es⟩])
        else
          (Client.call (.read 8 pos' .virt true) fun b => b).bind fun hdr =>
            (relocBlocksC listAbs relocSize pos' (rd 4 hdr 0) (rd 4 hdr 4) readSize').bind fun rest =>
              .done (.ok (⟨bRva, es⟩ :: rest))
  else .done (.ok [])
termination_by 4294967296 - pos
decreasing_by
  simp only [isSumSafe, decide_eq_false_iff_not] at _hs
  omega

/-- pe_relocations.cpp:104-163 `get_relocations`, on an image with mapping state. -/
def relocationsC (listAbs : Bool) : Client (Res (List RelocTable)) :=
  (Client.call .bare fun p => p.hasReloc).bind fun has =>
    if has then
      (Client.call .bare fun p => p.nt.getDirRva dirBaseReloc).bind fun dirRva =>
        (Client.call (.from dirRva dirRva .virt true) fun l => l).bind fun len =>
          if len < 8 then .done (throwE .incorrectRelocationDirectory)
          else (Client.call (.read 8 dirRva .virt true) fun b => b).bind fun hdr =>
            if rd 4 hdr 4 % 2 ≠ 0 then .done (throwE .incorrectRelocationDirectory)
            else (Client.call .bare fun p => p.nt.getDirSize dirBaseReloc).bind fun relocSize =>
              relocBlocksC listAbs relocSize dirRva (rd 4 hdr 0) (rd 4 hdr 4) 0
    else .done (.ok [])

end PE
