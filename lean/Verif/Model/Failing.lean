/-
Model of the functions that change an image with regard to exceptions: every statement that changes the image is a step,
so that the image which an exception leaves behind is known (/repo/src/pe_lib/pe_base.cpp, the rebuilders and
pe_relocations.cpp). The other models of these functions only say what happens when the function returns.
-/
import Verif.Model.Edit
import Verif.Model.Exports
import Verif.Model.BoundImport
import Verif.Model.Resources
import Verif.Model.LoadConfig
import Verif.Model.Reloc
import Verif.Model.Tls
import Verif.Model.Imports
import Verif.Model.Rebuild
namespace PE

/-- An operation on an image: its result or exception, and the image afterwards in both cases. -/
def IM (α : Type) : Type := Image → Res α × Image

/-- Sequencing: an exception ends the operation and keeps the image reached. -/
def IM.andThen {α β : Type} (m : IM α) (g : α → IM β) : IM β := fun p =>
  match m p with
  | (.ok a, q) => g a q
  | (.error e, q) => (.error e, q)

instance : Monad IM where
  pure a := fun p => (.ok a, p)
  bind := IM.andThen

/-- A computation that does not change the image. -/
def IM.lift {α : Type} (r : Res α) : IM α := fun p => (r, p)
/-- The current image. -/
def IM.image : IM Image := fun p => (.ok p, p)
/-- A change that cannot fail. -/
def IM.modify (f : Image → Image) : IM Unit := fun p => (.ok (), f p)
/-- The section with position `i` (C++ references to sections are positions here). -/
def IM.sec (i : Nat) : IM Sec := fun p =>
  match p.secs[i]? with
  | none => (ubE .badIter, p)
  | some s => (.ok s, p)
/-- Assignment to the section with position `i`. -/
def IM.setSec (i : Nat) (s : Sec) : IM Unit := IM.modify fun p => { p with secs := p.secs.set i s }
/-- A change of the raw data of the section with position `i`; `f` fails only by undefined behaviour. -/
def IM.onData (i : Nat) (f : Bytes → Res Bytes) : IM Unit := do
  let s ← IM.sec i
  let d ← IM.lift (f s.data)
  IM.setSec i { s with data := d }
/-- `try { m } catch(const pe_exception&) {}`. -/
def IM.quiet {α : Type} (m : IM α) : IM Unit := fun p =>
  match m p with
  | (.error (.ub u), q) => (ubE u, q)
  | (_, q) => (.ok (), q)

/-! ### Editing (pe_base.cpp) -/

/-- pe_base.cpp:234-248 `set_file_alignment`. -/
def setFileAlignmentM (a : Nat) : IM Unit := do
  IM.lift (throwIf (a < 512) .incorrectFileAlignment)
  IM.lift (throwIf (isPowerOf2 a = false) .incorrectFileAlignment)
  let p ← IM.image
  IM.lift (throwIf (a > p.nt.secAlign) .incorrectFileAlignment)
  IM.modify fun p => { p with nt := { p.nt with fileAlign := a } }

/-- pe_base.cpp:212-224: the end of `realign_section`. -/
def realignEndM (i : Nat) (s : Sec) (last : Bool) (fileAlign : Nat) : IM Unit :=
  if last then do
    IM.setSec i { s with rawSize := w32 (stripNullbytes s.data).length }
    IM.onData i (fun d => .ok (stripNullbytes d))
  else do
    IM.setSec i { s with rawSize := s.alignedRS fileAlign }
    IM.onData i (fun d => .ok (resize d (s.alignedRS fileAlign)))

/-- pe_base.cpp:192-225 `realign_section`. -/
def realignSectionM (i : Nat) : IM Unit := do
  let p ← IM.image
  IM.lift (throwIf (p.secs.length ≤ i) .sectionNotFound)
  let s ← IM.sec i
  realignEndM i s (decide (i + 1 = p.secs.length)) p.nt.fileAlign

/-- pe_base.cpp:153-157 `realign_all_sections` from position `i`, `n` sections left. -/
def realignFromM (i : Nat) : Nat → IM Unit
  | 0 => pure ()
  | n + 1 => do
    realignSectionM i
    realignFromM (i + 1) n

/-- pe_base.cpp:1556-1561 `realign_file`. -/
def realignFileM (a : Nat) : IM Unit := do
  setFileAlignmentM a
  let p ← IM.image
  realignFromM 0 p.secs.length

/-- pe_base.cpp:342-355: the new virtual size. -/
def newVsizeM (i : Nat) (s : Sec) (vsize : Nat) : IM Unit :=
  if vsize = 0 then do
    IM.lift (throwIf (s.empty = true) .errorChangingSectionVirtualSize)
    IM.setSec i { s with vsize := s.rawSize }
  else IM.setSec i { s with vsize := vsize }

/-- pe_base.cpp:335-360 `set_section_virtual_size` for the attached section with position `i`. -/
def setVirtualSizeM (i vsize : Nat) : IM Unit := do
  let p ← IM.image
  IM.lift (throwIf (i + 1 ≠ p.secs.length) .errorChangingSectionVirtualSize)
  let s ← IM.sec i
  newVsizeM i s vsize
  IM.modify Image.updateImageSize

/-- pe_base.cpp:437-458 `prepare_section` for the attached section with position `i`. -/
def prepareM (i : Nat) : IM Unit := do
  let p ← IM.image
  let s ← IM.sec i
  let raw := w32 (alignUp64 s.data.length p.nt.fileAlign)
  IM.setSec i { s with rawSize := raw }
  IM.lift (throwIf (raw = 0 ∧ s.vsize = 0) .zeroSectionSizes)
  let vsize := if s.vsize = 0 then raw else max (alignUp raw p.nt.fileAlign) (alignUp s.vsize p.nt.secAlign)
  IM.setSec i { s with rawSize := raw, vsize := vsize }

/-- pe_base.cpp:1570-1587: stripping (also of the last section's predecessors only, as the source does). -/
def stripM (i : Nat) (wanted : Bool) : IM Unit :=
  if wanted then do
    IM.onData i (fun d => .ok (stripKeepOne d.reverse).reverse)
    let s ← IM.sec i
    IM.setSec i { s with rawSize := w32 s.data.length }
  else pure ()

/-- pe_base.cpp:1589-1591: the virtual size is adjusted. -/
def adjustM (i : Nat) (s : Sec) (secAlign fileAlign : Nat) : IM Unit :=
  if alignUp s.vsize secAlign < alignUp s.rawSize fileAlign then setVirtualSizeM i (alignUp s.rawSize secAlign)
  else pure ()

/-- pe_base.cpp:1564-1592 `recalculate_section_sizes` for the attached section with position `i`. -/
def recalculateM (i : Nat) (autoStrip : Bool) : IM Unit := do
  prepareM i
  let p ← IM.image
  stripM i (autoStrip && decide (i + 1 ≠ p.secs.length))
  let s ← IM.sec i
  adjustM i s p.nt.secAlign p.nt.fileAlign

/-- pe_base.cpp:374-387: the two kinds of expansion; `len` is the length there is. -/
def expandToM (i rva size len : Nat) (s : Sec) : ExpandType → IM Bool
  | .raw =>
    if len < size then do
      IM.onData i (fun d => .ok (resize d (w32 (sub32 rva s.va + size))))
      recalculateM i false
      pure true
    else pure false
  | .virt =>
    if len < size then do
      setVirtualSizeM i (w32 (sub32 rva s.va + size))
      pure true
    else pure false

/-- The view whose length `expand_section` compares. -/
def ExpandType.view : ExpandType → DataType
  | .raw => .raw
  | .virt => .virt

/-- pe_base.cpp:365-388 `expand_section` for the attached section with position `i`. -/
def expandM (i rva size : Nat) (e : ExpandType) : IM Bool := do
  let p ← IM.image
  IM.lift (throwIf (i + 1 ≠ p.secs.length) .errorExpandingSection)
  let s ← IM.sec i
  let len ← IM.lift (p.dataLenSec s rva e.view)
  expandToM i rva size len s e

/-- pe_base.cpp:469-487: address of the new section. -/
def Image.newSectionVa (p : Image) (s : Sec) : Nat :=
  match p.secs.getLast? with
  | some last => alignUp (w32 (last.va + last.alignedVS p.nt.secAlign)) p.nt.secAlign
  | none => if s.va = 0 then alignUp p.nt.sizeHeaders p.nt.secAlign else alignUp s.va p.nt.secAlign

/-- pe_base.cpp:473-477: the raw size of the section that was the last one. -/
def Image.roundLast (p : Image) (autoupdate : Bool) : Image :=
  match p.secs.getLast? with
  | some last =>
    if autoupdate then
      { p with secs := p.secs.dropLast ++ [{ last with rawSize := w32 (alignUp64 last.data.length p.nt.fileAlign) }] }
    else p
  | none => p

/-- pe_base.cpp:461-496 `add_section`: `prepare_section` works on the copy of the argument. -/
def addSectionM (s : Sec) (autoupdate : Bool) : IM Unit := do
  let p ← IM.image
  IM.lift (throwIf (p.secs.length ≥ 96) .noMoreSectionsCanBeAdded)
  let s ← IM.lift (prepareSection p.nt.fileAlign p.nt.secAlign s)
  let s : Sec := { s with va := p.newSectionVa s }
  IM.modify fun p => p.roundLast autoupdate
  IM.modify fun p => { p with secs := p.secs ++ [s] }
  IM.modify fun p => { p with nt := { p.nt with numSections := w16 p.secs.length } }
  IM.modify fun p => { p with nt := { p.nt with sizeImage := w32 (p.nt.sizeImage + s.alignedVS p.nt.secAlign) } }

/-- pe_properties_generic.cpp:95-114 `set_directory_rva`, `set_directory_size`: a check and an assignment. -/
def setDirM (f : NtHdr → Res NtHdr) : IM Unit := do
  let p ← IM.image
  let nt ← IM.lift (f p.nt)
  IM.modify fun p => { p with nt := nt }

/-! ### The rebuilders -/

/-- The directory is stored (e.g. pe_exports.cpp:669-673). -/
def saveDirM (save : Bool) (id : Nat) (dir : Nat × Nat) : IM Unit :=
  if save then do
    setDirM fun h => h.setDirRva id dir.1
    setDirM fun h => h.setDirSize id dir.2
  else pure ()

/-- The end of the rebuilders (pe_load_config.cpp:521-531, pe_bound_import.cpp:276-286, pe_tls.cpp:361-371,
    pe_exports.cpp:665-675, pe_resources.cpp:616-626). -/
def finishDirM (i : Nat) (strip save : Bool) (id : Nat) (dir : Nat × Nat) : IM (Nat × Nat) := do
  recalculateM i strip
  saveDirM save id dir
  pure dir

/-- The second half of the rebuilders of exports and bound imports: room is made, the data are written by code that does not
    throw, sizes and directory are stored (pe_exports.cpp:559-675, pe_bound_import.cpp:236-286). -/
def writeDirM (i need : Nat) (write : Bytes → Res Bytes) (strip save : Bool) (id : Nat) (dir : Nat × Nat) :
    IM (Nat × Nat) := do
  IM.onData i (fun d => .ok (growTo d need))
  IM.onData i write
  finishDirM i strip save id dir

/-- pe_exports.cpp:479-678 `rebuild_exports`. -/
def rebuildExportsM (info : ExportInfo) (l : List ExportFn) (i off : Nat) (save strip : Bool) : IM (Nat × Nat) := do
  let p ← IM.image
  match p.secs[i]? with
  | none => IM.lift (throwE .sectionIsNotAttached)
  | some s => do
    let maxOrd := l.foldl (fun m f => max m f.ordinal) 0
    let base := l.foldl (fun m f => min m f.ordinal) (if l = [] then info.base else 4294967295)
    IM.lift (exportDup [] [] l)
    let sorted := sortBy (fun a b => decide (a.ordinal ≤ b.ordinal)) l
    let nNames := (l.filter (fun f => decide (f.name ≠ []))).length
    let szNames := w32 ((l.map (fun f => strSize f.name)).sum)
    let szFwds := w32 ((l.map (fun f => strSize f.fwd)).sum)
    let szOrds := w32 (nNames * 2)
    let nFuncs := w32 (sub32 maxOrd base + 1)
    let szAddrs := w32 (nFuncs * 4)
    let pos := alignUp off 4
    let need := w32 (40 + szOrds + szAddrs + (info.name.length + 1 + szNames + szFwds) + w32 (nNames * 4))
    IM.lift (p.spaceCheck i s (w32 (need + pos)))
    let pNames := w32 (info.name.length + 1 + pos + 40)
    let pOrds := w32 (pNames + szNames)
    let pFwds := w32 (pOrds + szOrds)
    let pAddrs := w32 (pFwds + szFwds)
    let pNameRvas := w32 (pAddrs + szAddrs)
    writeDirM i (w32 (need + pos)) (fun d => do
      let d ← writeAt d pos (encFields (exportDirFields
        { info with base := base, numFuncs := nFuncs, numNames := nNames, rvaFuncs := w32 (s.va + pAddrs),
                    rvaNames := w32 (s.va + pNameRvas), rvaOrds := w32 (s.va + pOrds) } (w32 (s.va + w32 (pos + 40)))))
      let d ← writeAt d (w32 (pos + 40)) (info.name ++ [0])
      let d ← writeExportFns s.va d pAddrs pFwds base sorted
      writeExportNames s.va d pNameRvas pNames pOrds (exportNames base sorted))
      strip save dirExport (w32 (s.va + pos), need)

/-- pe_bound_import.cpp:203-289 `rebuild_bound_imports`. -/
def rebuildBoundM (l : List BoundMod) (i off : Nat) (save strip : Bool) : IM (Nat × Nat) := do
  let p ← IM.image
  match p.secs[i]? with
  | none => IM.lift (throwE .sectionIsNotAttached)
  | some s => do
    let pos := alignUp off 4
    let strs := w32 (boundStrings l)
    let need := w32 (8 + boundStructs l + strs)
    IM.lift (p.spaceCheck i s (w32 (need + pos)))
    writeDirM i (w32 (need + pos)) (fun d => writeBoundMods pos d pos (sub32 (w32 (pos + need)) strs) l)
      strip save dirBoundImport (w32 (s.va + pos), need)

/-- pe_resources.cpp:504-522: the name of an entry; it is converted after its length was written. -/
def putNameM (i base : Nat) (k : ResKey) (np : Nat) : IM (Nat × Nat) :=
  match k with
  | .id n => pure (np, n)
  | .name w => do
    IM.onData i (fun d => writeAt d np (leBytes 2 w.length))
    let u ← IM.lift (toUcs2 w)
    IM.onData i (fun d => writeAt d (w32 (np + 2)) (encUnits u ++ leBytes 2 0))
    pure (w32 (np + 2 + (w.length * 2 + 2)), 2147483648 ||| sub32 np base)

mutual
/-- pe_resources.cpp:501-552: one entry. -/
def ResEntry.putM (i va base : Nat) : ResEntry → Nat → ResPos → IM ResPos
  | .empty k, _, s => do
    let _ ← putNameM i base k s.np
    IM.lift (throwE .resourceDirectoryEntryError)
  | .data k cp x, tp, s => do
    let r ← putNameM i base k s.np
    let dp := alignUp s.dp 4
    IM.onData i (fun d => writeAt d dp (resDataHdr (w32 (va + w32 (dp + 16))) (w32 x.length) cp))
    IM.onData i (fun d => writeAt d (w32 (dp + 16)) (x.take (w32 x.length)))
    IM.onData i (fun d => writeAt d tp (encFields [(4, r.2), (4, sub32 dp base)]))
    pure { s with np := r.1, dp := w32 (w32 (dp + 16) + w32 x.length) }
  | .dir k h es, tp, s => do
    let r ← putNameM i base k s.np
    IM.onData i (fun d => writeAt d tp (encFields [(4, r.2), (4, 2147483648 ||| sub32 s.sp base)]))
    IM.onData i (fun d => writeAt d s.sp (resHdrBytes h es))
    putEntriesM i va base es (w32 (s.sp + 16))
      { sp := w32 (w32 (s.sp + 16) + 8 * (countNamed es + countIds es)), np := r.1, dp := s.dp }
/-- pe_resources.cpp:499-553: all entries. -/
def putEntriesM (i va base : Nat) : List ResEntry → Nat → ResPos → IM ResPos
  | [], _, s => pure s
  | e :: es, tp, s => do
    let s ← e.putM i va base tp s
    putEntriesM i va base es (w32 (tp + 8)) s
end

/-- pe_resources.cpp:465-554 `rebuild_resource_directory` (for a sorted tree). -/
def putDirM (i va base : Nat) (r : ResDir) (s : ResPos) : IM ResPos := do
  IM.onData i (fun d => writeAt d s.sp (resHdrBytes r.h r.es))
  putEntriesM i va base r.es (w32 (s.sp + 16))
    { s with sp := w32 (w32 (s.sp + 16) + 8 * (countNamed r.es + countIds r.es)) }

/-- pe_resources.cpp:575-629 `rebuild_resources`. -/
def rebuildResourcesM (r : ResDir) (i off : Nat) (save strip : Bool) : IM (Nat × Nat) := do
  let p ← IM.image
  match p.secs[i]? with
  | none => IM.lift (throwE .sectionIsNotAttached)
  | some s => do
    IM.lift (throwIf (r.es.isEmpty = true) .incorrectResourceDirectory)
    let start := alignUp off 4
    IM.lift (throwIf (completeAll r.es = false) .resourceDirectoryEntryError)
    let structs := w32 (sub32 start off + 16 + structsOf r.es)
    let strings := w32 (stringsOf r.es)
    let pos := w32 (start + structs + strings)
    let need := w32 (structs + strings + sub32 (dataPosOf r.es pos) pos)
    IM.lift (p.spaceCheck i s (w32 (need + start)))
    IM.onData i (fun d => .ok (growTo d (w32 (need + start))))
    let _ ← putDirM i s.va start r.sort
      { sp := start, np := w32 (start + structs), dp := w32 (w32 (start + structs) + strings) }
    finishDirM i strip save dirResource (s.rvaFromOffset start, need)

/-- pe_relocations.cpp:240-248: the directory is stored, the flags are set. -/
def saveRelocM (save : Bool) (dir : Nat × Nat) : IM Unit :=
  if save then do
    setDirM fun h => h.setDirRva dirBaseReloc dir.1
    setDirM fun h => h.setDirSize dirBaseReloc dir.2
    IM.modify fun p => { p with nt := p.nt.clearCharFlags 0x1 }
    IM.modify fun p => { p with nt := { p.nt with dllChars := p.nt.dllChars ||| 0x40 } }
  else pure ()

/-- pe_relocations.cpp:171-250 `rebuild_relocations`. -/
def rebuildRelocationsM (tables : List RelocTable) (i off : Nat) (save strip : Bool) : IM (Nat × Nat) := do
  let p ← IM.image
  match p.secs[i]? with
  | none => IM.lift (throwE .sectionIsNotAttached)
  | some s => do
    let start := alignUp off 4
    let delta := sub32 start off
    let needed := relocNeeded start delta tables delta
    IM.lift (throwIf (i + 1 ≠ p.secs.length ∧
      (s.empty = true ∨ alignUp s.rawSize p.nt.fileAlign < w32 (needed + start))) .insufficientSpace)
    IM.onData i (fun d => .ok (if d.length < w32 (needed + start) then
      resize d (alignUp (w32 (needed + start)) p.nt.fileAlign) else d))
    IM.onData i (fun d => do
      let (d, _) ← relocWriteTables d start tables
      .ok d)
    recalculateM i strip
    saveRelocM save (s.rvaFromOffset start, sub32 needed delta)
    pure (s.rvaFromOffset start, sub32 needed delta)

/-- pe_load_config.cpp:497-519: the lock prefix table, one address after the other. -/
def writeLocksM (i pos : Nat) : List Nat → IM Unit
  | [] => do
    let p ← IM.image
    IM.onData i (fun d => writeAt d pos (leBytes p.kind.ptr 0))
  | r :: rs => do
    let p ← IM.image
    let va ← IM.lift (p.rvaToVa r)
    IM.onData i (fun d => writeAt d pos (leBytes p.kind.ptr va))
    writeLocksM i (w32 (pos + p.kind.ptr)) rs

/-- pe_load_config.cpp:497-519: only if there are lock prefixes. -/
def writeLocksIfM (b : Bool) (i pos : Nat) (l : List Nat) : IM Unit := if b then writeLocksM i pos l else pure ()

/-- pe_load_config.cpp:328-333, 387-534 `rebuild_image_config_base`: the raw data are resized before addresses are
    computed. -/
def rebuildConfigM (c : ConfigInfo) (i off : Nat) (wse wlock save strip : Bool) : IM (Nat × Nat) := do
  let p ← IM.image
  match p.secs[i]? with
  | none => IM.lift (throwE .sectionIsNotAttached)
  | some s => do
    let pos := w32 (off + sub32 (alignUp off p.kind.ptr) off)
    let sePos := w32 (p.kind.sizeofConfig + pos)
    let sz := configSizes p.kind c wse wlock
    let lockPos := w32 (w32 (p.kind.sizeofConfig + sz.1) + pos)
    let need := w32 (w32 (w32 (p.kind.sizeofConfig + sz.1) + sz.2) + pos)
    IM.lift (p.spaceCheck i s need)
    IM.onData i (fun d => .ok (growTo d need))
    let seVa ← IM.lift (p.tableVa wse c.handlers s.va sePos c.seTable)
    let lockVa ← IM.lift (p.tableVa wlock c.locks s.va lockPos c.lockTable)
    IM.onData i (fun d => writeAt d pos (encFields (configFields p.kind
      { c with seTable := seVa, lockTable := lockVa, seCount := c.handlers.length })))
    IM.onData i (fun d => writeVals 4 d sePos (if wse then sortBy (fun a b => decide (a ≤ b)) c.handlers else []))
    writeLocksIfM (wlock && decide (c.locks ≠ [])) i lockPos c.locks
    finishDirM i strip save dirLoadConfig (w32 (s.va + pos), p.kind.sizeofConfig)

/-- `memcpy` to a place in the image. -/
def writeLocM (l : Loc) (x : Bytes) : IM Unit := do
  let p ← IM.image
  let q ← IM.lift (p.writeLoc l x)
  IM.modify fun _ => q

/-- pe_tls.cpp:291-299 and 325-334. -/
def expandQuietM (rva size : Nat) (e : ExpandType) : IM Unit := IM.quiet do
  let p ← IM.image
  let i ← IM.lift (p.secIdxFromRva rva)
  expandM i rva size e

/-- pe_tls.cpp:317-319: the bytes are copied, if any. -/
def tlsCopyM (t : TlsInfo) (size : Nat) : IM Unit :=
  if size = 0 then pure () else do
    let p ← IM.image
    let l ← IM.lift (p.mutPtrFromRva t.start true)
    let b ← IM.lift (readN (t.raw ++ [0]) 0 size)
    writeLocM l b

/-- pe_tls.cpp:286-319: the raw data. -/
def tlsPutDataM (w : Bool) (t : TlsInfo) (e : ExpandType) : IM Unit :=
  if w = true ∧ t.start ≠ 0 ∧ t.start ≠ t.stop then do
    expandQuietM t.start (t.stop - t.start) e
    let p ← IM.image
    let size ← IM.lift (p.tlsRoom t.start (t.stop - t.start))
    tlsCopyM t size
  else pure ()

/-- pe_tls.cpp:323-357: the callbacks. -/
def tlsPutCallbacksM (w : Bool) (t : TlsInfo) : IM Unit :=
  if w = true ∧ t.callbacksRva ≠ 0 then do
    let p ← IM.image
    let need := w32 ((t.callbacks.length + 1) * p.kind.ptr)
    expandQuietM t.callbacksRva need .raw
    let p ← IM.image
    let a ← IM.lift (p.dataLenFrom t.callbacksRva t.callbacksRva .raw true)
    IM.lift (throwIf (a < sub64 need p.kind.ptr) .insufficientSpace)
    let v ← IM.lift (p.dataLenFrom t.callbacksRva t.callbacksRva .virt true)
    IM.lift (throwIf (v < need) .insufficientSpace)
    let vas ← IM.lift (p.tlsVas t.callbacks)
    let l ← IM.lift (p.mutPtrFromRva t.callbacksRva true)
    writeLocM l (((vas ++ [0]).flatMap (leBytes p.kind.ptr)).take need)
  else pure ()

/-- pe_tls.cpp:139-144, 228-374 `rebuild_tls_base`: the raw data are resized before the structure is filled. -/
def rebuildTlsM (t : TlsInfo) (i off : Nat) (wcb wdata : Bool) (e : ExpandType) (save strip : Bool) : IM (Nat × Nat) := do
  let p ← IM.image
  match p.secs[i]? with
  | none => IM.lift (throwE .sectionIsNotAttached)
  | some s => do
    let pos := alignUp off p.kind.ptr
    let need := w32 (p.kind.sizeofTls + pos)
    IM.lift (p.spaceCheck i s need)
    IM.lift (throwIf (t.stop < t.start ∨ t.index = 0) .incorrectTlsDirectory)
    IM.onData i (fun d => .ok (growTo d need))
    let b ← IM.lift (p.tlsStruct t)
    IM.onData i (fun d => writeAt d pos b)
    tlsPutDataM wdata t e
    tlsPutCallbacksM wcb t
    let s ← IM.sec i
    finishDirM i strip save dirTls (w32 (s.va + pos), p.kind.sizeofTls)

/-! ### Imports -/

/-- The positions of the writer (the variables of `ImportSt` other than the image). -/
structure ImportPos where
  str : Nat
  iat : Nat
  orig : Nat
  ft : Nat := 0
  oft : Nat := 0

/-- E.g. pe_imports.cpp:558-561: a thunk of a saved table. -/
def savedPutM (rva v : Nat) : IM Unit := do
  let p ← IM.image
  let n ← IM.lift (p.dataLenFrom rva rva .raw true)
  IM.lift (throwIf (n ≤ p.kind.ptr) .insufficientSpace)
  let l ← IM.lift (p.mutPtrFromRva rva true)
  writeLocM l (leBytes p.kind.ptr v)

/-- pe_imports.cpp:556-569, 574-587, 629-642, 647-659, 689-702. -/
def putIatM (i ptr : Nat) (pl : ImportPlan) (adv : Bool) (v : Nat) (x : ImportPos) : IM ImportPos :=
  if pl.rewIat then do
    savedPutM x.ft v
    pure { x with ft := w32 (x.ft + ptr) }
  else do
    writeLocM (.sec i x.iat) (leBytes ptr v)
    pure { x with iat := if adv then w32 (x.iat + ptr) else x.iat }

/-- pe_imports.cpp:593-607, 666-679, 710-723. -/
def putOrigM (i ptr : Nat) (pl : ImportPlan) (v : Nat) (x : ImportPos) : IM ImportPos :=
  if pl.rewOrig then do
    savedPutM x.oft v
    pure { x with oft := w32 (x.oft + ptr) }
  else do
    writeLocM (.sec i x.orig) (leBytes ptr v)
    pure { x with orig := w32 (x.orig + ptr) }

/-- pe_imports.cpp:548-589, 622-661. -/
def fnIatM (i ptr : Nat) (pl : ImportPlan) (f : ImportFn) (v : Nat) (x : ImportPos) : IM ImportPos :=
  if pl.saved then pure x
  else if pl.writeOrig then putIatM i ptr pl true f.iatVa x
  else putIatM i ptr pl (decide (f.name ≠ [])) v x

/-- pe_imports.cpp:591-608, 664-680, 705-724. -/
def fnOrigM (i ptr : Nat) (pl : ImportPlan) (v : Nat) (x : ImportPos) : IM ImportPos :=
  if pl.writeOrig then putOrigM i ptr pl v x else pure x

/-- pe_imports.cpp:609-620: the name of a function. -/
def fnNameM (i : Nat) (f : ImportFn) (x : ImportPos) : IM ImportPos :=
  if f.name ≠ [] then do
    writeLocM (.sec i x.str) (leBytes 2 f.hint)
    writeLocM (.sec i (w32 (x.str + 2))) (f.name ++ [0])
    pure { x with str := w32 (x.str + (f.name.length + 1 + 2)) }
  else pure x

/-- pe_imports.cpp:543-681: one function. -/
def putFnM (i va ptr : Nat) (pl : ImportPlan) (f : ImportFn) (x : ImportPos) : IM ImportPos := do
  let v := if f.name ≠ [] then w32 (va + x.str) else f.ordinal ||| 2 ^ (8 * ptr - 1)
  let x ← fnIatM i ptr pl f v x
  let x ← fnOrigM i ptr pl v x
  fnNameM i f x

/-- The functions of a library. -/
def putFnsM (i va ptr : Nat) (pl : ImportPlan) : List ImportFn → ImportPos → IM ImportPos
  | [], x => pure x
  | f :: fs, x => do
    let x ← putFnM i va ptr pl f x
    putFnsM i va ptr pl fs x

/-- pe_imports.cpp:684-703: the final thunk of the IAT. -/
def endIatM (i ptr : Nat) (pl : ImportPlan) (x : ImportPos) : IM ImportPos :=
  if pl.saved then pure x else putIatM i ptr pl true 0 x

/-- pe_imports.cpp:480-725: one library. -/
def putLibM (c : ImportCfg) (i va ptr desc : Nat) (l : ImportLib) (x : ImportPos) : IM ImportPos := do
  let pl := importPlan c va x.iat x.orig l
  writeLocM (.sec i desc) (importDescr pl.oft l.stamp (w32 (va + x.str)) pl.ft)
  writeLocM (.sec i x.str) (l.name ++ [0])
  let x ← putFnsM i va ptr pl l.funcs { x with str := w32 (x.str + (l.name.length + 1)), ft := pl.ft, oft := pl.oft }
  let x ← endIatM i ptr pl x
  fnOrigM i ptr pl 0 x

/-- pe_imports.cpp:478-732: all libraries and the null descriptor. -/
def putLibsM (c : ImportCfg) (i va ptr desc : Nat) : List ImportLib → ImportPos → IM ImportPos
  | [], x => do
    writeLocM (.sec i desc) (zeros 20)
    pure x
  | l :: ls, x => do
    let x ← putLibM c i va ptr desc l x
    putLibsM c i va ptr (w32 (desc + 20)) ls x

/-- pe_imports.cpp:264-269, 416-759 `rebuild_imports`. -/
def rebuildImportsM (ls : List ImportLib) (i : Nat) (c : ImportCfg) (off : Nat) (setHdrs zeroIat strip : Bool) :
    IM (Nat × Nat) := do
  let p ← IM.image
  match p.secs[i]? with
  | none => IM.lift (throwE .sectionIsNotAttached)
  | some s => do
    let ptr := p.kind.ptr
    let strings := w32 (importStrings ls)
    let iatSize := w32 (importIatSize ptr ls)
    let need := w32 ((1 + ls.length) * 20 + (if c.buildOrig || c.fill then iatSize * 2 else iatSize) + ptr + strings)
    IM.lift (p.spaceCheck i s (w32 (need + off)))
    IM.onData i (fun d => .ok (growTo d (w32 (need + off))))
    let iat := alignUp (w32 (strings + off + (1 + ls.length) * 20)) ptr
    let x ← putLibsM c i s.va ptr (w32 (strings + off)) ls { str := off, iat := iat, orig := w32 (iat + iatSize) }
    IM.onData i (fun d => .ok (resize d x.orig))
    let dir ← finishDirM i strip setHdrs dirImport (w32 (s.va + w32 (off + strings)), sub32 need strings)
    saveDirM (setHdrs && zeroIat) dirIat (0, 0)
    pure dir

/-! ### Rebasing and saving -/

/-- pe_relocations.cpp:281-294: one relocation. -/
def rebaseOneM (delta rva : Nat) : IM Unit := do
  let p ← IM.image
  let v ← IM.lift (p.readT p.kind.ptr rva .raw true)
  let l ← IM.lift (p.mutPtrFromRva rva true)
  writeLocM l (leBytes p.kind.ptr (p.kind.wrap (fromLE v + delta)))

/-- pe_relocations.cpp:275-296: the relocations of a table. -/
def rebaseEntriesM (delta baseRva : Nat) : List RelocEntry → IM Unit
  | [] => pure ()
  | e :: es =>
    if e.type = 0 then rebaseEntriesM delta baseRva es
    else do
      rebaseOneM delta (w32 (baseRva + e.rva))
      rebaseEntriesM delta baseRva es

/-- pe_relocations.cpp:267-297: all tables. -/
def rebaseTablesM (delta : Nat) : List RelocTable → IM Unit
  | [] => pure ()
  | t :: ts => do
    rebaseEntriesM delta t.rva t.relocs
    rebaseTablesM delta ts

/-- pe_relocations.cpp:253-301 `rebase_image`: the image base is set at the end. -/
def rebaseM (tables : List RelocTable) (newBase : Nat) : IM Unit := do
  let p ← IM.image
  rebaseTablesM (p.kind.wrap (sub64 (w64 newBase) p.nt.imageBase)) tables
  IM.modify fun p => p.setImageBase64 newBase

/-- pe_rebuilder.cpp:42-47: the address of the bound import directory is set; the result is the new position. -/
def placeBoundM (wanted : Bool) (ptr : Nat) : IM Nat :=
  if wanted then do
    setDirM fun h => h.setDirRva dirBoundImport (w32 ptr)
    let p ← IM.image
    let size ← IM.lift (p.nt.getDirSize dirBoundImport)
    pure (w64 (ptr + size))
  else pure ptr

/-- pe_rebuilder.cpp:14-81 `rebuild_pe(pe, dos_header, ...)`. -/
def rebuildHeadersM (strip changeSize saveBound : Bool) : IM Nat := do
  IM.modify fun p => p.stripDos strip
  let p ← IM.image
  let wanted ← IM.lift (p.boundWanted saveBound)
  let ptr ← placeBoundM wanted (p.tablePtr strip)
  let p ← IM.image
  let ptr := alignUp64 ptr p.nt.fileAlign
  IM.lift (throwIf (changeSize = true ∧ p.secs.head?.any (fun s => decide (w32 ptr > s.va)) = true) .cannotRebuildImage)
  IM.modify fun p => { p with nt := p.nt.resizeHeaders changeSize ptr }
  IM.modify fun p => p.finishHeaders p.nt ptr
  pure (p.newLfanew strip)

/-- pe_rebuilder.cpp:87-170 `rebuild_pe(pe, out, ...)`: the bytes written. -/
def rebuildPeM (strip changeSize saveBound : Bool) : IM Bytes := do
  let p ← IM.image
  IM.lift (p.checkBound saveBound)
  let rva ← IM.lift p.boundRva
  let save := saveBound && !decide (rva ≠ 0 ∧ rva > p.nt.sizeHeaders)
  let lfanew ← rebuildHeadersM strip changeSize save
  let q ← IM.image
  let hdr ← IM.lift q.headerBytes
  let bound ← IM.lift (q.boundBytes save rva)
  let head := q.dosBytes strip lfanew ++ (hdr ++ bound)
  let data ← IM.lift (writeSecs head.length q.secs)
  pure (head ++ data)

end PE
