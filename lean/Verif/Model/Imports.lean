/-
Model of the import directory: /repo/src/pe_lib/pe_imports.cpp
-/
import Verif.Model.DirWrite
import Verif.Model.Header
import Verif.Model.StrAt

namespace PE

/-- pe_imports.h:11-46 `imported_function`; `has_name()` is `!name_.empty()` (pe_imports.cpp:139-142). -/
structure ImportFn where
  name : Bytes := []
  hint : Nat := 0
  ordinal : Nat := 0
  iatVa : Nat := 0
  deriving DecidableEq, Repr

/-- pe_imports.h:49-93 `import_library`. -/
structure ImportLib where
  name : Bytes := []
  rvaIat : Nat := 0
  rvaOrig : Nat := 0
  stamp : Nat := 0
  funcs : List ImportFn := []
  deriving DecidableEq, Repr

/-- pe_imports.cpp:355-384: one imported function, from its IAT value and its lookup value. `ImportSnapFlag` is the
    highest bit of the pointer type. -/
def Image.importFn (p : Image) (address lookup : Nat) : Res ImportFn :=
  if lookup.testBit (8 * p.kind.ptr - 1) then .ok { iatVa := address, ordinal := lookup % 65536 }
  else do
    throwIf (lookup > 4294967295 - 2) .incorrectImportDirectory
    let name ← p.strAt .incorrectImportDirectory (w32 (lookup + 2))
    let hint ← p.readInt 2 (w32 lookup) .virt true
    .ok { iatVa := address, name := name, hint := hint }

/-- pe_imports.cpp:330-388: the loop over the thunks. When the position of the IAT would wrap around, the model stops with
    `hang`: the loop could then run for ever (`C57_imports_safe`: never on a loaded image). -/
def Image.importThunks (p : Image) (thunk orig : Nat) : Res (List ImportFn) := do
  let address ← p.readInt p.kind.ptr thunk .virt true
  if address = 0 then .ok []
  else do
    let lookup ← p.readInt p.kind.ptr orig .virt true
    if lookup = 0 then .ok []
    else do
      let f ← p.importFn address lookup
      if _h : thunk < w32 (thunk + p.kind.ptr) then do
        let rest ← p.importThunks (w32 (thunk + p.kind.ptr)) (w32 (orig + p.kind.ptr))
        .ok (f :: rest)
      else ubE .hang
termination_by 4294967296 - thunk
decreasing_by
  have := Nat.mod_lt (thunk + p.kind.ptr) (show 0 < 4294967296 by decide)
  simp only [w32] at _h ⊢
  omega

/-- pe_imports.cpp:323: the first lookup value. -/
def Image.importLookup0 (p : Image) (iat0 oft : Nat) : Res Nat :=
  if oft = 0 then .ok iat0 else p.readInt p.kind.ptr oft .virt true

/-- pe_imports.cpp:313-389: the functions of the library with these tables (`FirstThunk`, `OriginalFirstThunk`). -/
def Image.importTables (p : Image) (ft oft : Nat) : Res (List ImportFn) := do
  let iat0 ← p.readInt p.kind.ptr ft .virt true
  let lookup0 ← p.importLookup0 iat0 oft
  if lookup0 ≠ 0 ∧ iat0 ≠ 0 then p.importThunks ft (if oft = 0 then ft else oft) else .ok []

/-- pe_imports.cpp:288-401: the loop over the descriptors; `d` are the 20 bytes of the one at `pos`
    (pe_structures.h:617-633). -/
def Image.importLoop (p : Image) (pos : Nat) (d : Bytes) : Res (List ImportLib) :=
  if rd 4 d 12 = 0 then .ok []
  else do
    let name ← p.strAt .incorrectImportDirectory (rd 4 d 12)
    let funcs ← p.importTables (rd 4 d 16) (rd 4 d 0)
    if h : isSumSafe pos 20 = true then do
      let d' ← p.readT 20 (pos + 20) .virt true
      let rest ← p.importLoop (pos + 20) d'
      .ok ({ name := name, stamp := rd 4 d 4, rvaIat := rd 4 d 16, rvaOrig := rd 4 d 0, funcs := funcs } :: rest)
    else throwE .incorrectImportDirectory
termination_by 4294967296 - pos
decreasing_by
  simp only [isSumSafe, decide_eq_true_eq] at h
  omega

/-- pe_imports.cpp:257-262, 272-405 `get_imported_functions`. -/
def Image.getImports (p : Image) : Res (List ImportLib) := do
  if ← p.hasDir dirImport then
    let rva ← p.nt.getDirRva dirImport
    let d ← p.readT 20 rva .virt true
    p.importLoop rva d
  else .ok []

/-- pe_imports.h:97-164 `import_rebuilder_settings`: the settings of the tables (offset, header and strip settings are
    arguments of `rebuildImports`). The default values are the ones of pe_imports.cpp:16-25. -/
structure ImportCfg where
  buildOrig : Bool := true
  save : Bool := true
  fill : Bool := false
  rewrite : Bool := false
  deriving DecidableEq, Repr

/-- The state of the writer: the image (the raw data of the import section are a part of it, because saved tables may lie
    in the same section), `current_string_pointer`, `current_pos_for_iat`, `current_pos_for_original_iat`,
    `first_thunk`, `original_first_thunk`. -/
structure ImportSt where
  img : Image
  str : Nat
  iat : Nat
  orig : Nat
  ft : Nat := 0
  oft : Nat := 0

/-- The flags of one library (pe_imports.cpp:487-494, 513-522) with the values of the descriptor. -/
structure ImportPlan where
  /-- `save_iats_for_this_descriptor` -/
  saved : Bool
  /-- `write_original_iat` -/
  writeOrig : Bool
  /-- `rewrite_saved_original_iat` -/
  rewOrig : Bool
  /-- `rewrite_saved_iat` -/
  rewIat : Bool
  /-- `descr.OriginalFirstThunk` -/
  oft : Nat
  /-- `descr.FirstThunk` -/
  ft : Nat
  deriving DecidableEq, Repr

/-- pe_imports.cpp:486-529; `va` is the address of the import section, `iat` and `orig` the current positions. -/
def importPlan (c : ImportCfg) (va iat orig : Nat) (l : ImportLib) : ImportPlan :=
  let save := c.save && decide (l.rvaIat ≠ 0)
  let writeOrig := (!save && c.buildOrig) || c.fill
  let rewOrig := save && c.rewrite && c.buildOrig
  let rewIat := save && c.rewrite && decide (l.rvaIat ≠ 0)
  if save then
    { oft := if l.rvaOrig = 0 ∧ c.fill = true then (if c.buildOrig then w32 (va + orig) else 0)
             else if c.buildOrig then l.rvaOrig else 0
      ft := l.rvaIat
      writeOrig := if rewOrig = true ∧ l.rvaOrig ≠ 0 then true else writeOrig
      rewOrig := rewOrig && decide (l.rvaOrig ≠ 0)
      rewIat := rewIat
      saved := if rewIat then false else save }
  else
    { oft := if c.buildOrig then w32 (va + orig) else 0, ft := w32 (va + iat), writeOrig := writeOrig,
      rewOrig := rewOrig, rewIat := rewIat, saved := save }

/-- `memcpy(&raw_data[pos], …)` into the import section (number `i`). -/
def Image.rawPut (p : Image) (i pos : Nat) (x : Bytes) : Res Image := p.writeLoc (.sec i pos) x

/-- Writing one thunk into a saved table (e.g. pe_imports.cpp:558-561): the bytes from `rva` to the end of the raw data
    must be more than the size of a thunk. -/
def Image.savedPut (p : Image) (rva v : Nat) : Res Image := do
  let n ← p.dataLenFrom rva rva .raw true
  throwIf (n ≤ p.kind.ptr) .insufficientSpace
  let l ← p.mutPtrFromRva rva true
  p.writeLoc l (leBytes p.kind.ptr v)

/-- One thunk of the IAT (pe_imports.cpp:556-569, 574-587, 629-642, 647-659, 689-702); `adv` tells whether the position is
    moved in the non-saved case (line 658 is not followed by such a move). -/
def ImportSt.putIat (st : ImportSt) (i : Nat) (pl : ImportPlan) (adv : Bool) (v : Nat) : Res ImportSt :=
  if pl.rewIat then do
    let img ← st.img.savedPut st.ft v
    .ok { st with img := img, ft := w32 (st.ft + st.img.kind.ptr) }
  else do
    let img ← st.img.rawPut i st.iat (leBytes st.img.kind.ptr v)
    .ok { st with img := img, iat := if adv then w32 (st.iat + st.img.kind.ptr) else st.iat }

/-- One thunk of the original IAT (pe_imports.cpp:593-607, 666-679, 710-723). -/
def ImportSt.putOrig (st : ImportSt) (i : Nat) (pl : ImportPlan) (v : Nat) : Res ImportSt :=
  if pl.rewOrig then do
    let img ← st.img.savedPut st.oft v
    .ok { st with img := img, oft := w32 (st.oft + st.img.kind.ptr) }
  else do
    let img ← st.img.rawPut i st.orig (leBytes st.img.kind.ptr v)
    .ok { st with img := img, orig := w32 (st.orig + st.img.kind.ptr) }

/-- pe_imports.cpp:548-589, 622-661: the IAT entry of the function `f` with the lookup value `v`. -/
def ImportSt.fnIat (st : ImportSt) (i : Nat) (pl : ImportPlan) (f : ImportFn) (v : Nat) : Res ImportSt :=
  if pl.saved then .ok st
  else if pl.writeOrig then st.putIat i pl true f.iatVa
  else st.putIat i pl (decide (f.name ≠ [])) v

/-- pe_imports.cpp:591-608, 664-680, 705-724: an entry of the original IAT, if this is written. -/
def ImportSt.fnOrig (st : ImportSt) (i : Nat) (pl : ImportPlan) (v : Nat) : Res ImportSt :=
  if pl.writeOrig then st.putOrig i pl v else .ok st

/-- pe_imports.cpp:543-681: one function. The value of `get_iat_va()` is cut to the size of a pointer. -/
def ImportSt.putFn (st : ImportSt) (i va : Nat) (pl : ImportPlan) (f : ImportFn) : Res ImportSt := do
  let v := if f.name ≠ [] then w32 (va + st.str) else f.ordinal ||| 2 ^ (8 * st.img.kind.ptr - 1)
  let st ← st.fnIat i pl f v
  let st ← st.fnOrig i pl v
  if f.name ≠ [] then do
    let img ← st.img.rawPut i st.str (leBytes 2 f.hint)
    let img ← img.rawPut i (w32 (st.str + 2)) (f.name ++ [0])
    .ok { st with img := img, str := w32 (st.str + (f.name.length + 1 + 2)) }
  else .ok st

/-- pe_imports.cpp:684-703: the final thunk of the IAT. -/
def ImportSt.endIat (st : ImportSt) (i : Nat) (pl : ImportPlan) : Res ImportSt :=
  if pl.saved then .ok st else st.putIat i pl true 0

/-- The functions of a library. -/
def ImportSt.putFns (st : ImportSt) (i va : Nat) (pl : ImportPlan) : List ImportFn → Res ImportSt
  | [] => .ok st
  | f :: fs => do
    let st ← st.putFn i va pl f
    st.putFns i va pl fs

/-- pe_structures.h:617-633, filled as in pe_imports.cpp:480-529. -/
def importDescr (oft stamp name ft : Nat) : Bytes :=
  encFields [(4, oft), (4, stamp), (4, 0), (4, name), (4, ft)]

/-- pe_imports.cpp:480-725: one library; `desc` is `current_pos_for_descriptors`. -/
def ImportSt.putLib (st : ImportSt) (c : ImportCfg) (i va desc : Nat) (l : ImportLib) : Res ImportSt := do
  let pl := importPlan c va st.iat st.orig l
  let img ← st.img.rawPut i desc (importDescr pl.oft l.stamp (w32 (va + st.str)) pl.ft)
  let img ← img.rawPut i st.str (l.name ++ [0])
  let st : ImportSt := { st with img := img, str := w32 (st.str + (l.name.length + 1)), ft := pl.ft, oft := pl.oft }
  let st ← st.putFns i va pl l.funcs
  let st ← st.endIat i pl
  st.fnOrig i pl 0

/-- pe_imports.cpp:478-732: all libraries and the null descriptor. -/
def ImportSt.putLibs (st : ImportSt) (c : ImportCfg) (i va desc : Nat) : List ImportLib → Res ImportSt
  | [] => do
    let img ← st.img.rawPut i desc (zeros 20)
    .ok { st with img := img }
  | l :: ls => do
    let st ← st.putLib c i va desc l
    st.putLibs c i va (w32 (desc + 20)) ls

/-- `needed_size_for_strings` of pe_imports.cpp:430-444 (the wrap to 32 bits is done at the end). -/
def importStrings (ls : List ImportLib) : Nat :=
  (ls.map (fun l => l.name.length + 1 + (l.funcs.map (fun f => if f.name ≠ [] then f.name.length + 1 + 2 else 0)).sum)).sum

/-- `size_of_iat` of pe_imports.cpp:437. -/
def importIatSize (ptr : Nat) (ls : List ImportLib) : Nat := (ls.map (fun l => ptr * (1 + l.funcs.length))).sum

/-- pe_imports.cpp:264-269, 416-759 `rebuild_imports`; the section is given by its position `i`. -/
def Image.rebuildImports (p : Image) (ls : List ImportLib) (i : Nat) (c : ImportCfg) (off : Nat)
    (setHdrs zeroIat strip : Bool) : Res (Image × (Nat × Nat)) :=
  match p.secs[i]? with
  | none => throwE .sectionIsNotAttached
  | some s => do
    let ptr := p.kind.ptr
    let strings := w32 (importStrings ls)
    let iatSize := w32 (importIatSize ptr ls)
    let need := w32 ((1 + ls.length) * 20 + (if c.buildOrig || c.fill then iatSize * 2 else iatSize) + ptr + strings)
    p.spaceCheck i s (w32 (need + off))
    let img : Image := { p with secs := p.secs.set i { s with data := growTo s.data (w32 (need + off)) } }
    let iat := alignUp (w32 (strings + off + (1 + ls.length) * 20)) ptr
    let st : ImportSt := { img := img, str := off, iat := iat, orig := w32 (iat + iatSize) }
    let st ← st.putLibs c i s.va (w32 (strings + off)) ls
    match st.img.secs[i]? with
    | none => ubE .badIter
    | some s' => do
      let (q, dir) ← st.img.finishDir i s' (resize s'.data st.orig) strip setHdrs dirImport
        (w32 (s.va + w32 (off + strings)), sub32 need strings)
      if setHdrs && zeroIat then do
        let nt ← q.nt.setDirRva dirIat 0
        let nt ← nt.setDirSize dirIat 0
        .ok ({ q with nt := nt }, dir)
      else .ok (q, dir)

end PE
