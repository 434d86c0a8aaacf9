/-
Model of the export directory: /repo/src/pe_lib/pe_exports.cpp
-/
import Verif.Model.DirWrite
import Verif.Model.Header
import Verif.Model.StrAt
import Verif.Model.Sort

namespace PE

/-- pe_exports.h:11-63 `exported_function`. `has_name_` is `!name_.empty()` and `forward_` is `!forward_name_.empty()`
    (pe_exports.cpp:72-89, 13-15), so they are not kept separately. -/
structure ExportFn where
  ordinal : Nat := 0
  rva : Nat := 0
  name : Bytes := []
  nameOrdinal : Nat := 0
  fwd : Bytes := []
  deriving DecidableEq, Repr

/-- pe_exports.h:66-138 `export_info`. -/
structure ExportInfo where
  chars : Nat := 0
  stamp : Nat := 0
  major : Nat := 0
  minor : Nat := 0
  name : Bytes := []
  base : Nat := 0
  numFuncs : Nat := 0
  numNames : Nat := 0
  rvaFuncs : Nat := 0
  rvaNames : Nat := 0
  rvaOrds : Nat := 0
  deriving DecidableEq, Repr

/-- pe_exports.cpp:283-295 (and 371-380, 390-398): a string at `rva` with at least two available bytes, checked for its
    terminator. -/
def Image.exportStr (p : Image) (rva : Nat) : Res Bytes := p.strAt .incorrectExportDirectory rva

/-- pe_exports.cpp:276-303: the information about the directory, whose 40 bytes are `d` (pe_structures.h:659-672). -/
def Image.exportInfo (p : Image) (d : Bytes) : Res ExportInfo := do
  let name ← p.exportStr (rd 4 d 12)
  .ok { chars := rd 4 d 0, stamp := rd 4 d 4, major := rd 2 d 8, minor := rd 2 d 10, name := name, base := rd 4 d 16,
        numFuncs := rd 4 d 20, numNames := rd 4 d 24, rvaFuncs := rd 4 d 28, rvaNames := rd 4 d 32, rvaOrds := rd 4 d 36 }

/-- pe_exports.cpp:359-406, the search for the name of the function with (relative) number `ordinal`: `n` entries from
    entry `i` on. -/
def Image.exportName (p : Image) (ords names ordinal : Nat) : (n i : Nat) → Res (Option Bytes)
  | 0, _ => .ok none
  | n + 1, i => do
    let o ← p.readInt 2 (w32 (ords + i * 2)) .virt true
    if ordinal = o then do
      let rva ← p.readInt 4 (w32 (names + i * 4)) .virt true
      let name ← p.exportStr rva
      .ok (some name)
    else p.exportName ords names ordinal n (i + 1)

/-- pe_exports.cpp:386-402: the forward of a named function. `sizeof(image_directory_entry_export)` is the size of an
    enumerator, 4. -/
def Image.exportFwd (p : Image) (dirRva dirSize rva : Nat) : Res Bytes :=
  if rva ≥ dirRva + 4 ∧ rva < w32 (dirRva + dirSize) then p.exportStr rva else .ok []

/-- pe_exports.cpp:341-410: the loop over the function numbers, `n` of them from `ordinal` on. -/
def Image.exportLoop (p : Image) (d : Bytes) (dirRva dirSize : Nat) : (n ordinal : Nat) → Res (List ExportFn)
  | 0, _ => .ok []
  | n + 1, ordinal => do
    let rva ← p.readInt 4 (w32 (rd 4 d 28 + ordinal * 4)) .virt true
    if rva = 0 then p.exportLoop d dirRva dirSize n (ordinal + 1)
    else do
      throwIf (isSumSafe (rd 4 d 16) ordinal = false ∨ w32 (rd 4 d 16 + ordinal) > 65535) .incorrectExportDirectory
      let ord := w16 (ordinal + rd 4 d 16)
      match ← p.exportName (rd 4 d 36) (rd 4 d 32) ordinal (rd 4 d 24) 0 with
      | none => do
        let rest ← p.exportLoop d dirRva dirSize n (ordinal + 1)
        .ok ({ ordinal := ord, rva := rva } :: rest)
      | some name => do
        let fwd ← p.exportFwd dirRva dirSize rva
        let rest ← p.exportLoop d dirRva dirSize n (ordinal + 1)
        .ok ({ ordinal := ord, rva := rva, name := name, nameOrdinal := ordinal, fwd := fwd } :: rest)

/-- pe_exports.cpp:308-339: the checks of the directory. Products of two 32-bit values are computed in 64 bits. -/
def Image.exportCheck (p : Image) (d : Bytes) (dirRva dirSize : Nat) : Res Unit := do
  throwIf (rd 4 d 24 > rd 4 d 20) .incorrectExportDirectory
  throwIf ((rd 4 d 36 = 0 ∧ rd 4 d 32 ≠ 0) ∨ (rd 4 d 36 ≠ 0 ∧ rd 4 d 32 = 0) ∨ rd 4 d 28 = 0 ∨
    rd 4 d 20 ≥ 4294967295 / 4 ∨ rd 4 d 24 > 4294967295 / 4 ∨
    isSumSafe (rd 4 d 28) (w32 (rd 4 d 20 * 4)) = false ∨ isSumSafe (rd 4 d 32) (w32 (rd 4 d 24 * 4)) = false ∨
    isSumSafe (rd 4 d 36) (w32 (rd 4 d 20 * 4)) = false ∨ isSumSafe dirRva dirSize = false) .incorrectExportDirectory
  let n ← p.dataLenFrom (rd 4 d 28) (rd 4 d 28) .virt true
  throwIf (n < rd 4 d 20 * 4) .incorrectExportDirectory
  if rd 4 d 32 ≠ 0 then do
    let n ← p.dataLenFrom (rd 4 d 36) (rd 4 d 36) .virt true
    throwIf (n < rd 4 d 24 * 2) .incorrectExportDirectory
    let n ← p.dataLenFrom (rd 4 d 32) (rd 4 d 32) .virt true
    throwIf (n < rd 4 d 24 * 4) .incorrectExportDirectory
  else .ok ()

/-- pe_exports.cpp:305-414 `get_exported_functions` behind the reading of the information. -/
def Image.exportFns (p : Image) (d : Bytes) (rva size : Nat) : Res (List ExportFn) :=
  if rd 4 d 20 = 0 then .ok []
  else do
    p.exportCheck d rva size
    p.exportLoop d rva size (rd 4 d 20) 0

/-- pe_exports.cpp:240-243, 259-414 `get_exported_functions(pe)`, which passes a null `info`: the library name is not
    read. -/
def Image.getExportList (p : Image) : Res (List ExportFn) := do
  if ← p.hasDir dirExport then
    let rva ← p.nt.getDirRva dirExport
    let size ← p.nt.getDirSize dirExport
    let n ← p.dataLenFrom rva rva .virt true
    throwIf (n < 40) .incorrectExportDirectory
    let d ← p.readT 40 rva .virt true
    p.exportFns d rva size
  else .ok []

/-- pe_exports.cpp:246-249, 259-414 `get_exported_functions(pe, info)`: the information (`none` if it is not touched) and
    the functions. -/
def Image.getExports (p : Image) : Res (Option ExportInfo × List ExportFn) := do
  if ← p.hasDir dirExport then
    let rva ← p.nt.getDirRva dirExport
    let size ← p.nt.getDirSize dirExport
    let n ← p.dataLenFrom rva rva .virt true
    throwIf (n < 40) .incorrectExportDirectory
    let d ← p.readT 40 rva .virt true
    let info ← p.exportInfo d
    if rd 4 d 20 = 0 then .ok (some info, [])
    else do
      p.exportCheck d rva size
      let l ← p.exportLoop d rva size (rd 4 d 20) 0
      .ok (some info, l)
  else .ok (none, [])

/-- pe_exports.cpp:418-435 `get_export_ordinal_limits`. -/
def exportLimits (l : List ExportFn) : Nat × Nat :=
  if l = [] then (0, 0)
  else (l.foldl (fun m f => min m f.ordinal) 65535, l.foldl (fun m f => max m f.ordinal) 0)

/-- pe_exports.cpp:438-447 `exported_name_exists`. -/
def exportNameExists (n : Bytes) (l : List ExportFn) : Bool := l.any (fun f => decide (f.name ≠ []) && f.name == n)

/-- pe_exports.cpp:450-459 `exported_ordinal_exists`. -/
def exportOrdinalExists (o : Nat) (l : List ExportFn) : Bool := l.any (fun f => f.ordinal == o)

/-- pe_exports.cpp:500-529: the search for duplicates; `ords` and `names` are the sets of what was seen. -/
def exportDup (ords : List Nat) (names : List Bytes) : List ExportFn → Res Unit
  | [] => .ok ()
  | f :: fs =>
    if f.ordinal ∈ ords then throwE .duplicateExportedFunctionOrdinal
    else if f.name ≠ [] then
      if f.name ∈ names then throwE .duplicateExportedFunctionName
      else exportDup (f.ordinal :: ords) (f.name :: names) fs
    else exportDup (f.ordinal :: ords) names fs

/-- `std::string::operator<=`: `char_traits<char>` compares bytes as unsigned. -/
def bytesLe : Bytes → Bytes → Bool
  | [], _ => true
  | _ :: _, [] => false
  | x :: xs, y :: ys => if x < y then true else if y < x then false else bytesLe xs ys

/-- Length of a string with its terminator, 0 for an absent (empty) string (pe_exports.cpp:519, 528). -/
def strSize (s : Bytes) : Nat := if s = [] then 0 else s.length + 1

/-- pe_exports.cpp:602-645: the address table and the forward strings. `pa`, `pf` and `last` are
    `current_pos_of_function_addresses`, `current_pos_of_function_forwards` and `last_ordinal`. -/
def writeExportFns (va : Nat) (d : Bytes) (pa pf last : Nat) : List ExportFn → Res Bytes
  | [] => .ok d
  | f :: fs => do
    let gap := if f.ordinal > last then f.ordinal - last - 1 else 0
    let d ← writeAt d pa (zeros (4 * gap))
    let pa := w32 (pa + 4 * gap)
    let last := if f.ordinal > last then f.ordinal else last
    if f.fwd ≠ [] then do
      let d ← writeAt d pa (leBytes 4 (w32 (va + pf)))
      let d ← writeAt d pf (f.fwd ++ [0])
      writeExportFns va d (w32 (pa + 4)) (w32 (pf + (f.fwd.length + 1))) last fs
    else do
      let d ← writeAt d pa (leBytes 4 f.rva)
      writeExportFns va d (w32 (pa + 4)) pf last fs

/-- pe_exports.cpp:647-663: the name table. `pr`, `ps` and `po` are the positions of the name addresses, of the names and
    of the name ordinals. -/
def writeExportNames (va : Nat) (d : Bytes) (pr ps po : Nat) : List (Bytes × Nat) → Res Bytes
  | [] => .ok d
  | f :: fs => do
    let d ← writeAt d pr (leBytes 4 (w32 (va + ps)))
    let d ← writeAt d ps (f.1 ++ [0])
    let d ← writeAt d po (leBytes 2 f.2)
    writeExportNames va d (w32 (pr + 4)) (w32 (ps + (f.1.length + 1))) (w32 (po + 2)) fs

/-- pe_structures.h:659-672, filled as in pe_exports.cpp:577-589. -/
def exportDirFields (i : ExportInfo) (nameRva : Nat) : List (Nat × Nat) :=
  [(4, i.chars), (4, i.stamp), (2, i.major), (2, i.minor), (4, nameRva), (4, i.base), (4, i.numFuncs), (4, i.numNames),
    (4, i.rvaFuncs), (4, i.rvaNames), (4, i.rvaOrds)]

/-- The named functions of the list with their relative ordinals (pe_exports.cpp:623-625), in the order of the
    `std::map`: ascending by name. -/
def exportNames (base : Nat) (l : List ExportFn) : List (Bytes × Nat) :=
  sortBy (fun a b => bytesLe a.1 b.1)
    ((l.filter (fun f => decide (f.name ≠ []))).map (fun f => (f.name, w16 (sub32 f.ordinal base))))

/-- pe_exports.cpp:479-678 `rebuild_exports`; the section is given by its position `i`. Sums of sizes are wrapped to 32
    bits at the end (wrapping after each step gives the same). `std::sort` runs on functions with different ordinals,
    compared by pe_exports.cpp:462-465 `ordinal_sorter`. -/
def Image.rebuildExports (p : Image) (info : ExportInfo) (l : List ExportFn) (i off : Nat) (save strip : Bool) :
    Res (Image × (Nat × Nat)) :=
  match p.secs[i]? with
  | none => throwE .sectionIsNotAttached
  | some s => do
    let maxOrd := l.foldl (fun m f => max m f.ordinal) 0
    let base := l.foldl (fun m f => min m f.ordinal) (if l = [] then info.base else 4294967295)
    exportDup [] [] l
    let sorted := sortBy (fun a b => decide (a.ordinal ≤ b.ordinal)) l
    let nNames := (l.filter (fun f => decide (f.name ≠ []))).length
    let szNames := w32 ((l.map (fun f => strSize f.name)).sum)
    let szFwds := w32 ((l.map (fun f => strSize f.fwd)).sum)
    let szOrds := w32 (nNames * 2)
    let nFuncs := w32 (sub32 maxOrd base + 1)
    let szAddrs := w32 (nFuncs * 4)
    let pos := alignUp off 4
    let need := w32 (40 + szOrds + szAddrs + (info.name.length + 1 + szNames + szFwds) + w32 (nNames * 4))
    p.spaceCheck i s (w32 (need + pos))
    let pNames := w32 (info.name.length + 1 + pos + 40)
    let pOrds := w32 (pNames + szNames)
    let pFwds := w32 (pOrds + szOrds)
    let pAddrs := w32 (pFwds + szFwds)
    let pNameRvas := w32 (pAddrs + szAddrs)
    let d ← writeAt (growTo s.data (w32 (need + pos))) pos (encFields (exportDirFields
      { info with base := base, numFuncs := nFuncs, numNames := nNames, rvaFuncs := w32 (s.va + pAddrs),
                  rvaNames := w32 (s.va + pNameRvas), rvaOrds := w32 (s.va + pOrds) } (w32 (s.va + w32 (pos + 40)))))
    let d ← writeAt d (w32 (pos + 40)) (info.name ++ [0])
    let d ← writeExportFns s.va d pAddrs pFwds base sorted
    let d ← writeExportNames s.va d pNameRvas pNames pOrds (exportNames base sorted)
    p.finishDir i s d strip save dirExport (w32 (s.va + pos), need)

end PE
