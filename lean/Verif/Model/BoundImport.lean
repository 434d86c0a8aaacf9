/-
Model of the bound import directory: /repo/src/pe_lib/pe_bound_import.cpp
-/
import Verif.Model.DirWrite
import Verif.Model.CStr

namespace PE

/-- pe_bound_import.h `bound_import_ref`. -/
structure BoundRef where
  name : Bytes
  stamp : Nat
  deriving DecidableEq, Repr

/-- pe_bound_import.h `bound_import`. -/
structure BoundMod where
  name : Bytes
  stamp : Nat
  refs : List BoundRef
  deriving DecidableEq, Repr

/-- pe_bound_import.cpp:161-183: `n` forwarder references at position `pos`. `b` are the bytes behind the pointer
    `bound_import_data`, `len` the number `bound_import_data_len`. -/
def boundRefs (b : Bytes) (len : Nat) : (n pos : Nat) → Res (List BoundRef)
  | 0, _ => .ok []
  | n + 1, pos => do
    throwIf (pos + 8 > len) .incorrectBoundImportDirectory
    let off ← readU 2 b (pos + 4)
    let name ← checkedCStr b len off .incorrectBoundImportDirectory
    let stamp ← readU 4 b pos
    let rest ← boundRefs b len n (w32 (pos + 8))
    .ok (⟨name, stamp⟩ :: rest)

/-- pe_bound_import.cpp:138-192: the loop over the descriptors; the position after `n` references is
    `pos + 8 + 8 * n`. Going on without having moved forward is recorded as `hang`; see `C54_bound_safe`. -/
def boundLoop (b : Bytes) (len pos : Nat) : Res (List BoundMod) := do
  let off ← readU 2 b (pos + 4)
  if off = 0 then .ok [] else do
    let name ← checkedCStr b len off .incorrectBoundImportDirectory
    let stamp ← readU 4 b pos
    let n ← readU 2 b (pos + 6)
    throwIf (n ≥ 4294967295 / 8 ∨ isSumSafe pos (w32 (2 * 8 + n * 8)) = false) .incorrectBoundImportDirectory
    let refs ← boundRefs b len n (w32 (pos + 8))
    throwIf (w32 (pos + 8 + 8 * n) + 8 > len) .incorrectBoundImportDirectory
    if h : pos < w32 (pos + 8 + 8 * n) ∧ w32 (pos + 8 + 8 * n) < len then do
      let rest ← boundLoop b len (w32 (pos + 8 + 8 * n))
      .ok (⟨name, stamp, refs⟩ :: rest)
    else ubE .hang
termination_by len - pos
decreasing_by omega

/-- pe_bound_import.cpp:108-196 `get_bound_import_module_list`. -/
def Image.getBound (p : Image) : Res (List BoundMod) := do
  if ← p.hasDir dirBoundImport then
    let rva ← p.nt.getDirRva dirBoundImport
    let len ← p.dataLenFrom rva rva .raw true
    let size ← p.nt.getDirSize dirBoundImport
    throwIf (len < size) .incorrectBoundImportDirectory
    let (buf, o) ← p.ptrFromRva rva .raw true
    throwIf (len < 8) .incorrectBoundImportDirectory
    boundLoop (buf.drop o) len 0
  else .ok []

/-- pe_bound_import.cpp:263-274: the references of one module. `ps` and `pt` are `current_pos_for_structures` and
    `current_pos_for_strings`; the result also has their new values. -/
def writeBoundRefs (base : Nat) (d : Bytes) (ps pt : Nat) : List BoundRef → Res (Bytes × (Nat × Nat))
  | [] => .ok (d, (ps, pt))
  | r :: rs => do
    let d ← writeAt d ps (leBytes 4 r.stamp ++ (leBytes 2 (sub32 pt base) ++ leBytes 2 0))
    let d ← writeAt d pt (r.name ++ [0])
    writeBoundRefs base d (w32 (ps + 8)) (w32 (pt + (r.name.length + 1))) rs

/-- pe_bound_import.cpp:246-276: the modules. -/
def writeBoundMods (base : Nat) (d : Bytes) (ps pt : Nat) : List BoundMod → Res Bytes
  | [] => .ok d
  | m :: ms => do
    let d ← writeAt d ps (leBytes 4 m.stamp ++ (leBytes 2 (sub32 pt base) ++ leBytes 2 m.refs.length))
    let d ← writeAt d pt (m.name ++ [0])
    let (d, (ps, pt)) ← writeBoundRefs base d (w32 (ps + 8)) (w32 (pt + (m.name.length + 1))) m.refs
    writeBoundMods base d ps pt ms

/-- pe_bound_import.cpp:213-228: bytes for the structures without the final one. -/
def boundStructs (l : List BoundMod) : Nat := (l.map (fun m => 8 + 8 * m.refs.length)).sum
/-- pe_bound_import.cpp:213-228: bytes for the strings. -/
def boundStrings (l : List BoundMod) : Nat :=
  (l.map (fun m => m.name.length + 1 + (m.refs.map (fun r => r.name.length + 1)).sum)).sum

/-- pe_bound_import.cpp:203-289 `rebuild_bound_imports`; the section is given by its position `i`. The sums of sizes
    are wrapped to 32 bits once at the end (wrapping after each step gives the same). -/
def Image.rebuildBound (p : Image) (l : List BoundMod) (i off : Nat) (save strip : Bool) : Res (Image × (Nat × Nat)) :=
  match p.secs[i]? with
  | none => throwE .sectionIsNotAttached
  | some s => do
    let pos := alignUp off 4
    let strs := w32 (boundStrings l)
    let need := w32 (8 + boundStructs l + strs)
    p.spaceCheck i s (w32 (need + pos))
    let d ← writeBoundMods pos (growTo s.data (w32 (need + pos))) pos (sub32 (w32 (pos + need)) strs) l
    p.finishDir i s d strip save dirBoundImport (w32 (s.va + pos), need)

end PE
