/-
Model of the resource directory: /repo/src/pe_lib/pe_resources.cpp
-/
import Verif.Model.DirWrite
import Verif.Model.Header
import Verif.Model.Rva
import Verif.Model.Sort
import Verif.Model.Ucs2

namespace PE

/-- What `is_named`, `get_id` and `get_name` return (pe_resources.cpp:112-128); `set_name` and `set_id` (175-189) reset the
    other value, so an entry has a name or an id. -/
inductive ResKey where
  | id (n : Nat)
  | name (w : WStr)
  deriving DecidableEq, Repr

/-- The plain fields of `resource_directory` (pe_resources.h:112-205): `named` and `ids` are the counters
    `number_of_named_entries_`, `number_of_id_entries_`. -/
structure ResHdr where
  chars : Nat := 0
  stamp : Nat := 0
  major : Nat := 0
  minor : Nat := 0
  named : Nat := 0
  ids : Nat := 0
  deriving DecidableEq, Repr

/-- pe_resources.h:42-110 `resource_directory_entry`: key and content. `empty` has no content (null pointer, as made by the
    default constructor), the others have a `resource_data_entry` (code page, data) or a `resource_directory`. The objects own
    their content and copies are deep (pe_resources.cpp:55-108), so they are values. -/
inductive ResEntry where
  | empty (k : ResKey)
  | data (k : ResKey) (cp : Nat) (d : Bytes)
  | dir (k : ResKey) (h : ResHdr) (es : List ResEntry)
  deriving Repr

mutual
/-- Equality of entries can be decided (not a part of the code). -/
def ResEntry.decEq : (a b : ResEntry) → Decidable (a = b)
  | .empty k, .empty k' => if h : k = k' then .isTrue (by rw [h]) else .isFalse (by simp [h])
  | .data k cp d, .data k' cp' d' =>
    if h : k = k' ∧ cp = cp' ∧ d = d' then .isTrue (by rw [h.1, h.2.1, h.2.2]) else .isFalse (by
      intro e; injection e with e1 e2 e3; exact h ⟨e1, e2, e3⟩)
  | .dir k h es, .dir k' h' es' =>
    match entriesDecEq es es' with
    | .isFalse n => .isFalse (by intro e; injection e with e1 e2 e3; exact n e3)
    | .isTrue e => if g : k = k' ∧ h = h' then .isTrue (by rw [g.1, g.2, e]) else .isFalse (by
        intro e; injection e with e1 e2 e3; exact g ⟨e1, e2⟩)
  | .empty _, .data _ _ _ => .isFalse (by simp)
  | .empty _, .dir _ _ _ => .isFalse (by simp)
  | .data _ _ _, .empty _ => .isFalse (by simp)
  | .data _ _ _, .dir _ _ _ => .isFalse (by simp)
  | .dir _ _ _, .empty _ => .isFalse (by simp)
  | .dir _ _ _, .data _ _ _ => .isFalse (by simp)
/-- The same for lists. -/
def entriesDecEq : (a b : List ResEntry) → Decidable (a = b)
  | [], [] => .isTrue rfl
  | [], _ :: _ => .isFalse (by simp)
  | _ :: _, [] => .isFalse (by simp)
  | e :: es, e' :: es' =>
    match e.decEq e', entriesDecEq es es' with
    | .isTrue h, .isTrue h' => .isTrue (by rw [h, h'])
    | .isFalse h, _ => .isFalse (by intro e; injection e with e1 e2; exact h e1)
    | _, .isFalse h => .isFalse (by intro e; injection e with e1 e2; exact h e2)
end

instance : DecidableEq ResEntry := ResEntry.decEq

/-- `resource_directory`. Viewer and manager refer to one (pe_resource_viewer.cpp:11-18, pe_resource_manager.cpp:14-21). -/
structure ResDir where
  h : ResHdr := {}
  es : List ResEntry := []
  deriving DecidableEq, Repr

/-- pe_resources.cpp:112-128. -/
def ResEntry.key : ResEntry → ResKey
  | .empty k => k
  | .data k _ _ => k
  | .dir k _ _ => k

/-- pe_resources.cpp:125-128 `is_named`. -/
def ResEntry.isNamed (e : ResEntry) : Bool :=
  match e.key with
  | .name _ => true
  | .id _ => false

/-- pe_resources.cpp:138-144, 156-162 `get_resource_directory`. -/
def ResEntry.getDir : ResEntry → Res ResDir
  | .dir _ h es => .ok { h := h, es := es }
  | _ => throwE .resourceDirectoryEntryError

/-- pe_resources.cpp:147-153, 165-171 `get_data_entry`: code page and data. -/
def ResEntry.getData : ResEntry → Res (Nat × Bytes)
  | .data _ cp d => .ok (cp, d)
  | _ => throwE .resourceDirectoryEntryError

/-- pe_resources.cpp:270-277 `add_resource_directory_entry`. -/
def ResDir.add (r : ResDir) (e : ResEntry) : ResDir :=
  { h := if e.isNamed then { r.h with named := w32 (r.h.named + 1) } else { r.h with ids := w32 (r.h.ids + 1) },
    es := r.es ++ [e] }

/-! ### Reading -/

/-- pe_resources.cpp:359-382: the name of an entry, `off` is `NameOffset`. -/
def Image.resName (p : Image) (res off : Nat) : Res WStr := do
  throwIf (isSumSafe (w32 (res + 2)) off = false) .incorrectResourceDirectory
  let len ← p.readInt 2 (w32 (res + off)) .virt true
  let avail ← p.dataLenFrom (w32 (res + off + 2)) (w32 (res + off + 2)) .virt true
  throwIf (avail < len) .incorrectResourceDirectory
  let (b, o) ← p.ptrFromRva (w32 (res + off + 2)) .virt true
  let x ← readN b o (2 * len)
  fromUcs2 (decUnits x)

/-- pe_resources.cpp:358-388: name or id of the entry with the bytes `e`. -/
def Image.resKey (p : Image) (res : Nat) (e : Bytes) : Res ResKey :=
  if rd 4 e 0 ≥ 2147483648 then do
    let w ← p.resName res (rd 4 e 0 - 2147483648)
    .ok (.name w)
  else .ok (.id (rd 2 e 0))

/-- pe_resources.cpp:399-411: the data of an entry, `off` is `OffsetToData`. -/
def Image.resData (p : Image) (res off : Nat) : Res (Nat × Bytes) := do
  let de ← p.readT 16 (w32 (res + off)) .virt true
  let avail ← p.dataLenFrom (rd 4 de 0) (rd 4 de 0) .virt true
  throwIf (avail < rd 4 de 4) .incorrectResourceDirectory
  let (b, o) ← p.ptrFromRva (rd 4 de 0) .virt true
  let x ← readN b o (rd 4 de 4)
  .ok (rd 4 de 8, x)

/-- pe_resources.cpp:349-415: one entry, its bytes are at `pos`; `sub` reads the directory at an offset. `seen` is the set
    `processed`. -/
def Image.resEntry (p : Image) (res : Nat) (sub : Nat → List Nat → Res (ResDir × List Nat)) (pos : Nat) (seen : List Nat) :
    Res (ResEntry × List Nat) := do
  let e ← p.readT 8 pos .virt true
  let k ← p.resKey res e
  if rd 4 e 4 ≥ 2147483648 then do
    let (r, seen) ← sub (rd 4 e 4 - 2147483648) seen
    .ok (.dir k r.h r.es, seen)
  else do
    let x ← p.resData res (rd 4 e 4)
    .ok (.data k x.1 x.2, seen)

/-- pe_resources.cpp:349-415: the loop over the `n` entries from number `i` on. -/
def Image.resEntries (p : Image) (res off : Nat) (sub : Nat → List Nat → Res (ResDir × List Nat)) :
    Nat → Nat → ResDir → List Nat → Res (ResDir × List Nat)
  | 0, _, r, seen => .ok (r, seen)
  | n + 1, i, r, seen => do
    let (e, seen) ← p.resEntry res sub (w32 (res + 16 + i * 8 + off)) seen
    p.resEntries res off sub n (i + 1) (r.add e) seen

/-- pe_resources.cpp:324-419 `process_resource_directory`. The first argument bounds the depth of the recursion; `hang`
    stands for the end of it (`C30_terminates`: never reached from `getResources`). The tests of lines 342-344 are never
    true for 16-bit counts and left out. -/
def Image.resDir (p : Image) (res : Nat) : Nat → Nat → List Nat → Res (ResDir × List Nat)
  | 0, _, _ => ubE .hang
  | fuel + 1, off, seen => do
    throwIf (off ∈ seen) .incorrectResourceDirectory
    throwIf (isSumSafe res off = false) .incorrectResourceDirectory
    let d ← p.readT 16 (res + off) .virt true
    let n := rd 2 d 14 + rd 2 d 12
    throwIf (isSumSafe off (16 + n * 8) = false ∨ isSumSafe res (off + 16 + n * 8) = false) .incorrectResourceDirectory
    p.resEntries res off (p.resDir res fuel) n 0
      { h := { chars := rd 4 d 0, stamp := rd 4 d 4, major := rd 2 d 8, minor := rd 2 d 10 } } (off :: seen)

/-- pe_resources.cpp:632-649 `get_resources`. Offsets of directories have 31 bits and each is visited once, so this bound
    of the depth is never reached. -/
def Image.getResources (p : Image) : Res ResDir := do
  if ← p.hasDir dirResource then do
    let res ← p.nt.getDirRva dirResource
    let (r, _) ← p.resDir res 2147483649 0 []
    .ok r
  else .ok {}

/-! ### Writing -/

/-- pe_resources.cpp:557-565 `entry_sorter`. (`wchar_t` is signed; characters are taken to be below 2^31.) -/
def ResKey.lt : ResKey → ResKey → Bool
  | .name a, .name b => decide (a < b)
  | .id a, .id b => decide (a < b)
  | .name _, .id _ => true
  | .id _, .name _ => false

mutual
/-- pe_resources.cpp:475-477: the entries of every directory are sorted when it is written. The order does not depend on
    the content of entries, so here all directories are sorted first. -/
def ResEntry.sort : ResEntry → ResEntry
  | .dir k h es => .dir k h (sortBy (fun a b => !b.key.lt a.key) (sortEntries es))
  | .data k cp d => .data k cp d
  | .empty k => .empty k
/-- Sorting inside of the entries of a list. -/
def sortEntries : List ResEntry → List ResEntry
  | [] => []
  | e :: es => e.sort :: sortEntries es
end

/-- Sorting of the whole tree. -/
def ResDir.sort (r : ResDir) : ResDir := { r with es := sortBy (fun a b => !b.key.lt a.key) (sortEntries r.es) }

/-- The space for the name of an entry (pe_resources.cpp:430). -/
def ResKey.space : ResKey → Nat
  | .name w => (w.length + 1) * 2 + 2
  | .id _ => 0

mutual
/-- pe_resources.cpp:422-435: space for the structures (the wrap to 32 bits is done at the end) below an entry. -/
def ResEntry.structs : ResEntry → Nat
  | .dir _ _ es => 16 + structsOf es
  | _ => 0
/-- The same for the entries of a directory, with their own structures. -/
def structsOf : List ResEntry → Nat
  | [] => 0
  | e :: es => 8 + e.structs + structsOf es
end

mutual
/-- pe_resources.cpp:422-435: space for the strings. -/
def ResEntry.strings : ResEntry → Nat
  | .dir k _ es => k.space + stringsOf es
  | .data k _ _ => k.space
  | .empty k => k.space
def stringsOf : List ResEntry → Nat
  | [] => 0
  | e :: es => e.strings + stringsOf es
end

mutual
/-- pe_resources.cpp:432-433: `get_resource_directory` throws for an entry without content. -/
def ResEntry.complete : ResEntry → Bool
  | .dir _ _ es => completeAll es
  | .data _ _ _ => true
  | .empty _ => false
def completeAll : List ResEntry → Bool
  | [] => true
  | e :: es => e.complete && completeAll es
end

mutual
/-- pe_resources.cpp:438-455: the new `current_data_pos`; `needed_size_for_data` grows by the same amounts. -/
def ResEntry.dataPos : ResEntry → Nat → Nat
  | .dir _ _ es, cur => dataPosOf es cur
  | .data _ _ d, cur => w32 (cur + w32 (d.length + 16 + sub32 (alignUp cur 4) cur))
  | .empty _, cur => cur
def dataPosOf : List ResEntry → Nat → Nat
  | [], cur => cur
  | e :: es, cur => dataPosOf es (e.dataPos cur)
end

/-- `NumberOfNamedEntries` and `NumberOfIdEntries` (pe_resources.cpp:480-486), 16-bit counters. -/
def countNamed (es : List ResEntry) : Nat := w16 (es.filter ResEntry.isNamed).length
def countIds (es : List ResEntry) : Nat := w16 (es.filter (fun e => !e.isNamed)).length

/-- pe_structures.h:402-411 filled as in pe_resources.cpp:465-486. -/
def resHdrBytes (h : ResHdr) (es : List ResEntry) : Bytes :=
  encFields [(4, h.chars), (4, h.stamp), (2, h.major), (2, h.minor), (2, countNamed es), (2, countIds es)]

/-- pe_structures.h:489-495 filled as in pe_resources.cpp:527-530. -/
def resDataHdr (rva size cp : Nat) : Bytes := encFields [(4, rva), (4, size), (4, cp), (4, 0)]

/-- The positions of the writer: structures, strings, data. -/
structure ResPos where
  sp : Nat
  np : Nat
  dp : Nat
  deriving DecidableEq, Repr

/-- pe_resources.cpp:504-522: writes the name of an entry; the result has the `Name` field. -/
def putName (base : Nat) (k : ResKey) (d : Bytes) (np : Nat) : Res (Bytes × Nat × Nat) :=
  match k with
  | .id n => .ok (d, np, n)
  | .name w => do
    let d ← writeAt d np (leBytes 2 w.length)
    let u ← toUcs2 w
    let d ← writeAt d (w32 (np + 2)) (encUnits u ++ leBytes 2 0)
    .ok (d, w32 (np + 2 + (w.length * 2 + 2)), 2147483648 ||| sub32 np base)

mutual
/-- pe_resources.cpp:501-552: one entry; `tp` is `this_current_structures_pos`, `va` the address of the section. -/
def ResEntry.put (va base : Nat) : ResEntry → Bytes → Nat → ResPos → Res (Bytes × ResPos)
  | .empty k, d, _, s => do
    let (_, _, _) ← putName base k d s.np
    throwE .resourceDirectoryEntryError
  | .data k cp x, d, tp, s => do
    let (d, np, name) ← putName base k d s.np
    let dp := alignUp s.dp 4
    let d ← writeAt d dp (resDataHdr (w32 (va + w32 (dp + 16))) (w32 x.length) cp)
    let d ← writeAt d (w32 (dp + 16)) (x.take (w32 x.length))
    let d ← writeAt d tp (encFields [(4, name), (4, sub32 dp base)])
    .ok (d, { s with np := np, dp := w32 (w32 (dp + 16) + w32 x.length) })
  | .dir k h es, d, tp, s => do
    let (d, np, name) ← putName base k d s.np
    let d ← writeAt d tp (encFields [(4, name), (4, 2147483648 ||| sub32 s.sp base)])
    let d ← writeAt d s.sp (resHdrBytes h es)
    putEntries va base es d (w32 (s.sp + 16))
      { sp := w32 (w32 (s.sp + 16) + 8 * (countNamed es + countIds es)), np := np, dp := s.dp }
/-- pe_resources.cpp:499-553: all entries. -/
def putEntries (va base : Nat) : List ResEntry → Bytes → Nat → ResPos → Res (Bytes × ResPos)
  | [], d, _, s => .ok (d, s)
  | e :: es, d, tp, s => do
    let (d, s) ← e.put va base d tp s
    putEntries va base es d (w32 (tp + 8)) s
end

/-- pe_resources.cpp:465-554 `rebuild_resource_directory` (for a sorted tree). -/
def putDir (va base : Nat) (r : ResDir) (d : Bytes) (s : ResPos) : Res (Bytes × ResPos) := do
  let d ← writeAt d s.sp (resHdrBytes r.h r.es)
  putEntries va base r.es d (w32 (s.sp + 16))
    { s with sp := w32 (w32 (s.sp + 16) + 8 * (countNamed r.es + countIds r.es)) }

/-- pe_resources.cpp:575-629 `rebuild_resources`; the section is given by its position `i`. (The sorted tree, to which the
    argument is changed, is not part of the result: it is `r.sort`.) -/
def Image.rebuildResources (p : Image) (r : ResDir) (i off : Nat) (save strip : Bool) : Res (Image × (Nat × Nat)) :=
  match p.secs[i]? with
  | none => throwE .sectionIsNotAttached
  | some s => do
    throwIf (r.es.isEmpty = true) .incorrectResourceDirectory
    let start := alignUp off 4
    throwIf (completeAll r.es = false) .resourceDirectoryEntryError
    let structs := w32 (sub32 start off + 16 + structsOf r.es)
    let strings := w32 (stringsOf r.es)
    let pos := w32 (start + structs + strings)
    let need := w32 (structs + strings + sub32 (dataPosOf r.es pos) pos)
    p.spaceCheck i s (w32 (need + start))
    let (d, _) ← putDir s.va start r.sort (growTo s.data (w32 (need + start)))
      { sp := start, np := w32 (start + structs), dp := w32 (w32 (start + structs) + strings) }
    p.finishDir i s d strip save dirResource (s.rvaFromOffset start, need)

end PE
