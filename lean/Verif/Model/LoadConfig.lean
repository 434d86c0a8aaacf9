/-
Model of the load configuration directory: /repo/src/pe_lib/pe_load_config.cpp
-/
import Verif.Model.DirWrite
import Verif.Model.Header
import Verif.Model.Load
import Verif.Model.Sort

namespace PE

/-- pe_load_config.h:12-159 `image_config_info` (members: 134-158). The wide members are `uint64_t`. -/
structure ConfigInfo where
  timeStamp : Nat := 0
  major : Nat := 0
  minor : Nat := 0
  flagsClear : Nat := 0
  flagsSet : Nat := 0
  csTimeout : Nat := 0
  decommitFree : Nat := 0
  decommitTotal : Nat := 0
  lockTable : Nat := 0
  maxAlloc : Nat := 0
  vmThreshold : Nat := 0
  heapFlags : Nat := 0
  affinity : Nat := 0
  csdVersion : Nat := 0
  editList : Nat := 0
  cookie : Nat := 0
  seTable : Nat := 0
  seCount : Nat := 0
  locks : List Nat := []
  handlers : List Nat := []
  deriving DecidableEq, Repr

/-- sizeof(image_load_config_directory32) and sizeof(image_load_config_directory64) (pe_structures.h). -/
def Kind.sizeofConfig : Kind → Nat
  | .pe32 => 72
  | .pe64 => 112

/-- pe_structures.h `image_load_config_directory32`/`image_load_config_directory64`, filled from a `ConfigInfo` as in
    pe_load_config.cpp:430-444 (`Size` is the size of the structure, `Reserved1` stays 0). -/
def configFields (k : Kind) (c : ConfigInfo) : List (Nat × Nat) :=
  match k with
  | .pe32 => [(4, 72), (4, c.timeStamp), (2, c.major), (2, c.minor), (4, c.flagsClear), (4, c.flagsSet),
      (4, c.csTimeout), (4, c.decommitFree), (4, c.decommitTotal), (4, c.lockTable), (4, c.maxAlloc),
      (4, c.vmThreshold), (4, c.heapFlags), (4, c.affinity), (2, c.csdVersion), (2, 0), (4, c.editList),
      (4, c.cookie), (4, c.seTable), (4, c.seCount)]
  | .pe64 => [(4, 112), (4, c.timeStamp), (2, c.major), (2, c.minor), (4, c.flagsClear), (4, c.flagsSet),
      (4, c.csTimeout), (8, c.decommitFree), (8, c.decommitTotal), (8, c.lockTable), (8, c.maxAlloc),
      (8, c.vmThreshold), (8, c.affinity), (4, c.heapFlags), (2, c.csdVersion), (2, 0), (8, c.editList),
      (8, c.cookie), (8, c.seTable), (8, c.seCount)]

/-- pe_load_config.cpp:30-47: the constructor of `image_config_info` from the structure `b`. -/
def ConfigInfo.ofBytes (k : Kind) (b : Bytes) : ConfigInfo :=
  match k with
  | .pe32 =>
    { timeStamp := rd 4 b 4, major := rd 2 b 8, minor := rd 2 b 10, flagsClear := rd 4 b 12,
      flagsSet := rd 4 b 16, csTimeout := rd 4 b 20, decommitFree := rd 4 b 24, decommitTotal := rd 4 b 28,
      lockTable := rd 4 b 32, maxAlloc := rd 4 b 36, vmThreshold := rd 4 b 40, heapFlags := rd 4 b 44,
      affinity := rd 4 b 48, csdVersion := rd 2 b 52, editList := rd 4 b 56, cookie := rd 4 b 60,
      seTable := rd 4 b 64, seCount := rd 4 b 68 }
  | .pe64 =>
    { timeStamp := rd 4 b 4, major := rd 2 b 8, minor := rd 2 b 10, flagsClear := rd 4 b 12,
      flagsSet := rd 4 b 16, csTimeout := rd 4 b 20, decommitFree := rd 8 b 24, decommitTotal := rd 8 b 32,
      lockTable := rd 8 b 40, maxAlloc := rd 8 b 48, vmThreshold := rd 8 b 56, affinity := rd 8 b 64,
      heapFlags := rd 4 b 72, csdVersion := rd 2 b 76, editList := rd 8 b 80, cookie := rd 8 b 88,
      seTable := rd 8 b 96, seCount := rd 8 b 104 }

/-- pe_base.h:417-428 `section_data_from_va<T>(va)` for an integer of `n` bytes, with its default arguments: raw data,
    no headers. `va_to_rva` checks the bounds. -/
def Image.readVaInt (p : Image) (n va : Nat) : Res Nat := do
  let rva ← p.vaToRva va
  p.readInt n rva .raw false

/-- pe_load_config.cpp:361-362: `n` handlers starting with number `i`. -/
def Image.seLoop (p : Image) (table i : Nat) : Nat → Res (List Nat)
  | 0 => .ok []
  | n + 1 => do
    let h ← p.readVaInt 4 ((table + i * 4) % 256 ^ p.kind.ptr)
    let r ← p.seLoop table (i + 1) n
    .ok (h :: r)

/-- pe_load_config.cpp:367-377: the `while(true)` loop. `current` is a `uint32_t`, so that after 2^32 rounds all its
    values repeat: running out of `fuel` (2^32 in `getConfig`) stands for an infinite loop. -/
def Image.lockLoop (p : Image) (table : Nat) : (fuel current : Nat) → Res (List Nat)
  | 0, _ => ubE .hang
  | fuel + 1, cur => do
    let va ← p.readVaInt p.kind.ptr ((table + cur * p.kind.ptr) % 256 ^ p.kind.ptr)
    if va = 0 then .ok [] else do
      let rva ← p.vaToRva va
      let r ← p.lockLoop table fuel (cur + 1)
      .ok (rva :: r)

/-- pe_load_config.cpp:364-378. -/
def Image.lockPrefixes (p : Image) (table : Nat) : Res (List Nat) :=
  if table ≠ 0 then p.lockLoop table 4294967296 0 else .ok []

/-- pe_load_config.cpp:320-325, 338-381 `get_image_config`, `get_image_config_base`. -/
def Image.getConfig (p : Image) : Res ConfigInfo := do
  let has ← p.hasDir dirLoadConfig
  throwIf (has = false) .directoryDoesNotExist
  let rva ← p.nt.getDirRva dirLoadConfig
  let b ← p.readT p.kind.sizeofConfig rva .virt false
  throwIf (rd 4 b 0 < p.kind.sizeofConfig) .incorrectConfigDirectory
  let c := ConfigInfo.ofBytes p.kind b
  throwIf (c.seCount ≥ 4294967295 / 4 ∨ c.seTable ≥ 256 ^ p.kind.ptr - 1 - c.seCount * 4) .incorrectConfigDirectory
  let hs ← p.seLoop c.seTable 0 c.seCount
  let ls ← p.lockPrefixes c.lockTable
  .ok { c with handlers := hs, locks := ls }

/-- The sequence of `memcpy`s of integers of `w` bytes at consecutive positions (pe_load_config.cpp:495-500). -/
def writeVals (w : Nat) (d : Bytes) (pos : Nat) : List Nat → Res Bytes
  | [] => .ok d
  | v :: vs => do
    let d ← writeAt d pos (leBytes w v)
    writeVals w d (w32 (pos + w)) vs

/-- pe_load_config.cpp:506-518: the lock prefix addresses and the final null. -/
def Image.writeLocks (p : Image) (d : Bytes) (pos : Nat) : List Nat → Res Bytes
  | [] => writeAt d pos (leBytes p.kind.ptr 0)
  | r :: rs => do
    let va ← p.rvaToVa r
    let d ← writeAt d pos (leBytes p.kind.ptr va)
    p.writeLocks d (w32 (pos + p.kind.ptr)) rs

/-- pe_load_config.cpp:449-466 and 468-485: the address of a table. `write` is the flag (`write_se_handlers`,
    `write_lock_prefixes`), `pos` the offset in the section at `va`. -/
def Image.tableVa (p : Image) (write : Bool) (l : List Nat) (va pos old : Nat) : Res Nat :=
  if write then
    if l = [] then .ok 0 else p.rvaToVa (w32 (va + pos))
  else .ok (old % 256 ^ p.kind.ptr)

/-- `uint32_t` sizes of pe_load_config.cpp:394-412: (size of handlers table, size of lock prefix table). -/
def configSizes (k : Kind) (c : ConfigInfo) (wse wlock : Bool) : Nat × Nat :=
  (if wse then w32 (c.handlers.length * 4) else 0, if wlock then w32 ((c.locks.length + 1) * k.ptr) else 0)

/-- pe_load_config.cpp:328-333, 387-534 `rebuild_image_config_base`; the section is given by its position `i`. The order of the
    final writes is that of the source; `std::sort` on `uint32_t` is `sortBy`. -/
def Image.rebuildConfig (p : Image) (c : ConfigInfo) (i off : Nat) (wse wlock save strip : Bool) :
    Res (Image × (Nat × Nat)) :=
  match p.secs[i]? with
  | none => throwE .sectionIsNotAttached
  | some s => do
    let pos := w32 (off + sub32 (alignUp off p.kind.ptr) off)
    let sePos := w32 (p.kind.sizeofConfig + pos)
    let sz := configSizes p.kind c wse wlock
    let lockPos := w32 (w32 (p.kind.sizeofConfig + sz.1) + pos)
    let need := w32 (w32 (w32 (p.kind.sizeofConfig + sz.1) + sz.2) + pos)
    p.spaceCheck i s need
    let seVa ← p.tableVa wse c.handlers s.va sePos c.seTable
    let lockVa ← p.tableVa wlock c.locks s.va lockPos c.lockTable
    let d ← writeAt (growTo s.data need) pos (encFields (configFields p.kind
      { c with seTable := seVa, lockTable := lockVa, seCount := c.handlers.length }))
    let d ← writeVals 4 d sePos (if wse then sortBy (fun a b => decide (a ≤ b)) c.handlers else [])
    let d ← if wlock ∧ c.locks ≠ [] then p.writeLocks d lockPos c.locks else .ok d
    p.finishDir i s d strip save dirLoadConfig (w32 (s.va + pos), p.kind.sizeofConfig)

end PE
