/-
Model of the objects of a resource tree and the memory they own: /repo/src/pe_lib/pe_resources.cpp. `Model/Resources` treats
them as values; `Props/ResourceObjects` shows when this is right.
-/
import Verif.Model.Objects
import Verif.Model.Resources
namespace PE

/-- pe_resources.h:42-110 `resource_directory_entry`: `key` stands for `id_`, `name_` and `named_` (pe_resources.cpp:174-187:
    `set_name` sets the number to 0, `set_id` clears the name), `incl` for `includes_data_`, `ptr` for the union of pointers
    `ptr_`. The default values are those of the constructors pe_resources.cpp:45-52. -/
structure EObj where
  key : ResKey := .id 0
  incl : Bool := false
  ptr : Nat := 0
  deriving DecidableEq, Repr

/-- What the pointers point to: a `resource_data_entry` (pe_resources.cpp:11-42: code page and data), or a
    `resource_directory` with its plain fields (pe_resources.cpp:206-219) and the vector `entries_`. -/
inductive RCell where
  | data (cp : Nat) (d : Bytes)
  | dir (h : ResHdr) (es : List EObj)
  deriving DecidableEq, Repr

/-- `*ptr_.data_` -/
def Heap.dataAt (h : Heap RCell) (a : Nat) : Res (Nat × Bytes) :=
  match h.cells a with
  | some (.data cp d) => .ok (cp, d)
  | _ => ubE .dangling

/-- `*ptr_.dir_` -/
def Heap.dirAt (h : Heap RCell) (a : Nat) : Res (ResHdr × List EObj) :=
  match h.cells a with
  | some (.dir hd os) => .ok (hd, os)
  | _ => ubE .dangling

/-- Memory is given back. -/
def Heap.free {α : Type} (h : Heap α) (a : Nat) : Heap α := { h with cells := fun b => if b = a then none else h.cells b }

/-- The elements of a vector are copied one after the other. -/
def copyEs (f : Heap RCell → EObj → Res (EObj × Heap RCell)) : Heap RCell → List EObj → Res (List EObj × Heap RCell)
  | h, [] => .ok ([], h)
  | h, o :: os => do
    let (o', h) ← f h o
    let (os', h) ← copyEs f h os
    .ok (o' :: os', h)

/-- The elements of a vector are destroyed one after the other. -/
def releaseEs (f : Heap RCell → EObj → Res (Heap RCell)) : Heap RCell → List EObj → Res (Heap RCell)
  | h, [] => .ok h
  | h, o :: os => do
    let h ← f h o
    releaseEs f h os

/-- pe_resources.cpp:59-66, 79-85: a copy of what the pointer points to (none for the null pointer); a directory is copied
    by its implicit copy constructor, member by member. The first argument limits the depth of the recursion. -/
def copyPtr : Nat → Heap RCell → Bool → Nat → Res (Nat × Heap RCell)
  | 0, _, _, _ => ubE .hang
  | n + 1, h, incl, ptr =>
    if ptr = 0 then .ok (0, h)
    else if incl then do
      let (cp, d) ← h.dataAt ptr
      .ok (h.alloc (.data cp d))
    else do
      let (hd, os) ← h.dirAt ptr
      let (os', h) ← copyEs (fun h o => do
        let (q, h) ← copyPtr n h o.incl o.ptr
        .ok ({ o with ptr := q }, h)) h os
      .ok (h.alloc (.dir hd os'))

/-- pe_resources.cpp:91-103 without the last assignment: what the pointer points to is deleted, for a directory by its
    implicit destructor, which destroys the entries (pe_resources.cpp:106-109). -/
def releasePtr : Nat → Heap RCell → Bool → Nat → Res (Heap RCell)
  | 0, _, _, _ => ubE .hang
  | n + 1, h, incl, ptr =>
    if ptr = 0 then .ok h
    else if incl then do
      let _ ← h.dataAt ptr
      .ok (h.free ptr)
    else do
      let (_, os) ← h.dirAt ptr
      let h ← releaseEs (fun h o => releasePtr n h o.incl o.ptr) h os
      .ok (h.free ptr)

/-- pe_resources.cpp:55-66: copy constructor of an entry. -/
def copyObj (n : Nat) (h : Heap RCell) (o : EObj) : Res (EObj × Heap RCell) := do
  let (q, h) ← copyPtr n h o.incl o.ptr
  .ok ({ o with ptr := q }, h)

/-- pe_resources.cpp:106-109: destructor of an entry. -/
def releaseObj (n : Nat) (h : Heap RCell) (o : EObj) : Res (Heap RCell) := releasePtr n h o.incl o.ptr

/-- The entries of a program and the memory they own. -/
structure RState where
  heap : Heap RCell := {}
  vars : Nat → Option EObj := fun _ => none

/-- A reference to an entry: a variable, or an element of the vector of the directory at an address. -/
inductive ERef where
  | var (v : Nat)
  | elem (a i : Nat)
  deriving DecidableEq, Repr

/-- Use of an entry through a reference. -/
def RState.read (σ : RState) : ERef → Res EObj
  | .var v =>
    match σ.vars v with
    | some o => .ok o
    | none => ubE .dangling
  | .elem a i => do
    let (_, os) ← σ.heap.dirAt a
    match os[i]? with
    | some o => .ok o
    | none => ubE .oobIndex

/-- Assignment to the members of an entry through a reference. -/
def RState.write (σ : RState) (r : ERef) (o : EObj) : Res RState :=
  match r with
  | .var v =>
    match σ.vars v with
    | some _ => .ok { σ with vars := setVar σ.vars v (some o) }
    | none => ubE .dangling
  | .elem a i => do
    let (hd, os) ← σ.heap.dirAt a
    if i < os.length then .ok { σ with heap := σ.heap.store a (.dir hd (os.set i o)) } else ubE .oobIndex

/-- pe_resources.cpp:138-144, 156-162: the address of what `get_resource_directory` returns a reference to. -/
def EObj.dirPtr (o : EObj) : Res Nat :=
  if o.ptr = 0 ∨ o.incl = true then throwE .resourceDirectoryEntryError else .ok o.ptr

/-- pe_resources.cpp:147-153, 165-171: the same for `get_data_entry`. -/
def EObj.dataPtr (o : EObj) : Res Nat :=
  if o.ptr = 0 ∨ o.incl = false then throwE .resourceDirectoryEntryError else .ok o.ptr

/-- `o.get_resource_directory().get_entry_list()[i]` (pe_resources.cpp:156-162, 264-267), and so on for the further indices:
    address of the last directory and index in it. -/
def Heap.walk (h : Heap RCell) (o : EObj) (i : Nat) : List Nat → Res (Nat × Nat)
  | [] => do
    let a ← o.dirPtr
    let (_, os) ← h.dirAt a
    match os[i]? with
    | some _ => .ok (a, i)
    | none => ubE .oobIndex
  | j :: l => do
    let a ← o.dirPtr
    let (_, os) ← h.dirAt a
    match os[i]? with
    | some c => h.walk c j l
    | none => ubE .oobIndex

/-- An entry as a program names it: a variable and the way from there. -/
abbrev ELoc := Nat × List Nat

/-- The reference to an entry. -/
def RState.resolve (σ : RState) (d : ELoc) : Res ERef := do
  let o ← σ.read (.var d.1)
  match d.2 with
  | [] => .ok (.var d.1)
  | i :: l => do
    let (a, j) ← σ.heap.walk o i l
    .ok (.elem a j)

/-- What a program can do with entries; `d` and `s` may name the same entry, or one inside of the other. -/
inductive ROp where
  | make (v : Nat)                            -- constructor
  | copy (v : Nat) (s : ELoc)                  -- copy constructor
  | assign (d s : ELoc)                        -- operator=
  | setKey (d : ELoc) (k : ResKey)             -- set_name, set_id
  | addData (d : ELoc) (cp : Nat) (b : Bytes)  -- add_data_entry(resource_data_entry(b, cp))
  | addDataOf (d s : ELoc)                     -- d.add_data_entry(s.get_data_entry())
  | setData (d : ELoc) (cp : Nat) (b : Bytes)  -- get_data_entry().set_codepage(cp), set_data(b)
  | addDir (d : ELoc) (hd : ResHdr)            -- add_resource_directory of a directory without entries
  | addDirOf (d s : ELoc)                      -- d.add_resource_directory(s.get_resource_directory())
  | setHdr (d : ELoc) (hd : ResHdr)            -- the setters of the directory
  | push (d s : ELoc) (re : Bool)              -- d.get_resource_directory().add_resource_directory_entry(s)
  | pop (d : ELoc)                             -- d.get_resource_directory().get_entry_list().pop_back()
  | clear (d : ELoc)                           -- d.get_resource_directory().clear_resource_directory_entry_list()
  | destroy (v : Nat)                         -- destructor
  deriving DecidableEq, Repr

/-- pe_resources.cpp:91-103 `release`. -/
def RState.release (σ : RState) (r : ERef) : Res RState := do
  let o ← σ.read r
  let h ← releasePtr σ.heap.next σ.heap o.incl o.ptr
  { σ with heap := h }.write r { o with ptr := 0 }

/-- `ptr_... = p`, `includes_data_ = incl`. -/
def RState.point (σ : RState) (r : ERef) (incl : Bool) (p : Nat) : Res RState := do
  let o ← σ.read r
  σ.write r { o with incl := incl, ptr := p }

/-- pe_resources.cpp:69-88 `operator=`. -/
def RState.assign (σ : RState) (d s : ERef) : Res RState := do
  let σ ← σ.release d
  let i ← σ.read s
  let o ← σ.read d
  let σ ← σ.write d { o with key := i.key, incl := i.incl }
  let i ← σ.read s
  let (q, h) ← copyPtr σ.heap.next σ.heap i.incl i.ptr
  if i.ptr = 0 then .ok σ
  else do
    let o ← { σ with heap := h }.read d
    { σ with heap := h }.write d { o with ptr := q }

/-- pe_resources.cpp:190-195 `add_data_entry`; `x` gives the argument when it is used. -/
def RState.addData (σ : RState) (d : ERef) (x : RState → Res (Nat × Bytes)) : Res RState := do
  let σ ← σ.release d
  let (cp, b) ← x σ
  let (q, h) := σ.heap.alloc (.data cp b)
  { σ with heap := h }.point d true q

/-- pe_resources.cpp:198-203 `add_resource_directory` with the directory `hd`, `os`, whose entries are copied. -/
def RState.addDir (σ : RState) (d : ERef) (x : RState → Res (ResHdr × List EObj)) : Res RState := do
  let σ ← σ.release d
  let (hd, os) ← x σ
  let (os', h) ← copyEs (copyObj σ.heap.next) σ.heap os
  let (q, h) := h.alloc (.dir hd os')
  { σ with heap := h }.point d false q

/-- pe_resources.cpp:270-277, the counters. -/
def ResHdr.bump (h : ResHdr) (named : Bool) : ResHdr :=
  if named then { h with named := w32 (h.named + 1) } else { h with ids := w32 (h.ids + 1) }

def ResKey.isName : ResKey → Bool
  | .name _ => true
  | .id _ => false

/-- `entries_.push_back(o)` for the directory at `a`. If the vector is moved to new memory (`re`, up to the implementation of
    std::vector), the elements are copied there (they have no move constructor) and the old ones are destroyed. -/
def Heap.pushBack (h : Heap RCell) (a : Nat) (i : EObj) (re : Bool) : Res (Heap RCell) := do
  let (o, h) ← copyObj h.next h i
  let (hd, os) ← h.dirAt a
  if re then do
    let (os', h) ← copyEs (copyObj h.next) h os
    let h ← releaseEs (releaseObj h.next) h os
    .ok (h.store a (.dir hd (os' ++ [o])))
  else .ok (h.store a (.dir hd (os ++ [o])))

/-- Use of an entry after `push_back` to the directory at `a`: a reference to an element of the vector is invalid if the
    vector has been moved. -/
def RState.readAfter (σ : RState) (a : Nat) (re : Bool) : ERef → Res EObj
  | .var v => σ.read (.var v)
  | .elem b j => if re = true ∧ b = a then ubE .dangling else σ.read (.elem b j)

/-- pe_resources.cpp:270-277 `add_resource_directory_entry` of the directory at `a` with the argument `s`. `is_named` is
    called after `push_back`. -/
def RState.push (σ : RState) (a : Nat) (s : ERef) (re : Bool) : Res RState := do
  let i ← σ.read s
  let h ← σ.heap.pushBack a i re
  let σ : RState := { σ with heap := h }
  let i ← σ.readAfter a re s
  let (hd, os) ← h.dirAt a
  .ok { σ with heap := h.store a (.dir (hd.bump i.key.isName) os) }

/-- The address of the directory of an entry. -/
def RState.dirOf (σ : RState) (d : ELoc) : Res Nat := do
  let r ← σ.resolve d
  let o ← σ.read r
  o.dirPtr

/-- The last element is destroyed and removed; an empty vector has none. -/
def Heap.popBack (h : Heap RCell) (a : Nat) : Res (Heap RCell) := do
  let (hd, os) ← h.dirAt a
  match os.getLast? with
  | none => ubE .oobIndex
  | some o => do
    let h ← releaseObj h.next h o
    .ok (h.store a (.dir hd os.dropLast))

/-- pe_resources.cpp:280-285 `clear_resource_directory_entry_list`. -/
def Heap.clearDir (h : Heap RCell) (a : Nat) : Res (Heap RCell) := do
  let (hd, os) ← h.dirAt a
  let h ← releaseEs (releaseObj h.next) h os
  .ok (h.store a (.dir { hd with named := 0, ids := 0 } []))

/-- pe_resources.cpp:45-203, 270-321. -/
def RState.step (σ : RState) : ROp → Res RState
  | .make v => .ok { σ with vars := setVar σ.vars v (some {}) }
  | .copy v s => do
    let r ← σ.resolve s
    let i ← σ.read r
    let (o, h) ← copyObj σ.heap.next σ.heap i
    .ok { heap := h, vars := setVar σ.vars v (some o) }
  | .assign d s => do
    let r ← σ.resolve d
    let q ← σ.resolve s
    σ.assign r q
  | .setKey d k => do
    let r ← σ.resolve d
    let o ← σ.read r
    σ.write r { o with key := k }
  | .addData d cp b => do
    let r ← σ.resolve d
    σ.addData r (fun _ => .ok (cp, b))
  | .addDataOf d s => do
    let r ← σ.resolve d
    let q ← σ.resolve s
    let i ← σ.read q
    let a ← i.dataPtr
    σ.addData r (fun σ => σ.heap.dataAt a)
  | .setData d cp b => do
    let r ← σ.resolve d
    let o ← σ.read r
    let a ← o.dataPtr
    let _ ← σ.heap.dataAt a
    .ok { σ with heap := σ.heap.store a (.data cp b) }
  | .addDir d hd => do
    let r ← σ.resolve d
    σ.addDir r (fun _ => .ok (hd, []))
  | .addDirOf d s => do
    let r ← σ.resolve d
    let q ← σ.resolve s
    let i ← σ.read q
    let a ← i.dirPtr
    σ.addDir r (fun σ => σ.heap.dirAt a)
  | .setHdr d hd => do
    let a ← σ.dirOf d
    let (_, os) ← σ.heap.dirAt a
    .ok { σ with heap := σ.heap.store a (.dir hd os) }
  | .push d s re => do
    let a ← σ.dirOf d
    let q ← σ.resolve s
    σ.push a q re
  | .pop d => do
    let a ← σ.dirOf d
    let h ← σ.heap.popBack a
    .ok { σ with heap := h }
  | .clear d => do
    let a ← σ.dirOf d
    let h ← σ.heap.clearDir a
    .ok { σ with heap := h }
  | .destroy v => do
    let σ ← σ.release (.var v)
    .ok { σ with vars := setVar σ.vars v none }

/-- A program. -/
def RState.run (σ : RState) : List ROp → Res RState
  | [] => .ok σ
  | op :: l => do
    let σ ← σ.step op
    σ.run l

/-- pe_resources.cpp:112-128: `get_id`, `get_name` and `is_named` of an entry. -/
def RState.keyOf (σ : RState) (d : ELoc) : Res ResKey := do
  let r ← σ.resolve d
  let o ← σ.read r
  .ok o.key

/-- pe_resources.cpp:147-153, 165-171, 20-29: `get_data_entry()` with `get_codepage` and `get_data`. -/
def RState.dataOf (σ : RState) (d : ELoc) : Res (Nat × Bytes) := do
  let r ← σ.resolve d
  let o ← σ.read r
  let a ← o.dataPtr
  σ.heap.dataAt a

/-- pe_resources.cpp:138-144, 156-162, 222-264: `get_resource_directory()` with its plain fields and the number of its entries. -/
def RState.hdrOf (σ : RState) (d : ELoc) : Res (ResHdr × Nat) := do
  let a ← σ.dirOf d
  let (hd, os) ← σ.heap.dirAt a
  .ok (hd, os.length)

end PE
