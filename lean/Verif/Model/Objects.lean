/-
Model of the objects that own memory through plain pointers: `debug_info` (/repo/src/pe_lib/pe_debug.cpp) and `pe_base`
(/repo/src/pe_lib/pe_base.cpp). All other classes of the library consist of values.
-/
import Verif.Model.Debug
namespace PE

/-! ### Memory -/

/-- Memory obtained with `new`: address 0 is the null pointer; `next` is the next address handed out. Simplification:
    addresses are not used again after `delete` (every use of a released address is reported, so it makes no
    difference), and `new` does not fail. -/
structure Heap (α : Type) where
  next : Nat := 1
  cells : Nat → Option α := fun _ => none

/-- `new T(v)`. -/
def Heap.alloc {α : Type} (h : Heap α) (v : α) : Nat × Heap α :=
  (h.next, { next := h.next + 1, cells := fun a => if a = h.next then some v else h.cells a })

/-- `*p` where `p` has been declared as a pointer to objects for which `is` holds. -/
def Heap.deref {α : Type} (h : Heap α) (is : α → Bool) (a : Nat) : Res α :=
  match h.cells a with
  | some v => if is v then .ok v else ubE .dangling
  | none => ubE .dangling

/-- `delete p`; nothing happens for a null pointer. -/
def Heap.delete {α : Type} (h : Heap α) (is : α → Bool) (a : Nat) : Res (Heap α) :=
  if a = 0 then .ok h
  else do
    let _ ← h.deref is a
    .ok { h with cells := fun b => if b = a then none else h.cells b }

/-- `*p = v`. -/
def Heap.store {α : Type} (h : Heap α) (a : Nat) (v : α) : Heap α :=
  { h with cells := fun b => if b = a then some v else h.cells b }

/-- Assignment to a variable. -/
def setVar {α : Type} (m : Nat → Option α) (v : Nat) (x : Option α) : Nat → Option α := fun w => if w = v then x else m w

/-! ### `debug_info` -/

/-- pe_debug.h:180-297: `dir` stands for the eight plain fields, `type` for `advanced_info_type_`, `ptr` for the union
    of pointers `advanced_debug_info_`. -/
structure DObj where
  dir : Bytes
  type : Nat := 0
  ptr : Nat := 0
  deriving DecidableEq, Repr

/-- The objects of a program and the memory they own. -/
structure DState where
  heap : Heap AdvInfo := {}
  vars : Nat → Option DObj := fun _ => none

/-- Using an object outside of its lifetime is undefined. -/
def DState.obj (σ : DState) (v : Nat) : Res DObj :=
  match σ.vars v with
  | some o => .ok o
  | none => ubE .dangling

/-- The types that come with an information object (the cases of the switch statements pe_debug.cpp:172-187, 196-211). -/
def hasInfo (t : Nat) : Bool := decide (1 ≤ t) && decide (t ≤ 4)

/-- pe_debug.cpp:194-216 `free_present_advanced_info`. -/
def DState.freeAdv (σ : DState) (v : Nat) : Res DState := do
  let o ← σ.obj v
  let h ← if hasInfo o.type then σ.heap.delete (fun x => x.rank == o.type) o.ptr else .ok σ.heap
  .ok { heap := h, vars := setVar σ.vars v (some { o with type := 0, ptr := 0 }) }

/-- `new ..._info(x)` stored into the object together with its type, pe_debug.cpp:225-251 behind the first line of each
    function, 172-187. -/
def DState.putAdv (σ : DState) (v : Nat) (x : AdvInfo) : Res DState := do
  let o ← σ.obj v
  let n := σ.heap.alloc x
  .ok { heap := n.2, vars := setVar σ.vars v (some { o with type := x.rank, ptr := n.1 }) }

/-- The type alone is set (pe_debug.cpp:190, 151, 302). -/
def DState.putType (σ : DState) (v t : Nat) : Res DState := do
  let o ← σ.obj v
  .ok { σ with vars := setVar σ.vars v (some { o with type := t }) }

/-- pe_debug.cpp:139-149: the plain fields are copied. -/
def DState.putDir (σ : DState) (v : Nat) (d : Bytes) : Res DState := do
  let o ← σ.obj v
  .ok { σ with vars := setVar σ.vars v (some { o with dir := d }) }

/-- pe_debug.cpp:168-191 `copy_advanced_info(info)` of the object `v` with `info` the object `w` (which may be the same). -/
def DState.copyAdv (σ : DState) (v w : Nat) : Res DState := do
  let σ ← σ.freeAdv v
  let i ← σ.obj w
  if hasInfo i.type then
    let x ← σ.heap.deref (fun x => x.rank == i.type) i.ptr
    let σ ← σ.putAdv v x
    let i ← σ.obj w
    σ.putType v i.type
  else σ.putType v i.type

/-- What a program can do with `debug_info` objects. -/
inductive DOp where
  | make (v : Nat) (dir : Bytes)    -- pe_debug.cpp:13-31, constructors
  | copy (v w : Nat)                -- pe_debug.cpp:125-136, copy constructor
  | assign (v w : Nat)              -- pe_debug.cpp:139-154, `operator=`
  | set (v : Nat) (x : AdvInfo)     -- pe_debug.cpp:225-251, `set_advanced_debug_info`
  | setType (v t : Nat)             -- pe_debug.cpp:298-303, `set_advanced_info_type`
  | destroy (v : Nat)               -- pe_debug.cpp:219-222
  deriving DecidableEq, Repr

/-- pe_debug.cpp:13-31, 125-154, 219-251, 298-303. The copy constructor copies the type first (the pointer is null), then
    calls `copy_advanced_info`. `operator=` copies the information first and then the plain fields and the type. -/
def DState.step (σ : DState) : DOp → Res DState
  | .make v dir => .ok { σ with vars := setVar σ.vars v (some { dir := dir }) }
  | .copy v w => do
    let i ← σ.obj w
    let σ : DState := { σ with vars := setVar σ.vars v (some { dir := i.dir, type := i.type }) }
    σ.copyAdv v w
  | .assign v w => do
    let σ ← σ.copyAdv v w
    let i ← σ.obj w
    let σ ← σ.putDir v i.dir
    σ.putType v i.type
  | .set v x => do
    let σ ← σ.freeAdv v
    σ.putAdv v x
  | .setType v t => do
    let σ ← σ.freeAdv v
    let o ← σ.obj v
    if o.type ≥ 5 then σ.putType v t else .ok σ
  | .destroy v => do
    let σ ← σ.freeAdv v
    .ok { σ with vars := setVar σ.vars v none }

/-- A program. -/
def DState.run (σ : DState) : List DOp → Res DState
  | [] => .ok σ
  | op :: l => do
    let σ ← σ.step op
    σ.run l

/-- pe_debug.cpp:261-295 `get_advanced_debug_info<T>`, `r` being the number of the type. -/
def DState.get (σ : DState) (r v : Nat) : Res AdvInfo := do
  let o ← σ.obj v
  if o.type ≠ r then throwE .advancedDebugInformationRequestError
  else σ.heap.deref (fun x => x.rank == r) o.ptr

/-- pe_debug.cpp:254-257 `get_advanced_info_type`. -/
def DState.typeOf (σ : DState) (v : Nat) : Res Nat := do
  let o ← σ.obj v
  .ok o.type

/-! ### `pe_base` -/

/-- `pe_base` (pe_base.h:486-497): `rest` stands for the plain members (its `kind` and `nt` are not used), `props` for the
    pointer `props_`. -/
structure PObj where
  rest : Image
  props : Nat

/-- What `props_` points to: `pe_properties_generic<PEClassType>` with the NT headers. -/
abbrev Props := Kind × NtHdr

/-- The images of a program and the memory they own. -/
structure PState where
  heap : Heap Props := {}
  vars : Nat → Option PObj := fun _ => none

def PState.obj (σ : PState) (v : Nat) : Res PObj :=
  match σ.vars v with
  | some o => .ok o
  | none => ubE .dangling

/-- The value of an image. -/
def Image.withProps (p : Image) (c : Props) : Image := { p with kind := c.1, nt := c.2 }

/-- What a program can do with images. -/
inductive POp where
  | make (v : Nat) (p : Image)            -- pe_base.cpp:17-75, a constructor that succeeds with the image `p`
  | fail (p : Image)                      -- pe_base.cpp:17-40, the constructor throws; `p`: the state reached
  | copy (v w : Nat)                      -- pe_base.cpp:77-87, pe_properties_generic.cpp:11-15
  | assign (v w : Nat)                    -- pe_base.cpp:89-102
  | edit (v : Nat) (g : Image → Image)    -- any member or function that changes the image
  | destroy (v : Nat)                     -- pe_base.cpp:104-107

/-- pe_base.cpp:17-107. A constructor that throws does not run the destructor: the properties object allocated before
    (pe_base.cpp:19) stays. -/
def PState.step (σ : PState) : POp → Res PState
  | .make v p =>
    let n := σ.heap.alloc (p.kind, p.nt)
    .ok { heap := n.2, vars := setVar σ.vars v (some { rest := p, props := n.1 }) }
  | .fail p => .ok { σ with heap := (σ.heap.alloc (p.kind, p.nt)).2 }
  | .copy v w => do
    let i ← σ.obj w
    let c ← σ.heap.deref (fun _ => true) i.props
    let n := σ.heap.alloc c
    .ok { heap := n.2, vars := setVar σ.vars v (some { rest := i.rest, props := n.1 }) }
  | .assign v w => do
    let o ← σ.obj v
    let i ← σ.obj w
    let h ← σ.heap.delete (fun _ => true) o.props
    let σ : PState := { heap := h, vars := setVar σ.vars v (some { rest := i.rest, props := 0 }) }
    let i ← σ.obj w
    let c ← σ.heap.deref (fun _ => true) i.props
    let n := σ.heap.alloc c
    let o ← σ.obj v
    .ok { heap := n.2, vars := setVar σ.vars v (some { o with props := n.1 }) }
  | .edit v g => do
    let o ← σ.obj v
    let c ← σ.heap.deref (fun _ => true) o.props
    let q := g (o.rest.withProps c)
    .ok { heap := σ.heap.store o.props (q.kind, q.nt), vars := setVar σ.vars v (some { o with rest := q }) }
  | .destroy v => do
    let o ← σ.obj v
    let h ← σ.heap.delete (fun _ => true) o.props
    .ok { heap := h, vars := setVar σ.vars v none }

def PState.run (σ : PState) : List POp → Res PState
  | [] => .ok σ
  | op :: l => do
    let σ ← σ.step op
    σ.run l

/-- What a member function sees of an image. -/
def PState.value (σ : PState) (v : Nat) : Res Image := do
  let o ← σ.obj v
  let c ← σ.heap.deref (fun _ => true) o.props
  .ok (o.rest.withProps c)

end PE
