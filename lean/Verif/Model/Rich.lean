/-
Model of /repo/src/pe_lib/pe_rich_data.cpp
-/
import Verif.Model.Basic

namespace PE

/-- `rich_data` (pe_rich_data.h): one record of the linker's "Rich" header. -/
structure RichRec where
  number : Nat
  version : Nat
  times : Nat
  deriving DecidableEq, Repr

/-- pe_rich_data.cpp:59 the "Rich" word. -/
def richId : Nat := 0x68636952
/-- pe_rich_data.cpp:90 the "DanS" word. -/
def dansId : Nat := 0x536e6144

/-- pe_rich_data.cpp:62-70 and 89-97, the search loops: the first position `≥ pos` whose 32-bit word satisfies
    `dw ^ key == id` (`key = 0` for the first loop). `len` is the length of the overlay; `b` its buffer, which
    includes the terminating zero of the `std::string`. -/
def findWord (b : Bytes) (len key id pos : Nat) : Res (Option Nat) :=
  if pos < len then do
    let v ← readU 4 b pos
    if v ^^^ key = id then .ok (some pos) else findWord b len key id (pos + 1)
  else .ok none
termination_by len - pos

/-- pe_rich_data.cpp:104-126, the loop over the records; `pos` is `begin` at the loop head. -/
def richLoop (b : Bytes) (len key pos : Nat) : Res (List RichRec) :=
  if pos < len then
    if pos + 4 ≥ len then .ok []
    else do
      let v ← readU 4 b (pos + 4)
      if v = richId then .ok []
      else if pos + 8 ≥ len then .ok []
      else do
        let t ← readU 4 b (pos + 8)
        let rest ← richLoop b len key (pos + 8)
        .ok (⟨(v ^^^ key) >>> 16, (v ^^^ key) &&& 0xFFFF, t ^^^ key⟩ :: rest)
  else .ok []
termination_by len - pos

/-- pe_rich_data.cpp:43-130 `get_rich_data` for the stub overlay `stub`. -/
def richOf (stub : Bytes) : Res (List RichRec) :=
  if stub.length < 4 then .ok []
  else do
    let b := stub ++ [0]
    match ← findWord b stub.length 0 richId 0 with
    | none => .ok []
    | some r =>
      if stub.length - r < 4 then .ok []
      else do
        let key ← readU 4 b (r + 4)
        match ← findWord b stub.length key dansId 0 with
        | none => .ok []
        | some d => richLoop b stub.length key (d + 12)

end PE
