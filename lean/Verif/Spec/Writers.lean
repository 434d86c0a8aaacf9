/-
How much room the functions need that write a directory: the numbers of bytes by hand, for the statements about memory safety.
-/
import Verif.Model.Imports
import Verif.Model.LoadConfig
import Verif.Model.BoundImport
namespace PE

/-- The bytes of bound imports: a null descriptor, a descriptor and a terminated name for every module and every reference. -/
def boundSpace (l : List BoundMod) : Nat :=
  8 + (l.map fun m => 8 + (m.name.length + 1) + (m.refs.map fun r => 8 + (r.name.length + 1)).sum).sum

/-- The bytes of a load configuration with its tables. -/
def configSpace (k : Kind) (c : ConfigInfo) (wse wlock : Bool) : Nat :=
  k.sizeofConfig + (if wse then 4 * c.handlers.length else 0) + (if wlock then k.ptr * (c.locks.length + 1) else 0)

/-- The bytes of imports with two tables for every library, all kept in the import section. -/
def importSpace (k : Kind) (ls : List ImportLib) : Nat :=
  20 * (ls.length + 1) + k.ptr +
    (ls.map fun l => (l.name.length + 1) + 2 * (k.ptr * (l.funcs.length + 1)) +
      (l.funcs.map fun f => if f.name = [] then 0 else f.name.length + 3).sum).sum

/-- The list of callbacks, `n` bytes at the address, has room: in the headers, in the raw data of every section that covers the
    address; but the last section is enlarged on demand (which does not work 2 GiB behind its beginning). -/
structure CallbackRoom (p : Image) (rva n : Nat) : Prop where
  fin : rva + n < 4294967296
  hdr : rva < p.hdrData.length → rva + n ≤ p.hdrData.length
  sec : ∀ (j : Nat) (s : Sec), p.secs[j]? = some s → j + 1 ≠ p.secs.length → s.containsRva p.nt.secAlign rva = true →
    rva - s.va + n ≤ s.data.length
  last : ∀ (j : Nat) (s : Sec), p.secs[j]? = some s → j + 1 = p.secs.length → rva - s.va ≤ 2147483648

end PE
