/-
Vocabulary for the properties of the export directory (independent of the code of the rebuilder).
-/
import Verif.Model.Exports

namespace PE

/-- An exported function that the directory format can store and that `get_exported_functions` can tell apart from an
    empty slot: a 16-bit ordinal, names without zero bytes, and either an address that is not null or a forward. Forwards
    are only recognized for functions with a name. -/
structure ExportFn.Writable (f : ExportFn) : Prop where
  ordinal : f.ordinal < 2 ^ 16
  rva : f.fwd = [] → f.rva ≠ 0 ∧ f.rva < 2 ^ 32
  named : f.fwd ≠ [] → f.name ≠ []
  name : ∀ c ∈ f.name, c ≠ 0
  fwd : ∀ c ∈ f.fwd, c ≠ 0

/-- What a user sees of an exported function: ordinal, name, forward and, if there is no forward, the address. -/
def ExportFn.shown (f : ExportFn) : Nat × Bytes × Bytes × Nat :=
  (f.ordinal, f.name, f.fwd, if f.fwd = [] then f.rva else 0)

/-- The names of the named functions. -/
def namesOf (l : List ExportFn) : List Bytes := (l.filter (fun f => decide (f.name ≠ []))).map ExportFn.name

/-- The fields of the information that the rebuilder takes over fit into the structure. -/
structure ExportInfo.Writable (i : ExportInfo) : Prop where
  chars : i.chars < 2 ^ 32
  stamp : i.stamp < 2 ^ 32
  major : i.major < 2 ^ 16
  minor : i.minor < 2 ^ 16
  name : ∀ c ∈ i.name, c ≠ 0

/-- A list of exports that can be written: storable functions with different ordinals and different names. -/
structure ExportsOk (l : List ExportFn) : Prop where
  ok : ∀ f ∈ l, f.Writable
  ordinals : (l.map ExportFn.ordinal).Nodup
  names : (namesOf l).Nodup

/-- `lo` is the smallest and `hi` the largest ordinal of the list (which is not empty). -/
structure OrdinalRange (l : List ExportFn) (lo hi : Nat) : Prop where
  lo_mem : ∃ f ∈ l, f.ordinal = lo
  hi_mem : ∃ f ∈ l, f.ordinal = hi
  le : ∀ f ∈ l, lo ≤ f.ordinal ∧ f.ordinal ≤ hi

/-- The size of the export directory with all its tables: 40 bytes, the library name, for every named function the name,
    its address and its ordinal, the forward strings, and four bytes for every number from `lo` to `hi`. -/
def exportSize (info : ExportInfo) (l : List ExportFn) (lo hi : Nat) : Nat :=
  40 + (info.name.length + 1) + (l.map (fun f => if f.name = [] then 0 else f.name.length + 1 + 4 + 2)).sum +
    (l.map (fun f => if f.fwd = [] then 0 else f.fwd.length + 1)).sum + 4 * (hi - lo + 1)

/-- The binary search of a loader in a name table sorted by name (`<` is Lean's lexicographic order of lists of bytes): the
    ordinal stored with the name `x`, searched for in the entries `lo`, …, `lo + n - 1`. -/
def bsearch (t : List (Bytes × Nat)) (x : Bytes) (lo n : Nat) : Option Nat :=
  if _h : n = 0 then none
  else match t[lo + n / 2]? with
    | none => none
    | some e =>
      if x < e.1 then bsearch t x lo (n / 2)
      else if e.1 < x then bsearch t x (lo + n / 2 + 1) (n - n / 2 - 1)
      else some e.2
termination_by n
decreasing_by all_goals omega

/-- The entries `i`, …, `i + n - 1` of the name table of an export directory with the name addresses at `names` and the
    name ordinals at `ords`, as any program that knows the format reads them. -/
def nameTable (p : Image) (names ords : Nat) : (n i : Nat) → Res (List (Bytes × Nat))
  | 0, _ => .ok []
  | n + 1, i => do
    let rva ← p.readInt 4 (names + 4 * i) .virt true
    let (b, o) ← p.ptrFromRva rva .virt true
    let s ← readCStr b o
    let ord ← p.readInt 2 (ords + 2 * i) .virt true
    let rest ← nameTable p names ords n (i + 1)
    .ok ((s, ord) :: rest)

end PE
