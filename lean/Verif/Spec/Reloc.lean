/-
The relocation directory format (independent of the code).
-/
import Verif.Model.Reloc
import Verif.Spec.Arith
namespace PE

/-- An entry that the 16-bit item format can hold. -/
def RelocEntry.Ok (e : RelocEntry) : Prop := e.rva < 4096 ∧ e.type < 16

/-- The entries of a table as stored: blocks are DWORD aligned with an ABSOLUTE (all zero) entry. -/
def RelocTable.stored (t : RelocTable) : List RelocEntry :=
  if t.relocs.length % 2 = 0 then t.relocs else t.relocs ++ [⟨0, 0⟩]

/-- The table without its ABSOLUTE entries. -/
def RelocTable.active (t : RelocTable) : RelocTable := { t with relocs := t.relocs.filter (fun e => decide (e.type ≠ 0)) }

/-- Size of the blocks of a list of tables: 8 bytes per block and 2 per stored entry. -/
def relocBytes (tables : List RelocTable) : Nat := (tables.map (fun t => 8 + 2 * t.stored.length)).sum

/-- The 16-bit word with the upper 4 bits `type` and the lower 12 bits `rva`. -/
def RelocEntry.word (e : RelocEntry) : Nat := e.type * 4096 + e.rva

end PE
