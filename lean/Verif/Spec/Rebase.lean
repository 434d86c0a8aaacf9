import Verif.Model.Reloc

/-!
# What a rebase is supposed to do, stated without the code that does it

The addresses a list of relocation tables speaks about, when two of them do not interfere, and how to
look at a single byte of an image.
-/

namespace PE

/-- The relocated addresses of a list of tables, in order: table base plus entry offset in 32 bits, for
    every entry whose type is not ABSOLUTE (0). -/
def relocTargets (tables : List RelocTable) : List Nat :=
  tables.flatMap (fun t => (t.relocs.filter (fun e => decide (e.type ≠ 0))).map (fun e => w32 (t.rva + e.rva)))

/-- No two of the relocated words (of `n` bytes each) overlap. -/
def DisjointTargets (n : Nat) (rs : List Nat) : Prop :=
  rs.Pairwise (fun a b => a + n ≤ b ∨ b + n ≤ a)

instance (n : Nat) (rs : List Nat) : Decidable (DisjointTargets n rs) := by unfold DisjointTargets; infer_instance

/-- A byte of the image: of the stored headers or of a section's raw data. -/
def Image.byteAt (p : Image) : Loc → Option UInt8
  | .hdr off => p.hdrData[off]?
  | .sec i off => p.secs[i]?.bind (fun s => s.data[off]?)

/-- The address at which a byte of the image is loaded. -/
def Image.addrOf (p : Image) : Loc → Option Nat
  | .hdr off => some off
  | .sec i off => p.secs[i]?.map (fun s => s.va + off)

/-- Headers end before the sections start. (The loader accepts images where this is not so, see `C26_wrapped_file`.) -/
def HeadersBelow (p : Image) : Prop := ∀ s ∈ p.secs, p.hdrData.length ≤ s.va

instance (p : Image) : Decidable (HeadersBelow p) := by unfold HeadersBelow; infer_instance

end PE
