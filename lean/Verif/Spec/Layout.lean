/-
Vocabulary for section layout (independent of the code's helper functions).
-/
import Verif.Model.Image
import Verif.Spec.Arith
namespace PE

/-- Size of the virtual address range a section occupies: its virtual size (or raw size if that is
    zero) rounded up to the section alignment. -/
def Sec.span (s : Sec) (a : Nat) : Nat := ceilTo (if s.vsize = 0 then s.rawSize else s.vsize) a

/-- `rva` lies in the virtual address range of the section. -/
def Sec.Covers (s : Sec) (a rva : Nat) : Prop := s.va ≤ rva ∧ rva < s.va + s.span a

/-- All header fields of the section are 32-bit and its virtual range ends below 4 GiB. -/
structure Sec.Fits (s : Sec) (a : Nat) : Prop where
  vsize : s.vsize < 2 ^ 32
  rawSize : s.rawSize < 2 ^ 32
  rawPtr : s.rawPtr < 2 ^ 32
  fin : s.va + s.span a < 2 ^ 32

/-- The virtual ranges of the sections do not overlap. -/
def VirtDisjoint (a : Nat) (l : List Sec) : Prop :=
  l.Pairwise (fun s t => s.va + s.span a ≤ t.va ∨ t.va + t.span a ≤ s.va)

/-- The raw (file) ranges of the sections do not overlap. -/
def RawDisjoint (l : List Sec) : Prop :=
  l.Pairwise (fun s t => s.rawPtr + s.rawSize ≤ t.rawPtr ∨ t.rawPtr + t.rawSize ≤ s.rawPtr)

/-- The memory contents of a section as the OS loader sees them: raw data followed by zero bytes. -/
def Sec.memory (s : Sec) (a : Nat) : Bytes := s.data ++ List.replicate (s.span a - s.data.length) 0

instance (s : Sec) (a rva : Nat) : Decidable (s.Covers a rva) := inferInstanceAs (Decidable (_ ∧ _))

/-- Every section starts exactly where the aligned range of its predecessor ends. -/
def Contig (a : Nat) : List Sec → Prop
  | s :: t :: l => t.va = s.va + s.span a ∧ Contig a (t :: l)
  | _ => True

/-- A valid section table: power-of-two alignments, aligned, contiguous, non-empty sections below
    4 GiB, at most 96 of them, counted in the header. For a section without virtual size, raw size and
    data occupy the same number of pages. -/
structure ValidTable (p : Image) : Prop where
  sa : Pow2 p.nt.secAlign
  fa : Pow2 p.nt.fileAlign
  le : p.nt.fileAlign ≤ p.nt.secAlign
  fits : ∀ s ∈ p.secs, s.Fits p.nt.secAlign
  aligned : ∀ s ∈ p.secs, p.nt.secAlign ∣ s.va
  nonempty : ∀ s ∈ p.secs, ¬ (s.vsize = 0 ∧ s.rawSize = 0)
  contig : Contig p.nt.secAlign p.secs
  num : p.nt.numSections = p.secs.length
  count : p.secs.length ≤ 96
  pages : ∀ s ∈ p.secs, s.data.length < 2 ^ 32 ∧
    (s.vsize = 0 → ceilTo s.data.length p.nt.secAlign = ceilTo s.rawSize p.nt.secAlign)

/-- Address space a new section needs. -/
def Sec.need (s : Sec) (a : Nat) : Nat := ceilTo (max s.data.length s.vsize) a

/-- End of the address range of the last section; for an image without sections the (rounded up)
    requested address of the new section, or the end of the headers if none was requested. -/
def nextVA (p : Image) (s : Sec) : Nat :=
  match p.secs.getLast? with
  | some l => l.va + l.span p.nt.secAlign
  | none => ceilTo (if s.va = 0 then p.nt.sizeHeaders else s.va) p.nt.secAlign

end PE
