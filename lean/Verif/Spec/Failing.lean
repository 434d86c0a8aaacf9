/-
What users expect of a call that throws.
-/
import Verif.Model.Failing
import Verif.Spec.Arith
namespace PE

/-- The strong guarantee: if the call throws, the image is what it was before. -/
def Strong {α : Type} (m : IM α) (p : Image) : Prop := ∀ e, (m p).1 = throwE e → (m p).2 = p

/-- The image afterwards has no section with more than 2 GiB of raw data. -/
def NoHuge (p : Image) : Prop := ∀ s ∈ p.secs, s.data.length ≤ 2147483648

/-- The strong guarantee as long as no section is made larger than 2 GiB. -/
def StrongWithin {α : Type} (m : IM α) (p : Image) : Prop := ∀ e, (m p).1 = throwE e → NoHuge (m p).2 → (m p).2 = p

/-- Alignments are powers of two, sections have at most 2 GiB in the file and in memory and are not void. -/
structure Small (p : Image) : Prop where
  fa : Pow2 p.nt.fileAlign
  sa : Pow2 p.nt.secAlign
  data : NoHuge p
  raw : ∀ s ∈ p.secs, s.rawSize ≤ 2147483648
  virt : ∀ s ∈ p.secs, s.vsize ≤ 2147483648
  full : ∀ s ∈ p.secs, s.data ≠ [] ∨ s.vsize ≠ 0

/-- The image has the directory with number `id` if it is to be stored. -/
def CanSave (p : Image) (save : Bool) (id : Nat) : Prop := save = true → id < p.nt.numRva

/-- `q` is `p` but for the raw data of the section with position `i`. -/
def OnlyData (p q : Image) (i : Nat) : Prop := ∃ s d, p.secs[i]? = some s ∧ q = { p with secs := p.secs.set i { s with data := d } }

/-- If the call throws and no section is huge then nothing has changed, or only the raw data of section `i` have and `c` is
    the reason. -/
def LeavesData {α : Type} (m : IM α) (p : Image) (i : Nat) (c : Prop) : Prop :=
  ∀ e, (m p).1 = throwE e → NoHuge (m p).2 → (m p).2 = p ∨ (c ∧ OnlyData p (m p).2 i)

/-- A section without its raw data, and the number of these. -/
def Sec.shape (s : Sec) : Sec × Nat := ({ s with data := [] }, s.data.length)

/-- `q` is `p` but for the values of bytes in the headers and the sections. -/
def OnlyBytes (p q : Image) : Prop :=
  ∃ ss h, q = { p with secs := ss, hdrData := h } ∧ h.length = p.hdrData.length ∧ ss.map Sec.shape = p.secs.map Sec.shape

/-- `q` is `p` with section `i` grown, but for the values of bytes. -/
def GrownBytes (p q : Image) (i : Nat) : Prop :=
  ∃ s d, p.secs[i]? = some s ∧ s.data.length ≤ d.length ∧ OnlyBytes { p with secs := p.secs.set i { s with data := d } } q

/-- The addresses that the relocations of a table fix (entries of type 0 are padding). -/
def RelocTable.sites (t : RelocTable) : List Nat := (t.relocs.filter fun e => decide (e.type ≠ 0)).map fun e => w32 (t.rva + e.rva)

/-- The relocations at these addresses are applied in this order. -/
def Image.applySites (p : Image) (delta : Nat) : List Nat → Res Image
  | [] => .ok p
  | r :: rs => do
    let q ← p.rebaseOne delta r
    q.applySites delta rs

/-- A character that the conversion to UCS-2 accepts. -/
def Ucs2Char (c : Nat) : Prop := c < 0xD800 ∨ (0xE000 ≤ c ∧ c < 0x10000)

/-- A name that can be converted (numbers need not be). -/
def ResKey.Named : ResKey → Prop
  | .id _ => True
  | .name w => ∀ c ∈ w, Ucs2Char c

mutual
/-- The names of an entry and of all entries below can be converted. -/
def ResEntry.Named : ResEntry → Prop
  | .empty k => k.Named
  | .data k _ _ => k.Named
  | .dir k _ es => k.Named ∧ AllNamed es
/-- The same for a list of entries. -/
def AllNamed : List ResEntry → Prop
  | [] => True
  | e :: es => e.Named ∧ AllNamed es
end

end PE
