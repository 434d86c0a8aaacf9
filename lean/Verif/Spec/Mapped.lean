/-
Specification for C83: an image as a plain value. Sections have contents, there is no mapping state.
-/
import Verif.Model.Mapped
namespace PE

/-- What a section object stands for: its header and its raw data (the part of the buffer before the extension). -/
def SecObj.contents (o : SecObj) : Sec :=
  { o.hdr with data := match o.oldSize with
    | none => o.buf
    | some n => o.buf.take n }

/-- The plain image an image with mapping state stands for. -/
def MImage.plain (m : MImage) : Image := { m.img with secs := m.objs.map SecObj.contents }

/-- A plain image as the library holds it after loading: no section is mapped. -/
def Image.loaded (p : Image) : MImage :=
  { img := p, objs := p.secs.map (fun s => ⟨s, s.data, none⟩) }

/-- The object is not mapped, or its buffer is its raw data extended by zeros up to its present virtual size. -/
def SecObj.Current (a : Nat) (o : SecObj) : Prop :=
  o.oldSize = none ∨ ∃ d : Bytes, o.oldSize = some d.length ∧ o.buf = d ++ zeros (o.hdr.alignedVS a - d.length)

def MImage.Current (m : MImage) : Prop := ∀ o ∈ m.objs, o.Current m.img.nt.secAlign

/-- The section with position `i`. -/
def Image.withSec {α : Type} (p : Image) (i : Nat) (f : Sec → Res α) : Res α :=
  match p.secs[i]? with
  | none => ubE .badIter
  | some s => f s

/-- The answers of a plain image. -/
def Image.answer (p : Image) : (q : Ask) → q.Ans
  | .bare => { p with secs := p.secs.map Sec.bare }
  | .total rva t h => p.dataLenTotal rva t h
  | .from rva r t h => p.dataLenFrom rva r t h
  | .read n rva t h => p.readT n rva t h
  | .ptr rva t h => p.ptrFromRva rva t h
  | .lenIn i r t => p.withSec i (fun s => p.dataLenSec s r t)
  | .readIn n i rva t => p.withSec i (fun s => p.readTSec n s rva t)
  | .ptrIn i rva t => p.withSec i (fun s => p.ptrFromRvaSec s rva t)
  | .view i t => p.withSec i (fun s => .ok (s.view t p.nt.secAlign))
  | .empty i => p.withSec i (fun s => .ok s.data.isEmpty)

/-- Changes of a plain image. -/
def Image.change (p : Image) : Change → Res Image
  | .header a v => .ok (p.setAcc a v)
  | .raw i d => p.withSec i (fun s => .ok { p with secs := p.secs.set i { s with data := d } })
  | .poke rva h d => do
    let l ← p.mutPtrFromRva rva h
    p.writeLoc l d
  | .vsize i v => p.setSectionVirtualSize i v
  | .expand i rva n e => do
    let r ← p.expandSection i rva n e
    .ok r.1
  | .recalc i s => p.recalculateSectionSizes i s
  | .realign i => p.realignSection i
  | .add o u => p.addSection o.contents u

/-- What a client should see: its run on the plain image. -/
def Client.value {α : Type} : Client α → Image → Res (Image × α)
  | .done a, p => .ok (p, a)
  | .ask q k, p => (k (p.answer q)).value p
  | .change c k, p => match p.change c with
    | .error e => .error e
    | .ok p => k.value p

/-- The change does not resize a section virtually while it is mapped; a section that is added has an intact buffer. -/
def Change.Safe (m : MImage) : Change → Prop
  | .vsize i _ | .expand i _ _ .virt => ∀ o, m.objs[i]? = some o → o.oldSize = none
  | .add o _ => ∀ n, o.oldSize = some n → n ≤ o.buf.length
  | _ => True

/-- All changes of the run are safe. -/
def Client.Careful {α : Type} : Client α → MImage → Prop
  | .done _, _ => True
  | .ask q k, m => (k (m.perform q).2).Careful (m.perform q).1
  | .change c k, m => c.Safe m ∧ ∀ m', m.change c = .ok m' → k.Careful m'

/-- The client never resizes a section virtually (`set_section_virtual_size`, `expand_section(..., virtual)`), and adds
    only sections that are not mapped. -/
def Client.NoResize {α : Type} : Client α → Prop
  | .done _ => True
  | .ask _ k => ∀ a, (k a).NoResize
  | .change c k => (match c with
    | .vsize .. | .expand _ _ _ .virt => False
    | .add o _ => o.oldSize = none
    | _ => True) ∧ k.NoResize

/-- The client only looks. -/
def Client.Reader {α : Type} : Client α → Prop
  | .done _ => True
  | .ask _ k => ∀ a, (k a).Reader
  | .change _ _ => False

end PE
