/-
Vocabulary for "a section that takes the data of a rebuilt directory" (independent of the rebuilders' code).
-/
import Verif.Spec.Layout
import Verif.Model.Rva
namespace PE

/-- `s` is the section number `i` of an image with a valid section table; it lies behind the headers, and its
    raw data, its recorded raw size and its virtual size fit to each other. -/
structure Host (p : Image) (i : Nat) (s : Sec) : Prop where
  valid : ValidTable p
  sec : p.secs[i]? = some s
  hdr : p.hdrData.length ≤ s.va
  pos : 0 < s.va
  data : s.data.length ≤ ceilTo s.rawSize p.nt.fileAlign
  raw : ceilTo s.rawSize p.nt.fileAlign ≤ s.span p.nt.secAlign

/-- There is room for `n` bytes from the start of the section: the last section can grow (below 4 GiB), any other
    one has to be non-empty and to hold them within its (file aligned) raw size. -/
def HostRoom (p : Image) (i : Nat) (s : Sec) (n : Nat) : Prop :=
  if i + 1 = p.secs.length then s.va + ceilTo n p.nt.secAlign < 2 ^ 32
  else s.data ≠ [] ∧ n ≤ ceilTo s.rawSize p.nt.fileAlign

instance (p : Image) (i : Nat) (s : Sec) (n : Nat) : Decidable (HostRoom p i s n) :=
  inferInstanceAs (Decidable (ite _ _ _))

/-- The section `s` (number `i`) still can take data after a change that led to `q`: only its data and sizes are different, it has
    a virtual size, and there is at least as much address space as before. -/
def Rehosted (q : Image) (i : Nat) (s : Sec) : Prop :=
  ∃ t, Host q i t ∧ t = { s with data := t.data, rawSize := t.rawSize, vsize := t.vsize } ∧ t.vsize ≠ 0 ∧
    s.span q.nt.secAlign ≤ t.span q.nt.secAlign

/-- What a directory rebuilder may change when it puts its data into `[lo, lo + len)` of section `s` (number `i`) of
    `p`, giving `q`, and stores the directory `dir` under `id`: the section table stays valid, other sections, the
    header bytes and all other NT header fields stay the same, the section still is a valid place for data, the old bytes of the section outside of the written
    range are read as before, and the directory entry is the stored one. -/
structure RebuiltIn (p q : Image) (i : Nat) (s : Sec) (lo len : Nat) (id : Nat) (dir : Nat × Nat) : Prop where
  valid : ValidTable q
  kind : q.kind = p.kind
  hdr : q.hdrData = p.hdrData
  rest : q = { p with secs := q.secs, nt := q.nt }
  again : Rehosted q i s
  count : q.secs.length = p.secs.length
  others : ∀ j, j ≠ i → q.secs[j]? = p.secs[j]?
  nt : q.nt = { p.nt with dirs := p.nt.dirs.set id dir }
  rva : q.nt.getDirRva id = .ok dir.1
  size : q.nt.getDirSize id = .ok dir.2
  frame : ∀ hdrs o n, 0 < n → o + n ≤ s.data.length → o + n ≤ lo ∨ lo + len ≤ o →
    q.readT n (s.va + o) .virt hdrs = .ok (slice s.data o n)

end PE
