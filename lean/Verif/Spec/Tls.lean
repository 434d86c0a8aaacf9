/-
What a TLS directory says, and where its parts may be put (independent of the rebuilder's code).
-/
import Verif.Spec.Host
import Verif.Model.Tls

namespace PE

/-- A consistent description of thread local storage: the end address belongs to the raw data, there is an index, and
    nothing is described whose address is missing. All values are 32-bit ones. -/
structure TlsInfo.Sound (t : TlsInfo) : Prop where
  stop : t.stop = t.start + t.raw.length
  stop32 : t.stop < 2 ^ 32
  index : 0 < t.index ∧ t.index < 2 ^ 32
  noData : t.start = 0 → t.raw = [] ∧ t.zeroFill = 0
  noTable : t.callbacksRva = 0 → t.callbacks = []
  table32 : t.callbacksRva < 2 ^ 32
  zeroFill : t.zeroFill < 2 ^ 32
  chars : t.chars < 2 ^ 32

/-- The length of the table of callbacks with its final null. -/
def TlsInfo.tableLen (t : TlsInfo) (k : Kind) : Nat := if t.callbacksRva = 0 then 0 else k.ptr * (t.callbacks.length + 1)

/-- The addresses of what is written: the structure (at `rva`), the raw data, the table of callbacks. -/
def TlsInfo.Writes (t : TlsInfo) (k : Kind) (rva a : Nat) : Prop :=
  (rva ≤ a ∧ a < rva + k.sizeofTls) ∨ (t.start ≤ a ∧ a < t.start + t.raw.length) ∨
    (t.callbacksRva ≤ a ∧ a < t.callbacksRva + t.tableLen k)

/-- All addresses can be expressed as virtual addresses; no callback has the virtual address 0. -/
structure TlsInfo.Mapped (t : TlsInfo) (p : Image) : Prop where
  base : p.nt.imageBase + 2 ^ 32 ≤ 2 ^ 64
  stop : p.nt.imageBase + t.stop < 256 ^ p.kind.ptr
  index : p.nt.imageBase + t.index < 256 ^ p.kind.ptr
  table : p.nt.imageBase + t.callbacksRva + t.tableLen p.kind ≤ 256 ^ p.kind.ptr
  callbacks : ∀ r ∈ t.callbacks, r < 2 ^ 32 ∧ 0 < p.nt.imageBase + r ∧ p.nt.imageBase + r < 256 ^ p.kind.ptr

/-- There is room for `n` bytes at `rva`: it lies in a section, and the bytes either lie in the raw data of this section,
    or the section is the last one and can grow (`grow`), staying below 2 GiB. -/
def RoomAt (p : Image) (grow : Bool) (rva n : Nat) : Prop :=
  ∃ (j : Nat) (s : Sec), p.secs[j]? = some s ∧ s.Covers p.nt.secAlign rva ∧
    if grow = true ∧ j + 1 = p.secs.length then
      s.va + ceilTo (rva - s.va + n) p.nt.secAlign < 2 ^ 32 ∧ ceilTo (rva - s.va + n) p.nt.secAlign < 2 ^ 31
    else rva + n ≤ s.va + s.data.length

/-- `[a, a + m)` and `[b, b + n)` have nothing in common. -/
def Apart (a m b n : Nat) : Prop := a + m ≤ b ∨ b + n ≤ a

instance (a m b n : Nat) : Decidable (Apart a m b n) := inferInstanceAs (Decidable (_ ∨ _))

/-- Every section lies behind the headers, has its raw data inside of its pages, and is smaller than 2 GiB. -/
structure AllHosts (p : Image) : Prop where
  valid : ValidTable p
  host : ∀ j s, p.secs[j]? = some s → Host p j s
  small : ∀ s ∈ p.secs, s.span p.nt.secAlign < 2 ^ 31

end PE
