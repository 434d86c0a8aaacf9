/-
What debug records look like: independent of the reader.
-/
import Verif.Model.Debug
import Verif.Spec.ResourceData

namespace PE

/-- The name of a COFF symbol: up to eight bytes in the symbol itself, or a place in the string table. -/
inductive CoffNm where
  | short (s : Bytes)
  | long (off : Nat) (s : Bytes)
  deriving Repr

/-- A symbol as a linker writes it: the record and its auxiliary records. -/
structure CoffRec where
  name : CoffNm
  value : Nat
  sec : Nat
  type : Nat
  cls : Nat
  aux : List Bytes := []
  deriving Repr

/-- The eight bytes of the name. -/
def CoffNm.bytes : CoffNm → Bytes
  | .short s => s ++ List.replicate (8 - s.length) 0
  | .long off _ => leBytes 4 0 ++ leBytes 4 off

def CoffNm.text : CoffNm → Bytes
  | .short s => s
  | .long _ s => s

/-- The stored form of a symbol. -/
def CoffRec.bytes (r : CoffRec) : Bytes :=
  r.name.bytes ++ (leBytes 4 r.value ++ (leBytes 2 r.sec ++ (leBytes 2 r.type ++ (leBytes 1 r.cls ++ (leBytes 1 r.aux.length ++ r.aux.flatten)))))

/-- Number of 18-byte records a symbol needs. -/
def CoffRec.count (r : CoffRec) : Nat := r.aux.length + 1

def coffCount (l : List CoffRec) : Nat := (l.map CoffRec.count).sum

/-- A file name symbol. -/
def CoffRec.IsFile (r : CoffRec) : Prop := r.cls = 103

/-- A symbol for code: an external function in a section, or a static symbol of section 1 without auxiliary records. -/
def CoffRec.IsCode (r : CoffRec) : Prop :=
  (r.cls = 3 ∧ r.aux = [] ∧ r.sec = 1) ∨ (r.cls = 2 ∧ (r.type / 16) % 4 = 2 ∧ 0 < r.sec ∧ r.sec < 32768)

instance (r : CoffRec) : Decidable r.IsFile := inferInstanceAs (Decidable (_ = _))
instance (r : CoffRec) : Decidable r.IsCode := inferInstanceAs (Decidable (_ ∨ _))

/-- The values fit, the text of a long name stands in the string table `st`, and auxiliary records have 18 bytes. Only symbols that are
    listed have auxiliary records. -/
structure CoffRec.Ok (st : Bytes) (r : CoffRec) : Prop where
  value : r.value < 2 ^ 32
  sec : r.sec < 2 ^ 16
  type : r.type < 2 ^ 16
  cls : r.cls < 2 ^ 8
  aux : r.aux.length < 2 ^ 8
  auxLen : ∀ x ∈ r.aux, x.length = 18
  auxOnly : r.IsFile ∨ r.IsCode ∨ r.aux = []
  short : ∀ s, r.name = .short s → s.length ≤ 8 ∧ (∀ x ∈ s, x ≠ 0) ∧ s ≠ []
  long : ∀ off s, r.name = .long off s → (∀ x ∈ s, x ≠ 0) ∧ off + s.length + 1 ≤ st.length ∧ slice st off (s.length + 1) = s ++ [0]

/-- What is to be reported of the symbols `l`, the first of which has the number `i`: file names and code. -/
def coffWant (fileName : Nat → Bytes) : Nat → List CoffRec → List CoffSym
  | _, [] => []
  | i, r :: l =>
    (if r.IsFile then [{ index := i, cls := r.cls, type := r.type, isFile := true, name := fileName i }]
     else if r.IsCode then [{ index := i, cls := r.cls, type := r.type, sec := r.sec, rva := r.value, isFile := false, name := r.name.text }]
     else []) ++ coffWant fileName (i + r.count) l

/-- COFF debug data: a 32-byte header with the number of symbols and their place, something in between, the symbols, the string table. -/
def coffData (rest : Bytes) (gap : Bytes) (l : List CoffRec) (st : Bytes) : Bytes :=
  (leBytes 4 (coffCount l) ++ (leBytes 4 (32 + gap.length) ++ rest)) ++ (gap ++ (l.flatMap CoffRec.bytes ++ st))

/-- The reported symbol `s` is what record number `s.index` of the symbols at `lva` of `d` says, `n` being the number of records. The name of a file
    is not described here. -/
structure CoffSym.Describes (d : Bytes) (n lva : Nat) (s : CoffSym) : Prop where
  idx : s.index < n
  inside : lva + 18 * (s.index + 1) ≤ d.length
  /-- The auxiliary records belong to the table, but for the last one, which may lie behind it (the check is off by one) … -/
  aux : s.index + rd 1 d (lva + 18 * s.index + 17) ≤ n
  /-- … and to the data. -/
  auxData : lva + 18 * (s.index + 1 + rd 1 d (lva + 18 * s.index + 17)) ≤ d.length
  cls : s.cls = rd 1 d (lva + 18 * s.index + 16)
  type : s.type = rd 2 d (lva + 18 * s.index + 14)
  file : s.isFile = true ↔ s.cls = 103
  sec : s.isFile = false → s.sec = rd 2 d (lva + 18 * s.index + 12) ∧ s.rva = rd 4 d (lva + 18 * s.index + 8)
  zero : s.isFile = false → ∀ x ∈ s.name, x ≠ 0
  short : s.isFile = false → rd 4 d (lva + 18 * s.index) ≠ 0 →
    s.name = slice d (lva + 18 * s.index) 8 ∨ ∃ rest, slice d (lva + 18 * s.index) 8 = s.name ++ 0 :: rest
  long : s.isFile = false → rd 4 d (lva + 18 * s.index) = 0 →
    ∃ rest, d.drop (lva + 18 * n + rd 4 d (lva + 18 * s.index + 4)) = s.name ++ 0 :: rest

/-- The raw data `d` of a debug record of type `type` says `a`. -/
def AdvInfo.Describes (type : Nat) (d : Bytes) : AdvInfo → Prop
  | .pdb70 guid age name => type = 2 ∧ slice d 0 4 = [0x52, 0x53, 0x44, 0x53] ∧ guid = slice d 4 16 ∧ age = rd 4 d 20 ∧
      (∀ x ∈ name, x ≠ 0) ∧ ∃ rest, d.drop 24 = name ++ 0 :: rest
  | .pdb20 sig age name => type = 2 ∧ slice d 0 4 = [0x4e, 0x42, 0x31, 0x30] ∧ sig = rd 4 d 8 ∧ age = rd 4 d 12 ∧
      (∀ x ∈ name, x ≠ 0) ∧ ∃ rest, d.drop 16 = name ++ 0 :: rest
  | .misc t text => type = 4 ∧ t = rd 4 d 0 ∧ 12 ≤ rd 4 d 4 ∧ rd 4 d 4 ≤ d.length ∧
      (rd 1 d 8 = 0 → ∃ s, text = .ansi s ∧ Stripped (slice d 12 (rd 4 d 4 - 12)) s) ∧
      (rd 1 d 8 ≠ 0 → ∃ w s, text = .wide s ∧ UcsStr w ∧ Stripped w s ∧ slice d 12 (2 * ((rd 4 d 4 - 12) / 2)) = encUnits w)
  | .coff h syms => type = 1 ∧ h = slice d 0 32 ∧ 32 ≤ d.length ∧ (∀ s ∈ syms, s.Describes d (rd 4 d 0) (rd 4 d 4)) ∧
      syms.Pairwise (fun a b => a.index < b.index)
  | .none => type ≠ 1 ∧ type ≠ 4 ∧ (type = 2 → slice d 0 4 ≠ [0x52, 0x53, 0x44, 0x53] ∧ slice d 0 4 ≠ [0x4e, 0x42, 0x31, 0x30])
  | _ => False

/-- Raw data `d` as a linker writes it for a debug record of type `type`, and what it says. Raw data may be missing (the record is of another
    type, or the image was loaded without it). -/
inductive GoodDebug : (type : Nat) → (d : Option Bytes) → AdvInfo → Prop
  | absent (type : Nat) : GoodDebug type none .none
  | other (type : Nat) (d : Bytes) (h1 : type ≠ 1) (h2 : type ≠ 2) (h4 : type ≠ 4) : GoodDebug type (some d) .none
  | pdb70 (guid name rest : Bytes) (age : Nat) (hg : guid.length = 16) (ha : age < 2 ^ 32) (hn : ∀ x ∈ name, x ≠ 0) :
      GoodDebug 2 (some ([0x52, 0x53, 0x44, 0x53] ++ (guid ++ (leBytes 4 age ++ ((name ++ [0]) ++ rest))))) (.pdb70 guid age name)
  | pdb20 (off sig age : Nat) (name rest : Bytes) (hs : sig < 2 ^ 32) (ha : age < 2 ^ 32) (hn : ∀ x ∈ name, x ≠ 0) :
      GoodDebug 2 (some ([0x4e, 0x42, 0x31, 0x30] ++ (leBytes 4 off ++ (leBytes 4 sig ++ (leBytes 4 age ++ ((name ++ [0]) ++ rest)))))) (.pdb20 sig age name)
  | miscAnsi (t pad : Nat) (res s rest : Bytes) (ht : t < 2 ^ 32) (hr : res.length = 3) (hp : 0 < s.length + pad)
      (hl : 12 + (s.length + pad) < 2 ^ 32) (hs : ∀ a, s.getLast? = some a → a ≠ 0) :
      GoodDebug 4 (some (leBytes 4 t ++ (leBytes 4 (12 + (s.length + pad)) ++ (leBytes 1 0 ++ (res ++ ((s ++ List.replicate pad 0) ++ rest))))))
        (.misc t (.ansi s))
  | miscWide (t pad u : Nat) (res : Bytes) (w : WStr) (rest : Bytes) (ht : t < 2 ^ 32) (hu : 0 < u ∧ u < 256) (hr : res.length = 3)
      (hp : 0 < w.length + pad) (hl : 12 + 2 * (w.length + pad) < 2 ^ 32) (hw : UcsStr w) (hs : ∀ a, w.getLast? = some a → a ≠ 0) :
      GoodDebug 4 (some (leBytes 4 t ++ (leBytes 4 (12 + 2 * (w.length + pad)) ++ (leBytes 1 u ++ (res ++
        (encUnits (w ++ List.replicate pad 0) ++ rest)))))) (.misc t (.wide w))
  | coff (rest gap : Bytes) (l : List CoffRec) (st : Bytes) (hr : rest.length = 24) (hl : ∀ r ∈ l, r.Ok st) (hf : ∀ r ∈ l, ¬ r.IsFile)
      (hs : 32 + gap.length + 18 * coffCount l + st.length < 2 ^ 32) :
      GoodDebug 1 (some (coffData rest gap l st))
        (.coff (leBytes 4 (coffCount l) ++ (leBytes 4 (32 + gap.length) ++ rest)) (coffWant (fun _ => []) 0 l))

end PE
