/-
What bitmaps, string tables and message tables look like: independent of the readers.
-/
import Verif.Model.ResourceData

namespace PE

/-- Number of entries in the colour table of a bitmap whose info header starts at `o`: `biClrUsed`, or all colours for up to 8 bits per
    pixel. -/
def bmpColours (f : Bytes) (o : Nat) : Nat :=
  if rd 4 f (o + 32) ≠ 0 then rd 4 f (o + 32) else if rd 2 f (o + 14) ≤ 8 then 2 ^ rd 2 f (o + 14) else 0

/-- A bitmap file as most programs write it: signature `BM`, its size, two reserved words, pixels right after the colour table. -/
structure StdBitmap (f : Bytes) : Prop where
  long : 54 ≤ f.length
  short : f.length < 2 ^ 32
  sig : rd 2 f 0 = 0x4d42
  size : rd 4 f 2 = f.length
  res1 : rd 2 f 6 = 0
  res2 : rd 2 f 8 = 0
  bits : rd 4 f 10 = 54 + 4 * bmpColours f 14

/-- Characters that can be stored in a resource. -/
def UcsStr (w : WStr) : Prop := ∀ c ∈ w, c < 0xD800 ∨ (0xE000 ≤ c ∧ c < 0x10000)

/-- The stored form of the strings of a bundle. -/
def encStrings (ws : List WStr) : Bytes := ws.flatMap (fun w => leBytes 2 w.length ++ encUnits w)

/-- Where entry number `j` of a message block starts, whose first entry is at `off`: each entry begins with its length. -/
def msgPos (d : Bytes) (off : Nat) : Nat → Nat
  | 0 => off
  | j + 1 => msgPos d off j + rd 2 d (msgPos d off j)

/-- The first and last number and the place of the first entry of block `i`. -/
def blockLow (d : Bytes) (i : Nat) : Nat := rd 4 d (4 + 12 * i)
def blockHigh (d : Bytes) (i : Nat) : Nat := rd 4 d (8 + 12 * i)
def blockOff (d : Bytes) (i : Nat) : Nat := rd 4 d (12 + 12 * i)

/-- The number `id` is in the range of block `i`. -/
def InBlock (d : Bytes) (i id : Nat) : Prop := blockLow d i ≤ id ∧ id ≤ blockHigh d i

/-- `x` without the zeros at its end is `s`. -/
def Stripped {α : Type} [Zero α] (x s : List α) : Prop := (∃ n, x = s ++ List.replicate n 0) ∧ ∀ a, s.getLast? = some a → a ≠ 0

/-- At `pos` there is a message entry with the text `t`. -/
structure MessageAt (d : Bytes) (pos : Nat) (t : Message) : Prop where
  min : 4 ≤ rd 2 d pos
  fits : pos + rd 2 d pos ≤ d.length
  ansi : rd 2 d (pos + 2) % 2 = 0 → ∃ s, t = .ansi s ∧ Stripped (slice d (pos + 4) (rd 2 d pos - 4)) s
  wide : rd 2 d (pos + 2) % 2 = 1 → rd 2 d pos % 2 = 0 ∧ ∃ w s, t = .wide s ∧ UcsStr w ∧ Stripped w s ∧
    slice d (pos + 4) (rd 2 d pos - 4) = encUnits w

end PE
